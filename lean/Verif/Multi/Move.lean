import Verif.Multi.Flat
import Verif.PortGraph.PropsSet

/-!
# Operations that move ports or nodes

One description of `set_num_ports`, `compact_nodes`, `compact_ports` and `swap_nodes`: nodes are
renamed by `ρ`, the kept ports are moved by `π`, new positions have no link.
-/

namespace Verif.Multi

open Verif (Direction)
open Verif.PG Verif.View

/-- Rename the node of a position. -/
def mapE (ρ : Nat → Nat) (e : Endpoint) : Endpoint := (ρ e.1, e.2)

/-- The graph `g'` is obtained from `g` by renaming and moving. -/
structure Moved (g g' : PG) (ρ π : Nat → Nat) (keep new : Endpoint → Prop) : Prop where
  node : ∀ x', g'.containsNode x' = true ↔ ∃ x, ρ x = x' ∧ g.containsNode x = true
  node_inj : ∀ x y, g.containsNode x = true → g.containsNode y = true → ρ x = ρ y → x = y
  fwd : ∀ p e, At g p e → keep e → At g' (π p) (mapE ρ e)
  back : ∀ p' e', At g' p' e' →
    (∃ p e, At g p e ∧ keep e ∧ p' = π p ∧ e' = mapE ρ e ∧ ¬ new e') ∨ (new e' ∧ ∀ q, ¬ Lk g' p' q)
  lk : ∀ p e q f, At g p e → keep e → At g q f → keep f → (Lk g' (π p) (π q) ↔ Lk g p q)

namespace Moved

variable {g g' : PG} {ρ π : Nat → Nat} {keep new : Endpoint → Prop}

theorem inj (M : Moved g g' ρ π keep new) (hI' : Inv g') {p q : Nat} {e f : Endpoint} (hp : At g p e) (he : keep e)
    (hq : At g q f) (hf : keep f) (h : π p = π q) : p = q := by
  have h1 := M.fwd p e hp he
  have h2 := M.fwd q f hq hf
  rw [h] at h1
  have h3 := h1.inj hI' h2
  obtain ⟨n, x⟩ := e
  obtain ⟨n', x'⟩ := f
  simp only [mapE, Prod.mk.injEq] at h3
  obtain ⟨h4, rfl⟩ := h3
  have := M.node_inj n n' (At.contains hp) (At.contains hq) h4
  subst this
  exact hp.unique hq

/-- Where a link comes from. -/
theorem lk_back (M : Moved g g' ρ π keep new) (hI' : Inv g') {p' q' : Nat} (h : Lk g' p' q') :
    ∃ p e q f, At g p e ∧ keep e ∧ At g q f ∧ keep f ∧ p' = π p ∧ q' = π q ∧ Lk g p q := by
  obtain ⟨e', f', h1, h2, -⟩ := h.at hI'
  rcases M.back _ _ h1 with ⟨p, e, h3, h4, h5, -⟩ | ⟨-, h3⟩
  · rcases M.back _ _ h2 with ⟨q, f, h6, h7, h8, -⟩ | ⟨-, h6⟩
    · refine ⟨p, e, q, f, h3, h4, h6, h7, h5, h8, ?_⟩
      subst h5 h8
      exact (M.lk p e q f h3 h4 h6 h7).1 h
    · exact absurd (h.sym hI') (h6 _)
  · exact absurd h (h3 _)

end Moved

/-! ## `set_num_ports` -/

/-- The calls that `set_num_ports` makes: first those for the dropped ports, then the moves. -/
structure Calls (g : PG) (n i o : Nat) (π : Nat → Nat) (tr1 : List (Nat × PortOp)) (l : List (Nat × Nat)) : Prop where
  drop_nodup : (tr1.map (·.1)).Nodup
  mem_drop : ∀ p, p ∈ tr1.map (·.1) ↔ ∃ e, At g p e ∧ Dropped n i o e
  drop : ∀ x ∈ tr1, ∃ r, x.2 = .removed r ∧ ∀ q f, Lk g x.1 q → At g q f → f.1 ≠ n → r = some q
  pw : l.Pairwise fun x y => x.1 ≠ y.1 ∧ x.2 ≠ y.1
  move : ∀ x ∈ l, x.2 = π x.1 ∧ ∃ e, At g x.1 e ∧ e.1 = n ∧ ¬ Dropped n i o e
  stay : ∀ p e, At g p e → ¬ Dropped n i o e → (∀ x ∈ l, x.1 ≠ p) → π p = p

theorem MoveTrace.list {m nm : NodeMeta} {tr} (h : MoveTrace m nm tr) :
    ∃ l : List (Nat × Nat), tr = l.map (fun x => (x.1, .moved x.2)) ∧ l.Pairwise (fun x y => x.1 ≠ y.1 ∧ x.2 ≠ y.1) ∧
      ∀ x ∈ l, ∃ d, x ∈ (m.ports d).zip (nm.ports d) := by
  rcases h with ⟨hdisj, rfl⟩ | ⟨hf, ⟨hlt, rfl⟩ | ⟨hle, rfl⟩⟩
  · refine ⟨_, rfl, ?_, ?_⟩
    · rw [List.pairwise_append]
      have hpw : ∀ d, ((m.ports d).zip (nm.ports d)).Pairwise fun x y => x.1 ≠ y.1 ∧ x.2 ≠ y.1 := by
        intro d
        rw [List.pairwise_iff_getElem]
        intro i j hi hj hij
        constructor
        · simp [NodeMeta.ports]; omega
        · intro hc
          have h1 := (has_of_zip (List.getElem_mem hj)).1
          have h2 := (has_of_zip (List.getElem_mem hi)).2
          rw [hc, hdisj _ _ _ h1] at h2; simp at h2
      refine ⟨hpw _, hpw _, ?_⟩
      intro x hx y hy
      have h1 := has_of_zip hx
      have h2 := has_of_zip hy
      constructor
      · intro hc; rw [hc] at h1
        have := NodeMeta.has_unique h1.1 h2.1; simp at this
      · intro hc; rw [hc, hdisj _ _ _ h2.1] at h1; simp at h1
    · intro x hx
      rcases List.mem_append.1 hx with hx | hx <;> exact ⟨_, hx⟩
  · refine ⟨_, rfl, ?_, fun x hx => ⟨_, hx⟩⟩
    apply pairwise_zip_ports; simp only [NodeMeta.start]; omega
  · refine ⟨_, rfl, ?_, fun x hx => ⟨_, List.mem_reverse.1 hx⟩⟩
    apply pairwise_zip_ports_rev; simp only [NodeMeta.start]; omega

/-- What is known about a resize of a live node. -/
theorem resize_flat {g : PG} (hI : Inv g) {n i o : Nat} (hn : g.containsNode n = true) {g' : PG}
    {tr : List (Nat × PortOp)} (h : g.setNumPorts n i o = some (g', tr)) :
    Inv g' ∧ (∀ d, g'.numPorts n d = newCount i o d) ∧ ∃ π, Moved g g' id π (fun e => ¬ Dropped n i o e) (fun e => e.1 = n ∧ g.numPorts n e.2.1 ≤ e.2.2) ∧
      (∀ p e, At g p e → e.1 ≠ n → π p = p) ∧
      (∀ p e, At g p e → ¬ Dropped n i o e → PG.track tr p = some (π p)) ∧
      ∃ tr1 l, tr = tr1 ++ l.map (fun x => (x.1, .moved x.2)) ∧ Calls g n i o π tr1 l := by
  rcases setNumPorts_effect hI hn h with ⟨h1, h2, rfl, rfl⟩ | ⟨m, nm, tr1, tr2, hm, hI', rfl, hE, hD, hM⟩
  · have hnd : ∀ p e, At g' p e → ¬ Dropped n i o e := by
      rintro p' ⟨n', d, k⟩ hp ⟨e1, h3⟩
      have hlt : k < g'.numPorts n' d := at_iff_lt.1 ⟨_, hp⟩
      simp only at e1 h3
      subst e1
      cases d <;> simp [newCount] at h3 <;> omega
    refine ⟨hI, by intro d; cases d <;> simpa [newCount], id, ⟨by simp, fun _ _ _ _ h => h, fun p e hp _ => hp, ?_, fun _ _ _ _ _ _ _ _ => Iff.rfl⟩,
      fun _ _ _ _ => rfl, fun _ _ _ _ => rfl, [], [], rfl, ⟨by simp, ?_, by simp, by simp, by simp, fun _ _ _ _ _ => rfl⟩⟩
    · rintro p' ⟨n', d, k⟩ hp
      left
      have hlt : k < g'.numPorts n' d := at_iff_lt.1 ⟨_, hp⟩
      refine ⟨p', _, hp, hnd _ _ hp, rfl, rfl, ?_⟩
      rintro ⟨e1, h3⟩
      simp only at e1 h3
      subst e1; omega
    · intro p
      simp only [List.map_nil, List.not_mem_nil, false_iff]
      rintro ⟨e, h1, h2⟩
      exact hnd _ _ h1 h2
  · have hhas : ∀ e, g.abs.Has e ↔ ∃ p, At g p e := by
      rintro ⟨n', d, k⟩; rw [abs_has]
    refine ⟨hI', ?_, shift m nm, ⟨?_, fun _ _ _ _ h => h, fun p e hp he => hE.shift_at hI hm hp he, ?_, ?_⟩, ?_, ?_, ?_⟩
    · intro d
      have : g'.node? n = some nm := by rw [hE.node]; simp [upd]
      rw [numPorts_eq this, hE.count]
    · intro x'
      unfold PG.containsNode
      rw [hE.node]
      simp only [id, exists_eq_left]
      by_cases hx : x' = n
      · subst hx; simp [upd, hm]
      · simp [upd, hx]
    · intro p' e' hp'
      obtain ⟨h1, h2⟩ := hE.at_old hI hm hp'
      by_cases hh : g.abs.Has e'
      · left
        obtain ⟨p0, h3, h4⟩ := h2 hh
        refine ⟨p0, e', h3, h1, h4, rfl, ?_⟩
        rintro ⟨e1, h5⟩
        obtain ⟨n', d, k⟩ := e'
        simp only at e1 h5
        subst e1
        have := at_iff_lt.1 ⟨p0, h3⟩
        omega
      · right
        obtain ⟨n', d, k⟩ := e'
        have hnn : n' = n := by
          apply Classical.byContradiction
          intro hne
          exact hh ((hhas _).2 ⟨p', (hE.at_other hne).1 hp'⟩)
        subst hnn
        refine ⟨⟨rfl, ?_⟩, ?_⟩
        · simp only
          apply Nat.le_of_not_lt
          intro hlt
          exact hh ((hhas _).2 (at_iff_lt.2 hlt))
        · intro q hq
          have := hE.link_new hI' hm hp' hh
          rw [((lk_iff hI').1 hq).2] at this
          cases this
    · intro p e q f hp he hq hf
      have hp' := hE.shift_at hI hm hp he
      have hq' := hE.shift_at hI hm hq hf
      have hl := hE.link_old hI hI' hm hp he
      have hlive := (live_at hI).2 ⟨e, hp⟩
      have hcut : ∀ y, droppedLk g m i o p = some y ↔ Lk g p y ∧ p ∉ PG.droppedPorts m i o ∧ y ∉ PG.droppedPorts m i o := by
        intro y
        unfold droppedLk
        rw [cut_iff hlive, lk_iff hI]
        simp [hlive]
      rw [lk_iff hI', hl]
      simp only [(live_at hI').2 ⟨e, hp'⟩, true_and, Option.map_eq_some_iff]
      constructor
      · rintro ⟨y, h1, h2⟩
        obtain ⟨h3, h4, h5⟩ := (hcut y).1 h1
        obtain ⟨-, f', -, hy, -⟩ := h3.at hI
        have hyk : ¬ Dropped n i o f' := fun hc => h5 ((mem_dropped hI hm hy).2 hc)
        have h6 := hE.shift_at hI hm hy hyk
        rw [h2] at h6
        have := hq'.inj hI' h6
        subst this
        rw [hq.unique hy]; exact h3
      · intro h1
        exact ⟨q, (hcut q).2 ⟨h1, fun hc => he ((mem_dropped hI hm hp).1 hc), fun hc => hf ((mem_dropped hI hm hq).1 hc)⟩, rfl⟩
    · intro p e hp hne; exact shift_ne hI hm hp hne
    · intro p e hp he
      rw [track_resize hE hI hm hD hM hp]
      rw [at_index]
      exact hE.shift_at hI hm hp he
    · obtain ⟨l, rfl, h1, h2⟩ := MoveTrace.list hM
      have hndp : (PG.droppedPorts m i o).Nodup := by
        unfold PG.droppedPorts
        rw [List.nodup_append]
        refine ⟨(List.nodup_range' (step := 1) ..).sublist (List.drop_sublist ..),
          (List.nodup_range' (step := 1) ..).sublist (List.drop_sublist ..), ?_⟩
        rintro a ha b hb rfl
        exact ports_disjoint (List.mem_of_mem_drop ha) (List.mem_of_mem_drop hb)
      refine ⟨tr1, l, rfl, ⟨by rw [hD.length]; exact hndp, ?_, ?_, h1, ?_, ?_⟩⟩
      · intro p
        rw [hD.length]
        constructor
        · intro hp
          have : ∃ e, At g p e := by
            rcases List.mem_append.1 hp with h3 | h3
            · have := List.mem_of_mem_drop h3
              have h4 : p ∈ g.ports n .incoming := by simp [PG.ports, hm, this]
              obtain ⟨k, hk⟩ := mem_ports.1 h4
              exact ⟨_, hk⟩
            · have := List.mem_of_mem_drop h3
              have h4 : p ∈ g.ports n .outgoing := by simp [PG.ports, hm, this]
              obtain ⟨k, hk⟩ := mem_ports.1 h4
              exact ⟨_, hk⟩
          obtain ⟨e, he⟩ := this
          exact ⟨e, he, (mem_dropped hI hm he).1 hp⟩
        · rintro ⟨e, h3, h4⟩
          exact (mem_dropped hI hm h3).2 h4
      · intro x hx
        obtain ⟨j, hi⟩ := List.mem_iff_getElem?.1 hx
        rw [hD j, Option.map_eq_some_iff] at hi
        obtain ⟨p, hp, rfl⟩ := hi
        refine ⟨_, rfl, ?_⟩
        intro q f hl hq hf
        obtain ⟨h3, h4⟩ := (lk_iff hI).1 hl
        have hnq : q ∉ PG.droppedPorts m i o := fun hc => hf ((mem_dropped hI hm hq).1 hc).1
        rw [cut_iff h3]
        refine ⟨h4, decide_eq_false ?_, decide_eq_false fun hc => hnq (List.mem_of_mem_take hc)⟩
        intro hc
        obtain ⟨j', hj, hj'⟩ := List.mem_take_iff_getElem.1 hc
        have hlt : j' < (PG.droppedPorts m i o).length := by omega
        have e1 := List.getElem?_eq_getElem hlt
        rw [hj'] at e1
        have := (List.getElem?_inj hlt hndp).1 (e1.trans hp.symm)
        omega
      · intro x hx
        obtain ⟨d, hd⟩ := h2 x hx
        obtain ⟨k, h3, h4, h5, h6⟩ := (mem_zip_ports (p := x.1) (r := x.2)).1 hd
        have ha : At g x.1 (n, d, k) := ⟨m, hm, h3, h5⟩
        have hk : ¬ Dropped n i o (n, d, k) := by
          rintro ⟨-, h7⟩
          rw [hE.count] at h4
          simp only at h7
          omega
        refine ⟨?_, _, ha, rfl, hk⟩
        obtain ⟨m', h7, -, h8⟩ := hE.shift_at hI hm ha hk
        simp only at h7 h8
        rw [hE.node] at h7
        simp [upd] at h7
        subst h7
        rw [h6, h8]
      · intro p e hp he hno
        have h3 := track_moved_not (p := p) hno
        rw [hM.track] at h3
        · simpa using h3
        · intro d hd
          have hen : e.1 = n := (has_iff_node hI hm hp).1 ⟨d, hd⟩
          obtain ⟨n', d', k⟩ := e
          simp only at hen
          subst hen
          obtain ⟨m', h4, h5, h6⟩ := hp
          simp only at h4 h5 h6
          rw [hm] at h4; cases h4
          have : d' = d := by
            apply NodeMeta.has_unique _ hd
            exact NodeMeta.has_iff.2 ⟨by omega, by omega⟩
          subst this
          rw [hE.count]
          apply Nat.lt_of_not_le
          intro hc
          exact he ⟨rfl, by simp only; omega⟩

/-! ## Compaction -/

/-- `compact_nodes`. -/
theorem compactNodes_flat {g : PG} (hI : Inv g) :
    ∃ g', g.compactNodes = some (g', ((List.range g.nodeMeta.length).filter g.live).map fun n => (n, g.nodeRank n)) ∧
      Inv g' ∧ Moved g g' g.nodeRank id (fun _ => True) (fun _ => False) := by
  obtain ⟨g', h1, h2, h3, h4, h5, -⟩ := compactNodes_ok hI
  have hat : ∀ p x d k, At g p (x, d, k) → At g' p (g.nodeRank x, d, k) := by
    rintro p x d k ⟨m, hm, h6, h7⟩
    exact ⟨m, (h3 _ _).2 ⟨x, rfl, hm⟩, h6, h7⟩
  have hcont : ∀ x', g'.containsNode x' = true ↔ ∃ x, g.nodeRank x = x' ∧ g.containsNode x = true := by
    intro x'
    simp only [PG.containsNode, Option.isSome_iff_exists]
    constructor
    · rintro ⟨m, hm⟩
      obtain ⟨x, hx, hx'⟩ := (h3 _ _).1 hm
      exact ⟨x, hx, m, hx'⟩
    · rintro ⟨x, hx, m, hm⟩
      exact ⟨m, (h3 _ _).2 ⟨x, hx, hm⟩⟩
  have hlk : ∀ p q, Lk g' p q ↔ Lk g p q := by
    intro p q
    rw [lk_iff hI, lk_iff h2, h4, h5]; simp
  refine ⟨g', h1, h2, ⟨hcont, ?_, fun p e hp _ => hat p e.1 e.2.1 e.2.2 hp, ?_, fun p _ q _ _ _ _ _ => hlk p q⟩⟩
  · intro x y hx hy h
    exact nodeRank_inj (containsNode_iff.1 hx) (containsNode_iff.1 hy) h
  · rintro p' ⟨x', d, k⟩ ⟨m, hm, h6, h7⟩
    obtain ⟨x, hx, hx'⟩ := (h3 _ _).1 hm
    simp only at hx
    subst hx
    exact .inl ⟨p', (x, d, k), ⟨m, hx', h6, h7⟩, trivial, rfl, rfl, not_false⟩

/-- `swap_nodes`. -/
theorem swapNodes_flat {g : PG} (hI : Inv g) {a b : Nat} (hs : g.swappable a b = true) :
    ∃ g', g.swapNodes a b = some g' ∧ Inv g' ∧ Moved g g' (swapIdx a b) id (fun _ => True) (fun _ => False) := by
  obtain ⟨g', h1, h2, h3, h4, h5, -⟩ := swapNodes_all_ok hI hs
  have hinv : ∀ x, swapIdx a b (swapIdx a b x) = x := by
    intro x; unfold swapIdx; split <;> split <;> simp_all
  have hlk : ∀ p q, Lk g' p q ↔ Lk g p q := by
    intro p q
    rw [lk_iff hI, lk_iff h2, h4, h5]; simp
  refine ⟨g', h1, h2, ⟨?_, ?_, ?_, ?_, fun p _ q _ _ _ _ _ => hlk p q⟩⟩
  · intro x'
    constructor
    · intro h
      refine ⟨swapIdx a b x', hinv _, ?_⟩
      rw [PG.containsNode, h3] at h; exact h
    · rintro ⟨x, rfl, h⟩
      rw [PG.containsNode, h3, hinv]; exact h
  · intro x y _ _ h
    have := congrArg (swapIdx a b) h
    rwa [hinv, hinv] at this
  · rintro p ⟨x, d, k⟩ ⟨m, hm, h6⟩ -
    exact ⟨m, by rw [mapE, h3, hinv]; exact hm, h6⟩
  · rintro p' ⟨x', d, k⟩ ⟨m, hm, h6⟩
    rw [h3] at hm
    exact .inl ⟨p', (swapIdx a b x', d, k), ⟨m, hm, h6⟩, trivial, rfl, by simp [mapE, hinv], not_false⟩

/-- `compact_ports`. -/
theorem compactPorts_flat {g : PG} (hI : Inv g)
    (hempty : ∀ n, g.numPorts n .incoming + g.numPorts n .outgoing = 0 → g.nodePortCapacity n = 0) :
    ∃ g', g.compactPorts = some (g', ((List.range g.portMeta.length).filter fun p => (g.port? p).isSome).map
        fun p => (p, rank g.port? p)) ∧
      Inv g' ∧ Moved g g' id (rank g.port?) (fun _ => True) (fun _ => False) := by
  obtain ⟨g', h1, h2, h3, h4, h5, -⟩ := compactPorts_ok hI (by
    intro n m hn h0
    have := hempty n
    rw [numPorts_eq hn, numPorts_eq hn, capacity_eq hn] at this
    exact this h0)
  have hback : ∀ p' e, At g' p' e → ∃ p, At g p e ∧ p' = rank g.port? p := by
    rintro p' ⟨n, d, k⟩ ha
    have hh : k < g.numPorts n d := by
      have h6 := at_iff_lt.1 ⟨p', ha⟩
      cases hm : g.node? n with
      | none =>
        have h7 := h3 n
        rw [hm] at h7
        obtain ⟨m, hm', -⟩ := ha
        rw [h7] at hm'; cases hm'
      | some m =>
        have h7 := h3 n
        rw [hm] at h7
        rw [numPorts_eq h7] at h6
        rw [numPorts_eq hm]
        simp only [packed] at h6
        split at h6 <;> cases d <;> simp only [NodeMeta.numPorts] at * <;> omega
    obtain ⟨p, hp⟩ := at_iff_lt.2 hh
    exact ⟨p, hp, ha.unique (packed_at hI h3 hp)⟩
  refine ⟨g', h1, h2, ⟨?_, fun _ _ _ _ h => h, fun p e hp _ => packed_at hI h3 hp, ?_, ?_⟩⟩
  · intro x'
    simp only [id, exists_eq_left, PG.containsNode]
    rw [h3]; simp
  · intro p' e' h
    obtain ⟨p, hp, rfl⟩ := hback _ _ h
    exact .inl ⟨p, e', hp, trivial, rfl, rfl, not_false⟩
  · intro p e q f hp _ hq _
    have hl := h5 p ((live_at hI).2 ⟨e, hp⟩)
    rw [lk_iff h2, hl, lk_iff hI, Option.map_eq_some_iff]
    simp only [(live_at hI).2 ⟨e, hp⟩, (live_at h2).2 ⟨e, packed_at hI h3 hp⟩, true_and]
    constructor
    · rintro ⟨y, h6, h7⟩
      obtain ⟨-, f', -, hy, -⟩ := Lk.at hI ((lk_iff hI).2 ⟨(live_at hI).2 ⟨e, hp⟩, h6⟩)
      have h8 := packed_at hI h3 hy
      rw [h7] at h8
      have := (packed_at hI h3 hq).inj h2 h8
      subst this
      rw [hq.unique hy]; exact h6
    · intro h; exact ⟨q, h, rfl⟩

end Verif.Multi
