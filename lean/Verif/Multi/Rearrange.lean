import Verif.Multi.Remove

/-!
# Effects of `compact_nodes`, `swap_nodes`, `compact_ports` and `set_num_ports` of a `MultiPortGraph`
-/

namespace Verif.Multi

open Verif (Direction)
open Verif.PG Verif.View

variable {m : MG} {D : Nat → Prop}

/-- Only names change: shown nodes are renamed by `ρ`, shown ports by `π`; positions and links are kept. -/
structure Renamed (m m' : MG) (ρ π : Nat → Nat) : Prop where
  node : ∀ x', VNode m' x' ↔ ∃ x, VNode m x ∧ ρ x = x'
  node_inj : ∀ x y, VNode m x → VNode m y → ρ x = ρ y → x = y
  at_iff : ∀ p' e', VAt m' p' e' ↔ ∃ p e, VAt m p e ∧ p' = π p ∧ e' = mapE ρ e
  port_inj : ∀ p e q f, VAt m p e → VAt m q f → π p = π q → p = q
  shows : ∀ x y, ShowsR m' x y ↔ ∃ p k r l, ShowsR m (p, k) (r, l) ∧ x = (π p, k) ∧ y = (π r, l)
  subs : ∀ z, (∃ q, Sub m' q z) ↔ ∃ p k, (∃ q, Sub m q (p, k)) ∧ z = (π p, k)

theorem moved_eff (h : MOk m) {g' : PG} (hI' : Inv g') {ρ π : Nat → Nat}
    (M : Moved m.graph g' ρ π (fun _ => True) (fun _ => False)) {f c : Nat → Bool}
    (hf : ∀ p e, At m.graph p e → f (π p) = m.multi p) (hf' : ∀ z, f z = true → ∃ p e, At m.graph p e ∧ z = π p)
    (hc : ∀ x, m.graph.containsNode x = true → c (ρ x) = m.copy x)
    (hc' : ∀ z, c z = true → ∃ x, m.graph.containsNode x = true ∧ ρ x = z) :
    MOk ⟨g', f, c, m.copyCount, m.subCount⟩ ∧ Renamed m ⟨g', f, c, m.copyCount, m.subCount⟩ ρ π := by
  have T : Trans m ⟨g', f, c, m.copyCount, m.subCount⟩ ρ π (fun _ => True) (fun _ => False) := by
    refine ⟨hI', M.node_inj, M.fwd, ?_, M.lk, fun p e hp _ => hf p e hp, fun _ _ _ h => h.elim, ?_, hc, hc', fun _ _ => trivial,
      fun _ _ _ h => h.elim⟩
    · intro p' e' hp
      rcases M.back p' e' hp with ⟨p, e, h1, h2, h3, h4, -⟩ | ⟨h1, -⟩
      · exact .inl ⟨p, e, h1, h2, h3, h4⟩
      · exact h1.elim
    · intro z hz
      obtain ⟨p, e, h1, rfl⟩ := hf' z hz
      exact ⟨_, M.fwd p e h1 trivial⟩
  refine ⟨(T.minv h rfl (T.subs_same h (fun _ h => h.elim) rfl)).mono ?_, ?_, ?_, ?_, ?_, ?_, ?_⟩
  · intro x
    simp only [false_iff]
    rintro ⟨y, -, h1 | ⟨p, e, -, h1, -⟩⟩
    · exact h1
    · exact h1 trivial
  · intro x'
    unfold VNode
    simp only [M.node]
    constructor
    · rintro ⟨⟨x, rfl, h1⟩, h2⟩
      exact ⟨x, ⟨h1, by rw [← hc x h1, h2]⟩, rfl⟩
    · rintro ⟨x, ⟨h1, h2⟩, rfl⟩
      exact ⟨⟨x, rfl, h1⟩, by rw [hc x h1, h2]⟩
  · intro x y hx hy; exact M.node_inj x y hx.1 hy.1
  · intro p' e'
    rw [T.vat (fun _ _ _ h => h.elim)]
    simp
  · intro p e q f hp hq
    exact M.inj hI' hp.1 trivial hq.1 trivial
  · intro x y
    rw [T.shows h]
    constructor
    · rintro ⟨p, k, r, l, h1, -, -, h2, h3⟩; exact ⟨p, k, r, l, h1, h2, h3⟩
    · rintro ⟨p, k, r, l, h1, h2, h3⟩
      obtain ⟨⟨e, h4⟩, ⟨e', h5⟩⟩ := shows_vat h h1
      exact ⟨p, k, r, l, h1, ⟨e, h4.1, trivial⟩, ⟨e', h5.1, trivial⟩, h2, h3⟩
  · intro z
    rw [T.subs_iff h (fun _ h => h.elim)]
    constructor
    · rintro (⟨p, k, e, h1, -, -, h2⟩ | ⟨-, _, -, h1⟩)
      · exact ⟨p, k, h1, h2⟩
      · exact h1.elim
    · rintro ⟨p, k, ⟨q, h1⟩, h2⟩
      obtain ⟨x, c, d, k', l, a6, a7, -⟩ := h.sub_vis h1
      exact .inl ⟨p, k, _, ⟨q, h1⟩, a6, trivial, h2⟩

/-- Effect of `compact_nodes`. -/
theorem compactNodes_eff (h : MOk m) : ∃ m' tr, m.compactNodes = some (m', tr) ∧ MOk m' ∧
    Renamed m m' m.graph.nodeRank id ∧
    tr = ((List.range m.graph.nodeMeta.length).filter m.graph.live).map fun n => (n, m.graph.nodeRank n) := by
  obtain ⟨g', h1, h2, M⟩ := compactNodes_flat h.inv
  have hlive : ∀ x, m.graph.live x = true ↔ m.graph.containsNode x = true := fun x => by
    rw [live_iff, containsNode_iff]
  have hlt : ∀ x, m.graph.live x = true → x < m.graph.nodeMeta.length := by
    intro x hx
    rw [live_iff] at hx
    apply Nat.lt_of_not_le
    intro hc
    simp [PG.node?, List.getElem?_eq_none hc] at hx
  obtain ⟨a1, a2⟩ := swaps_rank (P := m.graph.live) (r := m.graph.nodeRank) (N := m.graph.nodeMeta.length) (f := m.copy)
    (fun x => cnt_le _ _) (fun x y hx hy hc => M.node_inj x y ((hlive x).1 hx) ((hlive y).1 hy) hc)
    (fun x hx => ⟨(hlive x).2 (h.copyLive x hx), hlt x ((hlive x).2 (h.copyLive x hx))⟩) hlt
  obtain ⟨b1, b2⟩ := moved_eff h h2 M (f := m.multi) (fun _ _ _ => rfl)
    (fun z hz => by obtain ⟨e, he⟩ := h.multi_live hz; exact ⟨z, e, he, rfl⟩)
    (c := swaps m.copy _) (fun x hx => a1 x ((hlive x).2 hx))
    (fun z hz => by obtain ⟨x, hx, rfl⟩ := a2 z hz; exact ⟨x, (hlive x).1 hx, rfl⟩)
  refine ⟨_, _, ?_, b1, b2, rfl⟩
  unfold MG.compactNodes
  rw [h1]; rfl

/-- Effect of `swap_nodes` on shown nodes and spare slots. -/
theorem swapNodes_eff (h : MOk m) {a b : Nat} (hs : m.graph.swappable a b = true) (ha : m.copy a = false)
    (hb : m.copy b = false) :
    ∃ m', m.swapNodes a b = some m' ∧ MOk m' ∧ Renamed m m' (swapIdx a b) id := by
  obtain ⟨g', h1, h2, M⟩ := swapNodes_flat h.inv hs
  have hsw : swapFlag m.copy a b = m.copy := by
    funext x; unfold swapFlag
    split
    · rename_i h; rw [h, ha, hb]
    · split
      · rename_i h; rw [h, ha, hb]
      · rfl
  have hfix : ∀ x, m.copy (swapIdx a b x) = m.copy x := by
    intro x; unfold swapIdx
    split
    · rename_i h; rw [h, ha, hb]
    · split
      · rename_i h; rw [h, ha, hb]
      · rfl
  obtain ⟨b1, b2⟩ := moved_eff h h2 M (f := m.multi) (fun _ _ _ => rfl)
    (fun z hz => by obtain ⟨e, he⟩ := h.multi_live hz; exact ⟨z, e, he, rfl⟩)
    (c := m.copy) (fun x hx => hfix x)
    (fun z hz => by
      have hz' : m.copy (swapIdx a b z) = true := by rw [hfix, hz]
      refine ⟨swapIdx a b z, h.copyLive _ hz', ?_⟩
      unfold swapIdx; split <;> split <;> simp_all)
  refine ⟨_, ?_, b1, b2⟩
  unfold MG.swapNodes
  rw [h1, hsw]; rfl

/-- Effect of `compact_ports`. -/
theorem compactPorts_eff (h : MOk m) (hempty : ∀ n, m.graph.numPorts n .incoming + m.graph.numPorts n .outgoing = 0 →
      m.graph.nodePortCapacity n = 0) : ∃ m' tr, m.compactPorts = some (m', tr) ∧ MOk m' ∧
    Renamed m m' id (rank m.graph.port?) ∧
    tr = ((List.range m.graph.portMeta.length).filter fun p => (m.graph.port? p).isSome).map
      fun p => (p, rank m.graph.port? p) := by
  obtain ⟨g', h1, h2, M⟩ := compactPorts_flat h.inv hempty
  have hlt : ∀ x, (m.graph.port? x).isSome = true → x < m.graph.portMeta.length := by
    intro x hx
    apply Nat.lt_of_not_le
    intro hc
    simp [PG.port?, List.getElem?_eq_none hc] at hx
  obtain ⟨a1, a2⟩ := swaps_rank (P := fun p => (m.graph.port? p).isSome) (r := rank m.graph.port?)
    (N := m.graph.portMeta.length) (f := m.multi)
    (fun x => rank_le _ _) (fun x y hx hy hc => rank_inj hx hy hc)
    (fun x hx => by
      have := (live_at h.inv).2 (h.multi_live hx)
      exact ⟨this, hlt x this⟩) hlt
  obtain ⟨b1, b2⟩ := moved_eff h h2 M (f := swaps m.multi _) (fun p e hp => a1 p ((live_at h.inv).2 ⟨e, hp⟩))
    (fun z hz => by
      obtain ⟨x, hx, rfl⟩ := a2 z hz
      obtain ⟨e, he⟩ := (live_at h.inv).1 hx
      exact ⟨x, e, he, rfl⟩)
    (c := m.copy) (fun x hx => rfl) (fun z hz => ⟨z, h.copyLive z hz, rfl⟩)
  refine ⟨_, _, ?_, b1, b2, rfl⟩
  unfold MG.compactPorts
  rw [h1]; rfl

/-! ## `set_num_ports` -/

/-- The copy nodes of the dropped multiports are removed one after the other. -/
theorem removeCopies_eff {L : List (Nat × Nat)} : ∀ {g : PG} {f f0 copy : Nat → Bool} {cc sc : Nat} {D : Nat → Prop},
    MInv ⟨g, f0, copy, cc, sc⟩ D → (∀ x, D x ↔ x ∈ L.map (·.2)) → (L.map (·.1)).Nodup → (L.map (·.2)).Nodup →
    (∀ p ∈ L.map (·.1), f0 p = false ∧ ∀ e, At g p e → copy e.1 = false) →
    (∀ z, f z = (f0 z || decide (z ∈ L.map (·.1)))) →
    ∃ m', MG.removeCopies ⟨g, f, copy, cc, sc⟩ L = some m' ∧ MOk m' ∧
      (∀ x, VNode m' x ↔ VNode ⟨g, f0, copy, cc, sc⟩ x) ∧ (∀ q e, VAt m' q e ↔ VAt ⟨g, f0, copy, cc, sc⟩ q e) ∧
      (∀ x y, ShowsR m' x y ↔ ShowsR ⟨g, f0, copy, cc, sc⟩ x y) ∧
      (∀ n d, copy n = false → m'.graph.numPorts n d = g.numPorts n d) ∧
      (∀ z, (∃ q, Sub m' q z) ↔ ∃ q, Sub ⟨g, f0, copy, cc, sc⟩ q z) := by
  induction L with
  | nil =>
    intro g f f0 copy cc sc D h hD _ _ _ hf
    have : f = f0 := by funext z; rw [hf z]; simp
    subst this
    exact ⟨_, rfl, h.mono (by intro x; rw [hD]; simp), fun _ => Iff.rfl, fun _ _ => Iff.rfl, fun _ _ => Iff.rfl, fun _ _ _ => rfl, fun _ => Iff.rfl⟩
  | cons a L ih =>
    obtain ⟨p, cp⟩ := a
    intro g f f0 copy cc sc D h hD h1 h2 h3 hf
    simp only [List.map_cons, List.nodup_cons] at h1 h2
    have hDcp : D cp := (hD cp).2 (by simp)
    obtain ⟨⟨c, d', k⟩, o1, o2, o3, o4⟩ := h.orphan cp hDcp
    have hC := h.copy_port o2 o1 o3
    have hnot : ∀ z ∈ ((p, cp) :: L).map (·.1), z ≠ cp := by
      rintro z hz rfl
      have := (h3 z hz).1
      rw [show f0 z = true from o3] at this; cases this
    obtain ⟨r, g', sc', r1, r2, r3, r4, r5, -, r6⟩ := removeCopy_ok (f := f) h (by
      intro q e hq he
      rw [hf q]
      have : q ∉ ((p, cp) :: L).map (·.1) := by
        intro hc
        have := (h3 q hc).2 e hq
        rw [he] at this; cases this
      rw [decide_eq_false this]; simp) hC (p := p) (.inr ⟨hDcp, (h3 p (by simp)).1⟩)
    have hnl : ¬ Lk g p cp := fun hl => o4 p (hl.sym h.inv)
    have hcc : ∀ n, copy n = false → n ≠ c := by
      rintro n hn rfl
      rw [show copy n = true from o2] at hn; cases hn
    obtain ⟨m', i1, i2, i3, i4, i5, i6, i7⟩ := ih r2 (by
      intro x
      rw [hD]
      simp only [List.map_cons, List.mem_cons]
      constructor
      · rintro ⟨h4 | h4, h5⟩
        · exact absurd h4 h5
        · exact h4
      · intro h4
        exact ⟨.inr h4, by rintro rfl; exact h2.1 h4⟩) h1.2 h2.2 (by
      intro q hq
      have hq' : q ∈ ((p, cp) :: L).map (·.1) := by simp only [List.map_cons]; exact List.mem_cons_of_mem _ hq
      obtain ⟨h4, h5⟩ := h3 q hq'
      refine ⟨?_, ?_⟩
      · unfold setFlag; split
        · rfl
        · split
          · rfl
          · exact h4
      · intro e he
        obtain ⟨h6, h7⟩ := (r3 _ _).1 he
        simp only [setFlag, h7, if_false]
        exact h5 e h6) (f := setFlag (setFlag f cp false) p false) (by
      intro z
      unfold setFlag
      by_cases hz : z = p
      · subst hz
        simp [h1.1]
      · by_cases hz' : z = cp
        · subst hz'
          have : z ∉ L.map (·.1) := fun hc => hnot z (by simp only [List.map_cons]; exact List.mem_cons_of_mem _ hc) rfl
          simp only [if_neg hz, if_true, decide_eq_false this, Bool.or_self]
        · simp only [if_neg hz, if_neg hz', hf z]
          congr 1
          simp [hz])
    refine ⟨m', ?_, i2, ?_, ?_, ?_, ?_, ?_⟩
    · unfold MG.removeCopies
      rw [r1]
      exact i1
    · intro x
      rw [i3]
      unfold VNode
      simp only [r4, setFlag]
      by_cases hx : x = c
      · subst hx; simp only [if_true]
        constructor
        · rintro ⟨⟨h4, -⟩, -⟩; exact absurd rfl h4
        · rintro ⟨-, h4⟩; exact absurd rfl (hcc _ h4)
      · simp [hx]
    · intro q e
      rw [i4]
      unfold VAt
      simp only [r3, setFlag]
      by_cases hx : e.1 = c
      · constructor
        · rintro ⟨⟨-, h4⟩, -⟩; exact absurd hx h4
        · rintro ⟨-, h4⟩; exact absurd hx (hcc _ h4)
      · simp [hx]
    · intro x y
      rw [i5, r5]
      simp [hnl]
    · intro n d hn
      have hne := hcc n hn
      rw [i6 n d (by simp [setFlag, hne, hn])]
      exact num_of_at fun q k => by rw [r3]; simp [hne]
    · intro z
      rw [i7, r6]
      simp [hnl]

/-- Effect of `set_num_ports` on a shown node, when the port graph can resize the node and no port
moves to the place of a removed multiport. -/
theorem setNumPorts_eff (h : MOk m) {n i o : Nat} (hn : VNode m n) {g' : PG} {tr : List (Nat × PortOp)}
    (hg : m.graph.setNumPorts n i o = some (g', tr))
    (hok : ∀ x y r, (x, .moved y) ∈ tr → (y, .removed r) ∈ tr → m.multi y = false) :
    ∃ (m' : MG) (π : Nat → Nat), m.setNumPorts n i o = some (m', tr) ∧ MOk m' ∧ (∀ x, VNode m' x ↔ VNode m x) ∧
      (∀ d, m'.graph.numPorts n d = newCount i o d) ∧
      (∀ p e, VAt m p e → ¬ Dropped n i o e → PG.track tr p = some (π p)) ∧
      (∀ p e, VAt m p e → e.1 ≠ n → π p = p) ∧
      (∀ p e, VAt m p e → ¬ Dropped n i o e → VAt m' (π p) e) ∧
      (∀ p' e, VAt m' p' e → (∃ p, VAt m p e ∧ ¬ Dropped n i o e ∧ p' = π p) ∨ (e.1 = n ∧ m.graph.numPorts n e.2.1 ≤ e.2.2)) ∧
      (∀ x y, ShowsR m' x y ↔ ∃ p k r l, ShowsR m (p, k) (r, l) ∧ (∃ e, VAt m p e ∧ ¬ Dropped n i o e) ∧
        (∃ e, VAt m r e ∧ ¬ Dropped n i o e) ∧ x = (π p, k) ∧ y = (π r, l)) ∧
      (∀ z, (∃ q, Sub m' q z) ↔ (∃ p k e, (∃ q, Sub m q (p, k)) ∧ VAt m p e ∧ ¬ Dropped n i o e ∧ z = (π p, k)) ∨
        (z.2 = 0 ∧ ∃ e, VAt m' z.1 e ∧ e.1 = n ∧ m.graph.numPorts n e.2.1 ≤ e.2.2)) := by
  obtain ⟨hI', hnum, π, M, hother, htr, tr1, l, rfl, hC⟩ := resize_flat h.inv hn.1 hg
  -- dropped multiports
  have hdropM : ∀ p e, At m.graph p e → Dropped n i o e → m.multi p = true →
      ∃ q f, At m.graph q f ∧ Lk m.graph p q ∧ m.multi q = true ∧ m.copy f.1 = true ∧ f.1 ≠ n := by
    intro p e hp hd hm
    obtain ⟨q, f, h1, h2, h3, h4⟩ := h.multi_at hm (by simp) hp
    rw [show e.1 = n from hd.1, hn.2] at h4
    refine ⟨q, f, h1, h2, h3, h4, ?_⟩
    intro hc; rw [hc, hn.2] at h4; cases h4
  have hdropr : ∀ p r, (p, r) ∈ tr1 → m.multi p = true → ∃ q, r = .removed (some q) ∧ Lk m.graph p q ∧
      ∃ f, At m.graph q f ∧ m.copy f.1 = true := by
    intro p r hpr hm
    obtain ⟨e, h1, h2⟩ := (hC.mem_drop p).1 (List.mem_map.2 ⟨_, hpr, rfl⟩)
    obtain ⟨q, f, h3, h4, h5, h6, h7⟩ := hdropM p e h1 h2 hm
    obtain ⟨r', h8, h9⟩ := hC.drop _ hpr
    simp only at h8 h9
    subst h8
    exact ⟨q, by rw [h9 q f h4 h3 h7], h4, f, h3, h6⟩
  obtain ⟨L, hL1, hL2, hL3⟩ := rekeyFlags_ok (f := m.multi) (l := l) tr1 (by
    rintro ⟨p, r⟩ hx
    obtain ⟨r', h8, h9⟩ := hC.drop _ hx
    refine ⟨r', h8, fun hm => ?_⟩
    obtain ⟨q, h1, -⟩ := hdropr p r hx hm
    simp only at h8
    rw [h1] at h8
    cases h8
    exact ⟨q, rfl⟩)
  have hok' : ∀ x ∈ l, x.2 ∈ tr1.map (·.1) → m.multi x.2 = false := by
    rintro ⟨x, y⟩ hx hy
    obtain ⟨⟨y', r⟩, h1, h2⟩ := List.mem_map.1 hy
    simp only at h2
    subst h2
    obtain ⟨r', h3, -⟩ := hC.drop _ h1
    simp only at h3
    subst h3
    exact hok x y' r' (List.mem_append.2 (.inr (List.mem_map.2 ⟨_, hx, rfl⟩))) (List.mem_append.2 (.inl h1))
  obtain ⟨f1, f2, f3⟩ := swaps_calls h.inv hI' M hC (f := m.multi) (fun x hx => h.multi_live hx) hok'
  -- the reference state
  have hZ : ∀ z, z ∈ L.map (·.1) ↔ z ∈ tr1.map (·.1) ∧ m.multi z = true := by
    intro z; rw [hL3, List.mem_filter]
  have himg : ∀ p e, At m.graph p e → ¬ Dropped n i o e → π p ∉ L.map (·.1) := by
    intro p e hp hd hz
    obtain ⟨h1, h2⟩ := (hZ _).1 hz
    by_cases hx : ∃ x ∈ l, x.1 = p
    · obtain ⟨x, hx, rfl⟩ := hx
      rw [← (hC.move x hx).1] at h1 h2
      rw [hok' x hx h1] at h2; cases h2
    · have h3 := hC.stay p e hp hd (by
        intro x hxl hxp; exact hx ⟨x, hxl, hxp⟩)
      rw [h3] at h1
      obtain ⟨e', h4, h5⟩ := (hC.mem_drop p).1 h1
      rw [h4.inj h.inv hp] at h5
      exact hd h5
  let f0 : Nat → Bool := fun z => swaps m.multi l z && !decide (z ∈ L.map (·.1))
  have hf0 : ∀ z, f0 z = true ↔ swaps m.multi l z = true ∧ z ∉ L.map (·.1) := by
    intro z; simp only [f0, Bool.and_eq_true, Bool.not_eq_true', decide_eq_false_iff_not]
  have T : Trans m ⟨g', f0, m.copy, m.copyCount, m.subCount⟩ id π (fun e => ¬ Dropped n i o e)
      (fun e => e.1 = n ∧ m.graph.numPorts n e.2.1 ≤ e.2.2) := by
    refine ⟨hI', fun _ _ _ _ h => h, M.fwd, ?_, M.lk, ?_, ?_, ?_, fun _ _ => rfl, ?_, ?_, ?_⟩
    · intro p' e' hp
      rcases M.back p' e' hp with ⟨p, e, h1, h2, h3, h4, -⟩ | h1
      · exact .inl ⟨p, e, h1, h2, h3, h4⟩
      · exact .inr h1
    · intro p e hp hd
      rw [← f1 p e hp hd]
      show f0 (π p) = _
      simp only [f0]
      rw [decide_eq_false (himg p e hp hd)]
      simp
    · intro p' e' hp hnew
      show f0 p' = false
      cases hc : f0 p' with
      | false => rfl
      | true =>
        obtain ⟨h1, h2⟩ := (hf0 p').1 hc
        rcases f2 p' h1 with ⟨p, e, h3, h4, rfl⟩ | ⟨h3, h4⟩
        · have h5 := hp.inj hI' (M.fwd p e h3 h4)
          have h6 := at_iff_lt.1 ⟨p, show At m.graph p (e.1, e.2.1, e.2.2) from h3⟩
          subst h5
          simp only [mapE, id] at hnew
          rw [← hnew.1] at hnew
          omega
        · exact absurd ((hZ _).2 ⟨h4, h3⟩) h2
    · intro p' hp'
      obtain ⟨h1, h2⟩ := (hf0 p').1 hp'
      rcases f2 p' h1 with ⟨p, e, h3, h4, rfl⟩ | ⟨h3, h4⟩
      · exact ⟨_, M.fwd p e h3 h4⟩
      · exact absurd ((hZ _).2 ⟨h4, h3⟩) h2
    · intro x hx; exact ⟨x, h.copyLive x hx, rfl⟩
    · intro e he hd
      rw [show e.1 = n from hd.1, hn.2] at he; cases he
    · intro c d k h1 h2
      simp only at h1 h2
      rw [h1.1, hn.2] at h2; cases h2
  have hM0 := T.minv h rfl (T.subs_same h (by
    rintro e ⟨h1, -⟩
    show m.copy e.1 = false
    rw [h1, hn.2]) rfl)
  have hpair : ∀ p q, (p, q) ∈ L → m.multi p = true ∧ Lk m.graph p q ∧ p ∈ tr1.map (·.1) ∧ π q = q := by
    intro p q hpq
    obtain ⟨h1, h2⟩ := (hL2 p q).1 hpq
    obtain ⟨q', h3, h4, f, h5, h6⟩ := hdropr _ _ h2 h1
    cases h3
    refine ⟨h1, h4, List.mem_map.2 ⟨_, h2, rfl⟩, hother q f h5 ?_⟩
    intro hc; rw [hc, hn.2] at h6; cases h6
  obtain ⟨m', i1, i2, i3, i4, i5, i6, i7⟩ := removeCopies_eff (L := L) (f := swaps m.multi l) hM0 (by
      intro x
      constructor
      · rintro ⟨y, rfl, h1 | ⟨p, e, h1, h2, h3, h4⟩⟩
        · exact h1.elim
        · simp only [Classical.not_not] at h2
          obtain ⟨⟨p', r⟩, h5, h6⟩ := List.mem_map.1 ((hC.mem_drop p).2 ⟨e, h1, h2⟩)
          simp only at h6
          subst h6
          obtain ⟨q, rfl, h7, f, h8, h9⟩ := hdropr _ _ h5 h3
          obtain rfl := h7.fun h4
          have := (hL2 _ _).2 ⟨h3, h5⟩
          rw [(hpair _ _ this).2.2.2]
          exact List.mem_map.2 ⟨_, this, rfl⟩
      · intro hx
        obtain ⟨⟨p, q⟩, hpq, rfl⟩ := List.mem_map.1 hx
        obtain ⟨h1, h2, h3, h4⟩ := hpair p q hpq
        obtain ⟨e, h5, h6⟩ := (hC.mem_drop p).1 h3
        exact ⟨q, h4.symm, .inr ⟨p, e, h5, fun h => h h6, h1, h2⟩⟩) (by
      rw [hL3]; exact hC.drop_nodup.filter _) (by
      have hnd : (L.map (·.1)).Nodup := by rw [hL3]; exact hC.drop_nodup.filter _
      rw [List.nodup_map_iff_inj_on (List.Nodup.of_map _ hnd)]
      rintro ⟨p, q⟩ h1 ⟨p', q'⟩ h2 h3
      simp only at h3
      subst h3
      rw [(hpair _ _ h1).2.1.inj h.inv (hpair _ _ h2).2.1]) (by
      intro p hp
      refine ⟨?_, ?_⟩
      · cases hc : f0 p with
        | false => rfl
        | true => exact absurd hp ((hf0 p).1 hc).2
      · intro e he
        cases hc : m.copy e.1 with
        | false => rfl
        | true =>
          rcases M.back p e he with ⟨p0, e0, h1, h2, h3, h4, -⟩ | ⟨h1, -⟩
          · subst h3
            exact absurd hp (himg p0 e0 h1 h2)
          · rw [h1.1, hn.2] at hc; cases hc) (by
      intro z
      show _ = (f0 z || _)
      simp only [f0]
      by_cases hz : z ∈ L.map (·.1)
      · rw [f3 z ((hZ z).1 hz).1 ((hZ z).1 hz).2, decide_eq_true hz]; rfl
      · rw [decide_eq_false hz]; simp)
  have hvat : ∀ p' e', VAt m' p' e' ↔ (∃ p e, VAt m p e ∧ ¬ Dropped n i o e ∧ p' = π p ∧ e' = mapE id e) ∨
      (At g' p' e' ∧ (e'.1 = n ∧ m.graph.numPorts n e'.2.1 ≤ e'.2.2)) := by
    intro p' e'
    rw [i4, T.vat (fun p' e' _ h => by show m.copy e'.1 = false; rw [h.1, hn.2])]
  refine ⟨m', π, ?_, i2, ?_, ?_, ?_, ?_, ?_, ?_, ?_, ?_⟩
  · unfold MG.setNumPorts
    rw [hg]
    simp only
    rw [hL1]
    simp only
    rw [i1]; rfl
  · intro x
    rw [i3]
    unfold VNode
    simp only
    rw [M.node]
    simp
  · intro d
    rw [i6 n d hn.2, hnum]
  · intro p e hp; exact htr p e hp.1
  · intro p e hp; exact hother p e hp.1
  · intro p e hp hd
    exact (hvat _ _).2 (.inl ⟨p, e, hp, hd, rfl, rfl⟩)
  · intro p' e hp
    rcases (hvat _ _).1 hp with ⟨p, e0, h1, h2, h3, rfl⟩ | ⟨-, h1⟩
    · exact .inl ⟨p, h1, h2, h3⟩
    · exact .inr h1
  · intro x y
    rw [i5, T.shows h]
    constructor
    · rintro ⟨p, k, r, l, a1, ⟨e, a2, a3⟩, ⟨f, a4, a5⟩, a6, a7⟩
      obtain ⟨⟨e', h4⟩, ⟨f', h5⟩⟩ := shows_vat h a1
      rw [a2.inj h.inv h4.1] at a3
      rw [a4.inj h.inv h5.1] at a5
      exact ⟨p, k, r, l, a1, ⟨e', h4, a3⟩, ⟨f', h5, a5⟩, a6, a7⟩
    · rintro ⟨p, k, r, l, a1, ⟨e, a2, a3⟩, ⟨f, a4, a5⟩, a6, a7⟩
      exact ⟨p, k, r, l, a1, ⟨e, a2.1, a3⟩, ⟨f, a4.1, a5⟩, a6, a7⟩
  · intro z
    have hcn : ∀ e : Endpoint, (e.1 = n ∧ m.graph.numPorts n e.2.1 ≤ e.2.2) → m.copy e.1 = false := fun e h1 => by rw [h1.1, hn.2]
    rw [i7, T.subs_iff h hcn]
    refine or_congr ⟨?_, ?_⟩ (and_congr_right fun _ => exists_congr fun e => ?_)
    · rintro ⟨p, k, e, ⟨q, a1⟩, a2, a3, a4⟩
      obtain ⟨x, c, d, k', l, a6, a7, -⟩ := h.sub_vis a1
      have := a2.inj h.inv a6
      subst this
      exact ⟨p, k, _, ⟨q, a1⟩, ⟨a6, a7⟩, a3, a4⟩
    · rintro ⟨p, k, e, a1, a2, a3, a4⟩
      exact ⟨p, k, e, a1, a2.1, a3, a4⟩
    · rw [i4]
      exact ⟨fun a1 => ⟨⟨a1.1, hcn e a1.2⟩, a1.2⟩, fun a1 => ⟨a1.1.1, a1.2⟩⟩

end Verif.Multi
