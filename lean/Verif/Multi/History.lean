import Verif.Multi.Spec
import Verif.Multi.Links

/-!
# Histories of a `MultiPortGraph`

Every call with admissible arguments returns, keeps the invariant and has the effect given by
`Effect`.
-/

namespace Verif.Multi

open Verif (Direction)
open Verif.PG Verif.View

variable {m : MG}

/-! ## What is shown, by the invariant -/

theorem obs_node {x : Nat} : m.obs.node x ↔ VNode m x := contains_iff

theorem obs_pos (h : MOk m) {p : Nat} {e : Endpoint} : m.obs.pos p e ↔ VAt m p e := by
  show m.containsPort p = true ∧ m.graph.portNode p = some e.1 ∧ m.graph.portOffset p = some (some e.2) ↔ _
  constructor
  · rintro ⟨h1, h2, h3⟩
    obtain ⟨e', h4, h5⟩ := (vis_iff h.inv).2 h1
    rw [At.portNode h.inv h4] at h2
    rw [At.portOffset h.inv h4] at h3
    simp only [Option.some.injEq] at h2 h3
    have : e' = e := Prod.ext h2 h3
    subst this
    exact ⟨h4, h5⟩
  · rintro ⟨h1, h2⟩
    exact ⟨(vis_iff h.inv).1 ⟨e, h1, h2⟩, At.portNode h.inv h1, At.portOffset h.inv h1⟩

theorem port_vat (h : MOk m) {p : Nat} : m.containsPort p = true ↔ ∃ e, VAt m p e := (vis_iff h.inv).symm

theorem obs_link (h : MOk m) {e f : Subport} : m.obs.link e f ↔ ShowsR m e f := by
  show m.containsPort e.1 = true ∧ (∃ L, m.portLinks? e.1 = some L ∧ (e, f) ∈ L) ↔ _
  constructor
  · rintro ⟨h1, L, h2, h3⟩
    obtain ⟨L', h4, -, h5⟩ := portLinks_spec h h1
    rw [h2] at h4; cases h4
    exact ((h5 e f).1 h3).2
  · intro hs
    have hc := (port_vat h).2 (shows_vat h hs).1
    obtain ⟨L, h4, -, h5⟩ := portLinks_spec h hc
    exact ⟨hc, L, h4, (h5 e f).2 ⟨rfl, hs⟩⟩

theorem subportsAt_spec (h : MOk m) {p : Nat} (hp : m.containsPort p = true) :
    ∃ L, m.subportsAt? p = some L ∧ L.Nodup ∧ ∀ e, e ∈ L ↔ e.1 = p ∧ ∃ q, Sub m q e := by
  obtain ⟨S, h1, h2, h3, -⟩ := h.portLinks_eq ((vis_iff h.inv).2 hp)
  exact ⟨S, h1, h2, h3⟩

theorem obs_sub (h : MOk m) {e : Subport} : m.obs.sub e ↔ ∃ q, Sub m q e := by
  show m.containsPort e.1 = true ∧ (∃ L, m.subportsAt? e.1 = some L ∧ e ∈ L) ↔ _
  constructor
  · rintro ⟨h1, L, h2, h3⟩
    obtain ⟨L', h4, -, h5⟩ := subportsAt_spec h h1
    rw [h2] at h4; cases h4
    exact ((h5 e).1 h3).2
  · rintro ⟨q, hs⟩
    obtain ⟨n, c, d, k, l, h1, h2, -⟩ := h.sub_vis hs
    have hc : m.containsPort e.1 = true := (port_vat h).2 ⟨_, h1, h2⟩
    obtain ⟨L, h4, -, h5⟩ := subportsAt_spec h hc
    exact ⟨hc, L, h4, (h5 e).2 ⟨rfl, q, hs⟩⟩

theorem sub_down (h : MOk m) {s p k j : Nat} (hs : Sub m s (p, k)) (hj : j < k) : ∃ q, Sub m q (p, j) := by
  rcases h.sub_iff.1 hs with ⟨h1, ⟨x, h2, h3, h4⟩ | ⟨c, d, cp, h2, h3, h4⟩⟩
  · cases h4; omega
  · simp only at h2 h4
    obtain ⟨q, hq⟩ := at_iff_lt.2 (Nat.lt_trans hj (at_iff_lt.1 ⟨_, h2⟩))
    exact ⟨q, (h.sub_multi h3 (h4.sym h.inv)).2 hq⟩

/-- A multiport has several subports. -/
theorem sub_one_iff (h : MOk m) {p : Nat} {e : Endpoint} (hp : VAt m p e) : (∃ q, Sub m q (p, 1)) ↔ m.multi p = true := by
  constructor
  · rintro ⟨q, hs⟩
    cases hm : m.multi p with
    | true => rfl
    | false =>
      have := (h.sub_single ⟨e, hp⟩ hm).1 hs
      omega
  · intro hm
    obtain ⟨n, d, k⟩ := e
    obtain ⟨c, cp, h1, h2⟩ := h.copy_of_main hp.1 hp.2 hm
    obtain ⟨q, hq⟩ := at_iff_lt.2 (show 1 < m.graph.numPorts c d from h1.two)
    exact ⟨q, (h.sub_multi h1 h2).2 hq⟩

theorem sub_zero (h : MOk m) {p : Nat} {e : Endpoint} (hp : VAt m p e) : ∃ q, Sub m q (p, 0) := by
  cases hm : m.multi p with
  | true =>
    obtain ⟨q, hq⟩ := (sub_one_iff h hp).2 hm
    exact sub_down h hq (by omega)
  | false => exact ⟨p, (h.sub_single ⟨e, hp⟩ hm).2 ⟨rfl, rfl⟩⟩

/-- The subports of a port are numbered without gaps. -/
theorem sub_length (h : MOk m) {p : Nat} {L : List Subport} (hL : m.subportsAt? p = some L) {s j : Nat} (hs : Sub m s (p, j)) :
    j < L.length := by
  obtain ⟨n, c, d, k, l, h1, h2, -⟩ := h.sub_vis hs
  have hc : m.containsPort p = true := (port_vat h).2 ⟨_, h1, h2⟩
  obtain ⟨L', h3, h4, h5⟩ := subportsAt_spec h hc
  rw [hL] at h3; cases h3
  have hsub : (List.range (j + 1)).map (fun i => (p, i)) ⊆ L := by
    intro e he
    obtain ⟨i, hi, rfl⟩ := List.mem_map.1 he
    rw [List.mem_range] at hi
    refine (h5 _).2 ⟨rfl, ?_⟩
    by_cases hij : i = j
    · subst hij; exact ⟨s, hs⟩
    · exact sub_down h hs (by omega)
  have hnd : ((List.range (j + 1)).map (fun i => (p, i))).Nodup := by
    apply List.Nodup.map_on _ List.nodup_range
    intro x _ y _ he; cases he; rfl
  have := (List.subperm_of_subset hnd hsub).length_le
  simp at this
  omega

/-- What is shown is a multigraph. -/
theorem obs_wf (h : MOk m) : m.obs.Wf where
  pos_fun p e f he hf := by
    rw [obs_pos h] at he hf
    exact he.1.inj h.inv hf.1
  pos_one p q e hp hq := by
    rw [obs_pos h] at hp hq
    exact hp.1.unique hq.1
  pos_node p e hp := by
    rw [obs_pos h] at hp
    exact obs_node.2 ⟨At.contains hp.1, hp.2⟩
  pos_down p n d k j hp hj := by
    rw [obs_pos h] at hp
    obtain ⟨q, hq⟩ := at_iff_lt.2 (Nat.lt_trans hj (at_iff_lt.1 ⟨_, hp.1⟩))
    exact ⟨q, (obs_pos h).2 ⟨hq, hp.2⟩⟩
  sub_port e hs := by
    obtain ⟨q, hs⟩ := (obs_sub h).1 hs
    obtain ⟨n, c, d, k, l, h1, h2, -⟩ := h.sub_vis hs
    exact ⟨_, (obs_pos h).2 ⟨h1, h2⟩⟩
  sub_zero p x hp := (obs_sub h).2 (sub_zero h ((obs_pos h).1 hp))
  sub_down p k j hs hj := by
    obtain ⟨q, hs⟩ := (obs_sub h).1 hs
    exact (obs_sub h).2 (sub_down h hs hj)
  link_sub e f hl := by
    obtain ⟨q, r, h1, -⟩ := (obs_link h).1 hl
    exact (obs_sub h).2 ⟨q, h1⟩
  link_sym e f hl := (obs_link h).2 (ShowsR.sym h ((obs_link h).1 hl))
  link_one e f f' hl hl' := ShowsR.fun h ((obs_link h).1 hl) ((obs_link h).1 hl')
  link_dir e f x y hl hx hy := by
    rw [obs_pos h] at hx hy
    obtain ⟨q, r, h1, h2, h3⟩ := (obs_link h).1 hl
    obtain ⟨n, c, d, k, l, h4, -, h5⟩ := h.sub_vis h1
    obtain ⟨n', c', d', k', l', h6, -, h7⟩ := h.sub_vis h2
    rw [hx.1.inj h.inv h4, hy.1.inj h.inv h6]
    have := h3.dir h.inv h5 h7
    simp only at this ⊢
    subst this
    exact (reverse_ne d).symm

/-! ## The calls -/

theorem Renamed.obs {m' : MG} (h : MOk m) (h' : MOk m') {ρ π : Nat → Nat} (R : Renamed m m' ρ π) : m.obs.Rename m'.obs ρ π where
  node x' := by
    rw [obs_node, R.node]
    refine exists_congr fun x => ?_
    rw [obs_node]; exact and_congr_right fun _ => eq_comm
  node_inj x y hx hy := R.node_inj x y (obs_node.1 hx) (obs_node.1 hy)
  pos p' e' := by
    rw [obs_pos h', R.at_iff]
    constructor
    · rintro ⟨p, ⟨n, d, k⟩, h1, h2, h3⟩
      exact ⟨p, n, d, k, (obs_pos h).2 h1, h2, h3⟩
    · rintro ⟨p, n, d, k, h1, h2, h3⟩
      exact ⟨p, (n, d, k), (obs_pos h).1 h1, h2, h3⟩
  port_inj p e q f hp hq := R.port_inj p e q f ((obs_pos h).1 hp) ((obs_pos h).1 hq)
  link e' f' := by
    rw [obs_link h', R.shows]
    simp only [obs_link h]
  sub e' := by
    rw [obs_sub h', R.subs]
    simp only [obs_sub h]

theorem sameNodes {m' : MG} (hv : ∀ x, VNode m' x ↔ VNode m x) : m.obs.SameNodes m'.obs := by
  intro x; rw [obs_node, obs_node, hv]

theorem samePorts {m' : MG} (h : MOk m) (h' : MOk m') (hv : ∀ q f, VAt m' q f ↔ VAt m q f) : m.obs.SamePorts m'.obs := by
  intro p e; rw [obs_pos h, obs_pos h', hv]

theorem sameLinks {m' : MG} (h : MOk m) (h' : MOk m') (hv : ∀ x y, ShowsR m' x y ↔ ShowsR m x y) : m.obs.SameLinks m'.obs := by
  intro p e; rw [obs_link h, obs_link h', hv]

theorem room_of (h : MOk m) {p : Nat} (hL : m.room p) : Room m p := by
  by_cases hs : ∃ q j, Sub m q (p, j)
  · obtain ⟨q, j, hs⟩ := hs
    obtain ⟨n, c, d, k, l, h1, h2, -⟩ := h.sub_vis hs
    obtain ⟨L, h3, -, h4⟩ := subportsAt_spec h ((port_vat h).2 ⟨_, h1, h2⟩)
    rcases hL L h3 with hL | ⟨e, he, hf⟩
    · refine .inl fun q j hs => ?_
      have := sub_length h h3 hs
      omega
    · obtain ⟨h5, i, h6⟩ := (h4 e).1 he
      obtain ⟨e1, e2⟩ := e
      simp only at h5
      subst h5
      refine .inr ⟨i, e2, h6, fun r hr => ?_⟩
      obtain ⟨y, hy⟩ := (lk_shows h h6).1 ⟨r, hr⟩
      exact hf y ((obs_link h).2 hy)
  · exact .inl fun q j hq => absurd ⟨q, j, hq⟩ hs

theorem cut_iff' {n i o : Nat} {e : Endpoint} : Cut n i o e ↔ Dropped n i o e := by
  obtain ⟨x, d, k⟩ := e
  unfold Cut Dropped
  cases d <;> simp [newCount]

theorem track_removed {tr1 tr2 : List (Nat × PortOp)} {p : Nat} (h : ∀ x ∈ tr1, ∃ r, x.2 = .removed r)
    (hp : p ∈ tr1.map (·.1)) : PG.track (tr1 ++ tr2) p = none := by
  induction tr1 with
  | nil => simp at hp
  | cons x tr1 ih =>
    obtain ⟨q, op⟩ := x
    obtain ⟨r, hr⟩ := h (q, op) (List.mem_cons_self ..)
    simp only at hr
    subst hr
    simp only [List.cons_append, PG.track]
    split
    · rfl
    · rename_i hne
      apply ih (fun x hx => h x (List.mem_cons_of_mem _ hx))
      simpa [hne] using hp

theorem hasPorts (h : MOk m) {n : Nat} (hn : m.copy n = false) (d : Direction) : m.obs.HasPorts n d (m.graph.numPorts n d) := by
  intro j
  rw [← at_iff_lt]
  refine exists_congr fun p => ?_
  rw [obs_pos h]
  exact ⟨fun x => x.1, fun x => ⟨x, hn⟩⟩

/-- Every admissible call returns, keeps the invariant and has its effect. -/
theorem step_eff {maxOff : Nat} (h2m : 2 ≤ maxOff) (hmax : maxOff ≤ 32767) (h : MOk m) {op : MOp} (hok : op.ok maxOff m) :
    ∃ r m', m.step maxOff op = some (r, m') ∧ MOk m' ∧ Effect m.obs m'.obs op r := by
  cases op with
  | addNode i o =>
    obtain ⟨hi, ho⟩ := hok
    obtain ⟨n, g', h1, -, h3, h4, h5, ⟨h6, h6'⟩, h7, T⟩ := add_trans h hi ho hmax
    have hM : MOk { m with graph := g' } := by
      refine (T.minv h rfl (T.subs_same h ?_ rfl)).mono fun x => ?_
      · intro e he; rw [he]; exact h4
      · constructor
        · exact fun h => h.elim
        · intro hd
          unfold Dropping at hd
          grind
    refine ⟨.node n, _, by simp [MG.step, h1], hM, ?_⟩
    refine ⟨?_, ?_, ?_, ?_, ?_, ?_, ?_⟩
    · rw [obs_node]; rintro ⟨h8, -⟩; rw [h3] at h8; cases h8
    · intro x
      rw [obs_node, obs_node]
      unfold VNode
      simp only [h5]
      constructor
      · rintro ⟨rfl | h8, h9⟩
        · exact .inl rfl
        · exact .inr ⟨h8, h9⟩
      · rintro (rfl | ⟨h8, h9⟩)
        · exact ⟨.inl rfl, h4⟩
        · exact ⟨.inr h8, h9⟩
    · intro p e he
      rw [obs_pos h, obs_pos hM]
      exact and_congr_left fun _ => h7 p e he
    · have := hasPorts hM (n := n) h4 .incoming
      rwa [show ({ m with graph := g' } : MG).graph.numPorts n .incoming = i from h6] at this
    · have := hasPorts hM (n := n) h4 .outgoing
      rwa [show ({ m with graph := g' } : MG).graph.numPorts n .outgoing = o from h6'] at this
    · apply sameLinks h hM
      intro x y
      rw [T.shows h]
      constructor
      · rintro ⟨p, k, r, l, h8, -, -, rfl, rfl⟩; exact h8
      · intro hs
        obtain ⟨⟨e, h8⟩, f, h9⟩ := shows_vat h hs
        exact ⟨x.1, x.2, y.1, y.2, hs, ⟨e, h8.1, trivial⟩, ⟨f, h9.1, trivial⟩, rfl, rfl⟩
    · rintro ⟨p, j⟩
      rw [obs_sub h, obs_sub hM]
      simp only [obs_pos hM]
      constructor
      · rintro ⟨q, hs⟩
        obtain ⟨x, d, k, g1, -⟩ := id hs
        rcases T.back _ _ g1 with ⟨q0, e, g2, -, rfl, -⟩ | ⟨g2, -⟩
        · obtain ⟨p0, k0, e0, g3, -, -, g4⟩ := T.sub_back h g2 trivial hs
          cases g4
          exact .inl ⟨_, g3⟩
        · subst g2
          obtain ⟨rfl, rfl⟩ : p = q ∧ j = 0 := by
            rcases hM.sub_iff.1 hs with ⟨-, ⟨-, -, -, g3⟩ | ⟨c, d', cp, g2, g3, -⟩⟩
            · cases g3; exact ⟨rfl, rfl⟩
            · have := g2.inj hM.inv g1
              simp only [Prod.mk.injEq] at this
              have g4 := g3.copy
              rw [this.1, show ({ m with graph := g' } : MG).copy x = m.copy x from rfl, h4] at g4
              cases g4
          exact .inr ⟨rfl, d, k, g1, h4⟩
      · rintro (⟨q, hs⟩ | ⟨hj, d, k, hp⟩)
        · obtain ⟨n0, c0, d0, k0, l0, g1, g2, -⟩ := h.sub_vis hs
          exact ⟨_, (T.sub_fwd h hs g1 trivial).1⟩
        · subst hj
          exact sub_zero hM hp
  | removeNode n =>
    by_cases hn : m.containsNode n = true
    · obtain ⟨m', h1, h2, h3, h4, h5, h5'⟩ := removeNode_eff h (obs_node.1 hn)
      refine ⟨.none, m', by simp [MG.step, h1], h2, ?_, ?_, ?_, ?_⟩
      · intro x; rw [obs_node, obs_node, h3]
      · intro p e; rw [obs_pos h, obs_pos h2, h4]
      · intro e f
        rw [obs_link h, obs_link h2, h5]
        refine and_congr_right fun hs => ?_
        obtain ⟨⟨x, hx⟩, y, hy⟩ := shows_vat h hs
        rw [At.portNode h.inv hx.1, At.portNode h.inv hy.1]
        constructor
        · rintro ⟨h6, h7⟩
          refine ⟨fun z hz => ?_, fun z hz => ?_⟩
          · rw [obs_pos h] at hz; rw [hz.1.inj h.inv hx.1]; simpa using h6
          · rw [obs_pos h] at hz; rw [hz.1.inj h.inv hy.1]; simpa using h7
        · rintro ⟨h6, h7⟩
          exact ⟨by simpa using h6 x ((obs_pos h).2 hx), by simpa using h7 y ((obs_pos h).2 hy)⟩
      · intro z
        rw [obs_sub h, obs_sub h2, h5']
        refine and_congr_right fun hs => ?_
        obtain ⟨q, hs⟩ := hs
        obtain ⟨x, c, d, k', l, a6, a7, -⟩ := h.sub_vis hs
        rw [At.portNode h.inv a6]
        constructor
        · intro h6 y hy
          rw [obs_pos h] at hy; rw [hy.1.inj h.inv a6]; simpa using h6
        · intro h6
          simpa using h6 _ ((obs_pos h).2 ⟨a6, a7⟩)
    · have hg : m.graph.containsNode n = false := by
        rcases hok with h1 | h1
        · exact absurd h1 hn
        · exact h1
      have hcopy : m.copy n = false := by
        cases hc : m.copy n with
        | false => rfl
        | true => rw [h.copyLive n hc] at hg; cases hg
      have hnode : m.graph.node? n = none := by
        cases hx : m.graph.node? n with
        | none => rfl
        | some y => rw [containsNode_eq hx] at hg; simp at hg
      have hrun : m.removeNode n = some m := by
        unfold MG.removeNode
        rw [hcopy]
        simp only [Bool.false_eq_true, if_false]
        have : m.graph.allPorts n = [] := by simp [PG.allPorts, hnode]
        rw [this]
        simp [MG.unlinkMultis, removeNode_none hnode]
      have hno : ∀ p e, VAt m p e → e.1 ≠ n := by
        rintro p e ⟨h1, -⟩ rfl
        rw [At.contains h1] at hg; cases hg
      refine ⟨.none, m, by simp [MG.step, hrun], h, ?_, ?_, ?_, fun z => ⟨fun hz => ⟨hz, fun x hx => hno _ x ((obs_pos h).1 hx)⟩, fun hz => hz.1⟩⟩
      · intro x
        refine ⟨fun hx => ⟨hx, ?_⟩, fun hx => hx.1⟩
        rintro rfl; exact hn hx
      · intro p e
        exact ⟨fun hx => ⟨hx, hno p e ((obs_pos h).1 hx)⟩, fun hx => hx.1⟩
      · intro e f
        exact ⟨fun hx => ⟨hx, fun z hz => hno _ z ((obs_pos h).1 hz), fun z hz => hno _ z ((obs_pos h).1 hz)⟩, fun hx => hx.1⟩
  | linkPorts a b =>
    obtain ⟨ha, hb, hra, hrb⟩ := hok
    obtain ⟨x, hx⟩ := (port_vat h).1 ha
    obtain ⟨y, hy⟩ := (port_vat h).1 hb
    have ux : ∀ z, m.obs.pos a z → z = x := fun z hz => (((obs_pos h).1 hz).1.inj h.inv hx.1)
    have uy : ∀ z, m.obs.pos b z → z = y := fun z hz => (((obs_pos h).1 hz).1.inj h.inv hy.1)
    by_cases hd : x.2.1 = y.2.1
    · obtain ⟨i, j, m', h1, h2, h3, h4, h5, k, l, h6, h7, h8, h9, h10⟩ := linkPorts_same h h2m hmax hx hy (room_of h hra) (room_of h hrb) hd
      refine ⟨.link (.error (.incompatibleDirections i j x.2.1)), m', by simp [MG.step, h1], h2, sameNodes h3, samePorts h h2 h4, ?_⟩
      intro x' y' hx' hy'
      rw [ux x' hx', uy y' hy']
      refine ⟨fun hne => absurd hd hne, fun _ => ⟨⟨i, j, rfl⟩, sameLinks h h2 h5, k, l, ?_, ?_, ?_, ?_, ?_⟩⟩
      · intro j hj; obtain ⟨z, hz⟩ := h6 j hj; exact ⟨z, (obs_link h).2 hz⟩
      · intro j hj; obtain ⟨z, hz⟩ := h7 j hj; exact ⟨z, (obs_link h).2 hz⟩
      · intro z; rw [obs_link h]; exact h8 z
      · intro z; rw [obs_link h]; exact h9 z
      · intro z; rw [obs_sub h2, obs_sub h, h10]
    · obtain ⟨⟨a', k⟩, ⟨b', l⟩, m', h1, h2, h3, h4, h5, h6, h7, h8, h9, h10, h11, h12⟩ :=
        linkPorts_eff h h2m hmax hx hy (room_of h hra) (room_of h hrb) hd
      simp only at h5 h6
      subst h5 h6
      refine ⟨.link (.ok ((a', k), (b', l))), m', by simp [MG.step, h1], h2, sameNodes h3, samePorts h h2 h4, ?_⟩
      intro x' y' hx' hy'
      rw [ux x' hx', uy y' hy']
      refine ⟨fun _ => ⟨k, l, rfl, ⟨?_, ?_, ?_, ?_⟩, ?_, ?_, ?_⟩, fun he => absurd he hd⟩
      · intro z; rw [obs_link h]; exact h7 z
      · intro z; rw [obs_link h]; exact h8 z
      · rw [obs_link h2, h11]; exact .inr (.inl ⟨rfl, rfl⟩)
      · intro z w; rw [obs_link h2, obs_link h, h11]
      · intro j hj; obtain ⟨z, hz⟩ := h9 j hj; exact ⟨z, (obs_link h).2 hz⟩
      · intro j hj; obtain ⟨z, hz⟩ := h10 j hj; exact ⟨z, (obs_link h).2 hz⟩
      · intro z; rw [obs_sub h2, obs_sub h, h12]
  | unlinkPort p =>
    by_cases hp : m.containsPort p = true
    · obtain ⟨e, he⟩ := (port_vat h).1 hp
      obtain ⟨r, m', h1, h2, h3, h4, h5, -, -, h8, h8'⟩ := unlinkPort_eff h he
      refine ⟨.sub r, m', by simp [MG.step, h1], h2, sameNodes h3, samePorts h h2 h4, ?_, ?_, fun z => by rw [obs_sub h, obs_sub h2, h8']⟩
      · intro e f; rw [obs_link h, obs_link h2, h5]
      · rintro ⟨h9, h10⟩ f
        have hm : m.multi p = false := by
          cases hm : m.multi p with
          | false => rfl
          | true => exact absurd ((obs_sub h).2 ((sub_one_iff h he).2 hm)) h9
        rw [h8 hm, obs_link h]
        have hsp : Sub m p (p, 0) := (h.sub_single ⟨e, he⟩ hm).2 ⟨rfl, rfl⟩
        have key : ∀ q f, Lk m.graph p q → Sub m q f → f = (q, 0) := by
          intro q f hl hs
          have hsh : ShowsR m (p, 0) f := ⟨p, q, hsp, hs, hl⟩
          have h11 := h10 f ((obs_link h).2 hsh)
          obtain ⟨-, y, hy⟩ := shows_vat h hsh
          have hmf : m.multi f.1 = false := by
            cases hmf : m.multi f.1 with
            | false => rfl
            | true => exact absurd ((obs_sub h).2 ((sub_one_iff h hy).2 hmf)) h11
          obtain ⟨f1, f2⟩ := f
          obtain ⟨h12, h13⟩ := (h.sub_single ⟨y, hy⟩ hmf).1 hs
          rw [h12, h13]
        rw [Option.map_eq_some_iff]
        constructor
        · rintro ⟨q, hq, rfl⟩
          have hl : Lk m.graph p q := (lk_iff h.inv).2 ⟨(live_at h.inv).2 ⟨e, he.1⟩, hq⟩
          obtain ⟨f, hf, -⟩ := h.name hsp hl
          rw [← key q f hl hf]
          exact ⟨p, q, hsp, hf, hl⟩
        · rintro ⟨q, s, h11, h12, h13⟩
          obtain rfl := h.sub_inj h11 hsp
          exact ⟨s, ((lk_iff h.inv).1 h13).2, (key s f h13 h12).symm⟩
    · have hg : m.graph.containsPort p = false := by
        rcases hok with h1 | h1
        · exact absurd h1 hp
        · exact h1
      have hport : m.graph.port? p = none := by
        cases hx : m.graph.port? p with
        | none => rfl
        | some y => simp [PG.containsPort, hx] at hg
      have hno : ∀ e, ¬ At m.graph p e := by
        intro e he
        have := (live_at h.inv).2 ⟨e, he⟩
        rw [hport] at this; cases this
      have hm : m.multi p = false := by
        cases hm : m.multi p with
        | false => rfl
        | true => obtain ⟨e, he⟩ := h.multi_live hm; exact absurd he (hno e)
      have hrun : m.unlinkPort p = some (none, m) := by
        unfold MG.unlinkPort; simp [hm, unlinkPort_none hport]
      have hl : ∀ x y, m.obs.link x y → x.1 ≠ p ∧ y.1 ≠ p := by
        intro x y hs
        obtain ⟨⟨e, he⟩, f, hf⟩ := shows_vat h ((obs_link h).1 hs)
        exact ⟨fun hc => hno e (hc ▸ he.1), fun hc => hno f (hc ▸ hf.1)⟩
      refine ⟨.sub none, m, by simp [MG.step, hrun], h, fun _ => Iff.rfl, fun _ _ => Iff.rfl, ?_, ?_, ?_⟩
      · intro e f; exact ⟨fun hs => ⟨hs, hl e f hs⟩, fun hs => hs.1⟩
      · intro _ f
        simp only [reduceCtorEq, false_iff]
        intro hs; exact (hl _ _ hs).1 rfl
      · intro z
        refine ⟨fun hz => ⟨hz, fun hc => ?_⟩, fun hz => hz.1⟩
        obtain ⟨q, hs⟩ := (obs_sub h).1 hz
        obtain ⟨x, c, d, k', l, a6, -⟩ := h.sub_vis hs
        rw [hc] at a6
        exact absurd a6 (hno _)
  | setNumPorts n i o =>
    obtain ⟨hv, htot, hmove⟩ := hok
    have hi : i ≤ 65534 := by omega
    by_cases hn : m.containsNode n = true
    · have hV : VNode m n := obs_node.1 hn
      obtain ⟨g', hs, -⟩ := step_ok (op := .setNumPorts n i o) hmax h.inv
        (show i ≤ 65534 ∧ o ≤ 65535 ∧ _ from ⟨hi, by omega, .inl htot⟩)
      obtain ⟨⟨g', tr⟩, hg, -⟩ := Option.map_eq_some_iff.1 hs
      obtain ⟨-, -, π0, -, -, -, tr1, l, rfl, hC⟩ := resize_flat h.inv hV.1 hg
      obtain ⟨m', π, h1, h2, h3, h4, h5, h6, h7, h8, h9, h9'⟩ := setNumPorts_eff h hV hg (by
        intro x y r hx hy
        have hdrop : ∃ e, VAt m y e := by
          have : (y, PortOp.removed r) ∈ tr1 := by
            rcases List.mem_append.1 hy with hy | hy
            · exact hy
            · obtain ⟨z, -, hz⟩ := List.mem_map.1 hy; cases hz
          obtain ⟨e, h1, h2⟩ := (hC.mem_drop y).1 (List.mem_map.2 ⟨_, this, rfl⟩)
          exact ⟨e, h1, by rw [h2.1]; exact hV.2⟩
        obtain ⟨e, he⟩ := hdrop
        cases hm : m.multi y with
        | false => rfl
        | true =>
          obtain ⟨q, hq⟩ := (sub_one_iff h he).2 hm
          obtain ⟨L, hL, -⟩ := subportsAt_spec h ((port_vat h).2 ⟨e, he⟩)
          have h3 := sub_length h hL hq
          have h4 := hmove g' _ hg x y r L hx hy hL
          omega)
      have hV' : m'.copy n = false := ((h3 n).2 hV).2
      refine ⟨.ports (tr1 ++ l.map fun x => (x.1, .moved x.2)), m', by simp only [MG.step, h1, Option.map_some], h2, sameNodes h3, fun _ => ⟨?_, ?_⟩, π, ?_, ?_, ?_, ?_, ?_, ?_, ?_⟩
      · have := hasPorts h2 hV' .incoming; rwa [h4 .incoming] at this
      · have := hasPorts h2 hV' .outgoing; rwa [h4 .outgoing] at this
      · intro p e hp hc; exact h5 p e ((obs_pos h).1 hp) (fun hd => hc (cut_iff'.2 hd))
      · intro p e hp hc; exact h6 p e ((obs_pos h).1 hp) hc
      · intro p e hp hc
        refine track_removed (fun x hx => ?_) ((hC.mem_drop p).2 ⟨e, ((obs_pos h).1 hp).1, cut_iff'.1 hc⟩)
        obtain ⟨r, hr, -⟩ := hC.drop x hx
        exact ⟨r, hr⟩
      · intro p e hp hc
        exact (obs_pos h2).2 (h7 p e ((obs_pos h).1 hp) (fun hd => hc (cut_iff'.2 hd)))
      · intro p' e hne hp
        rcases h8 p' e ((obs_pos h2).1 hp) with ⟨p, h10, -, rfl⟩ | ⟨h10, -⟩
        · rw [h6 p e h10 hne]; exact (obs_pos h).2 h10
        · exact absurd h10 hne
      · intro e' f'
        rw [obs_link h2, h9]
        constructor
        · rintro ⟨p, k, r, l, h10, ⟨e, h11, h12⟩, ⟨f, h13, h14⟩, h15⟩
          refine ⟨p, k, r, l, (obs_link h).2 h10, fun x hx => ?_, fun x hx => ?_, h15⟩
          · rw [((obs_pos h).1 hx).1.inj h.inv h11.1, cut_iff']; exact h12
          · rw [((obs_pos h).1 hx).1.inj h.inv h13.1, cut_iff']; exact h14
        · rintro ⟨p, k, r, l, h10, h11, h12, h13⟩
          have hs := (obs_link h).1 h10
          obtain ⟨⟨e, he⟩, f, hf⟩ := shows_vat h hs
          exact ⟨p, k, r, l, hs, ⟨e, he, fun hd => h11 e ((obs_pos h).2 he) (cut_iff'.2 hd)⟩,
            ⟨f, hf, fun hd => h12 f ((obs_pos h).2 hf) (cut_iff'.2 hd)⟩, h13⟩
      · intro z
        rw [obs_sub h2, h9']
        refine or_congr ⟨?_, ?_⟩ (and_congr_right fun _ => exists_congr fun e => ?_)
        · rintro ⟨p, k, e, h10, h11, h12, h13⟩
          refine ⟨p, k, (obs_sub h).2 h10, fun x hx => ?_, h13⟩
          rw [((obs_pos h).1 hx).1.inj h.inv h11.1, cut_iff']; exact h12
        · rintro ⟨p, k, h10, h11, h12⟩
          obtain ⟨q, hs⟩ := (obs_sub h).1 h10
          obtain ⟨x, c, d, k', l, a6, a7, -⟩ := h.sub_vis hs
          exact ⟨p, k, _, ⟨q, hs⟩, ⟨a6, a7⟩, fun hd => h11 _ ((obs_pos h).2 ⟨a6, a7⟩) (cut_iff'.2 hd), h12⟩
        · rw [obs_pos h2]
          refine and_congr_right fun hp => ⟨?_, ?_⟩
          · rintro ⟨h10, h11⟩ p hp'
            have := at_iff_lt.1 ⟨p, show At m.graph p (e.1, e.2.1, e.2.2) from ((obs_pos h).1 hp').1⟩
            rw [h10] at this
            omega
          · intro h10
            rcases h8 _ _ hp with ⟨p, h11, -⟩ | h11
            · exact absurd ((obs_pos h).2 h11) (h10 p)
            · exact h11
    · have hg : m.graph.containsNode n = false := by
        rcases hv with h1 | h1
        · exact absurd h1 hn
        · exact h1
      have hnode : m.graph.node? n = none := by
        cases hx : m.graph.node? n with
        | none => rfl
        | some y => rw [containsNode_eq hx] at hg; simp at hg
      have hno : ∀ p e, m.obs.pos p e → e.1 ≠ n := by
        rintro p e hp rfl
        rw [At.contains ((obs_pos h).1 hp).1] at hg; cases hg
      have hrun : m.setNumPorts n i o = some (m, []) := by
        unfold MG.setNumPorts
        rw [setNumPorts_none hnode hi (by omega)]
        simp [MG.rekeyFlags, MG.removeCopies]
      refine ⟨.ports [], m, by simp [MG.step, hrun], h, fun _ => Iff.rfl, fun hc => absurd hc hn, id, fun _ _ _ _ => rfl,
        fun _ _ _ _ => rfl, ?_, fun _ _ hp _ => hp, fun _ _ _ hp => hp, ?_, ?_⟩
      · intro p e hp hc; exact absurd hc.1 (hno p e hp)
      · intro e f
        constructor
        · intro hs
          exact ⟨e.1, e.2, f.1, f.2, hs, fun x hx hc => hno _ x hx hc.1, fun x hx hc => hno _ x hx hc.1, rfl, rfl⟩
        · rintro ⟨p, k, q, l, hs, -, -, rfl, rfl⟩; exact hs
      · intro z
        constructor
        · intro hz
          exact .inl ⟨z.1, z.2, hz, fun x hx hc => hno _ x hx hc.1, rfl⟩
        · rintro (⟨p, k, hz, -, rfl⟩ | ⟨-, e, h1, h2⟩)
          · exact hz
          · exact absurd h1 (h2 _)
  | compactNodes =>
    obtain ⟨m', tr, h1, h2, h3, h4⟩ := compactNodes_eff h
    have hlive : ∀ x, m.obs.node x → m.graph.live x = true := by
      intro x hx
      have := (obs_node.1 hx).1
      exact live_iff.2 this
    refine ⟨.moves tr, m', by simp [MG.step, h1], h2, m.graph.nodeRank, h3.obs h h2, ?_, ?_⟩
    · intro x hx
      have := hlive x hx
      rw [h4, List.mem_map]
      refine ⟨x, ?_, rfl⟩
      rw [List.mem_filter, List.mem_range]
      refine ⟨?_, this⟩
      have h5 := live_iff.1 this
      unfold PG.node? at h5
      by_contra hc
      rw [List.getElem?_eq_none (by omega)] at h5
      cases h5
    · intro x y hx hxy
      exact ⟨cnt_lt hxy (hlive x hx), cnt_le _ _⟩
  | compactPorts =>
    obtain ⟨m', tr, h1, h2, h3, h4⟩ := compactPorts_eff h hok
    have hlive : ∀ p e, m.obs.pos p e → (m.graph.port? p).isSome = true := by
      intro p e hp
      exact (live_at h.inv).2 ⟨e, ((obs_pos h).1 hp).1⟩
    refine ⟨.moves tr, m', by simp [MG.step, h1], h2, rank m.graph.port?, h3.obs h h2, ?_, ?_⟩
    · intro p e hp
      have h5 := hlive p e hp
      rw [h4, List.mem_map]
      refine ⟨p, ?_, rfl⟩
      rw [List.mem_filter, List.mem_range]
      refine ⟨?_, h5⟩
      unfold PG.port? at h5
      by_contra hc
      rw [List.getElem?_eq_none (by omega)] at h5
      cases h5
    · intro p e q hp hpq
      exact ⟨rank_lt hpq (hlive p e hp), rank_le _ _⟩
  | swapNodes a b =>
    obtain ⟨m', h1, h2, h3⟩ := swapNodes_eff h hok.1 hok.2.1 hok.2.2
    exact ⟨.none, m', by simp [MG.step, h1], h2, h3.obs h h2⟩
  | clear =>
    obtain ⟨h1, h2, h3, h4⟩ := clear_eff m
    refine ⟨.none, m.clear, rfl, h1, ?_, ?_, ?_, ?_⟩
    · intro x; rw [obs_node]; exact h2 x
    · intro p e; rw [obs_pos h1]; exact h3 p e
    · intro e f; rw [obs_link h1]; exact h4 e f
    · intro z hz
      obtain ⟨q, hs⟩ := (obs_sub h1).1 hz
      obtain ⟨x, c, d, k', l, a6, a7, -⟩ := h1.sub_vis hs
      exact h3 _ _ ⟨a6, a7⟩
  | linkSubports e f =>
    obtain ⟨i, hi⟩ := (obs_sub h).1 hok.1
    obtain ⟨j, hj⟩ := (obs_sub h).1 hok.2
    obtain ⟨r, m', h1, h2, h3, h4, h5, h6, h7⟩ := linkSubports_eff h hi hj
    refine ⟨.done r, m', by simp [MG.step, h1], h2, sameNodes h3, samePorts h h2 h4, ?_, ?_⟩
    · intro x; rw [obs_sub h, obs_sub h2]; exact exists_congr fun q => h5 q x
    intro x y hx hy
    rw [obs_pos h] at hx hy
    have hd : x.2.1 ≠ y.2.1 ↔ m.graph.portDirection e.1 ≠ m.graph.portDirection f.1 := by
      rw [At.portDirection h.inv hx.1, At.portDirection h.inv hy.1]; simp
    have hcond : (x.2.1 ≠ y.2.1 ∧ (∀ z, ¬ m.obs.link e z) ∧ ∀ z, ¬ m.obs.link f z) ↔
        (m.graph.portDirection e.1 ≠ m.graph.portDirection f.1 ∧ (∀ z, ¬ ShowsR m e z) ∧ ∀ z, ¬ ShowsR m f z) := by
      rw [hd]; simp only [obs_link h]
    rw [hcond]
    refine ⟨fun hc => ?_, fun hc => ?_⟩
    · obtain ⟨h8, h9⟩ := h6 hc
      refine ⟨h8, ?_, ?_, ?_, ?_⟩
      · intro z; rw [obs_link h]; exact hc.2.1 z
      · intro z; rw [obs_link h]; exact hc.2.2 z
      · rw [obs_link h2, h9]; exact .inr (.inl ⟨rfl, rfl⟩)
      · intro z w; rw [obs_link h2, obs_link h, h9]
    · obtain ⟨rfl, h9⟩ := h7 hc
      exact ⟨h9, fun _ _ => Iff.rfl⟩
  | unlinkSubport e =>
    obtain ⟨i, hi⟩ := (obs_sub h).1 hok
    obtain ⟨r, m', h1, h2, h3, h4, h5, h6, h7⟩ := unlinkSubport_eff h hi
    refine ⟨.sub r, m', by simp [MG.step, h1], h2, sameNodes h3, samePorts h h2 h4, ?_, ?_, ?_⟩
    · intro x; rw [obs_sub h, obs_sub h2]; exact exists_congr fun q => h5 q x
    · intro f; rw [obs_link h, h7]
    · intro z w; rw [obs_link h2, obs_link h, h6]

theorem MReach.ok {maxOff : Nat} (h2m : 2 ≤ maxOff) (hmax : maxOff ≤ 32767) {m : MG} (h : MReach maxOff m) : MOk m := by
  induction h with
  | init hg => exact ofGraph_ok (hg.inv hmax)
  | step _ hok hs ih =>
    obtain ⟨r, m', h1, h2, -⟩ := step_eff h2m hmax ih hok
    rw [hs] at h1; cases h1; exact h2

end Verif.Multi
