import Verif.Multi.Ops

/-!
# Effects of `unlink_port` and `remove_node` of a `MultiPortGraph`
-/

namespace Verif.Multi

open Verif (Direction)
open Verif.PG Verif.View

variable {m : MG} {D : Nat → Prop}

/-- The node is shown. -/
def VNode (m : MG) (x : Nat) : Prop := m.graph.containsNode x = true ∧ m.copy x = false

/-- The port is shown at this position. -/
def VAt (m : MG) (p : Nat) (e : Endpoint) : Prop := At m.graph p e ∧ m.copy e.1 = false

theorem MInv.mono {D' : Nat → Prop} (h : MInv m D) (hD : ∀ x, D' x ↔ D x) : MInv m D' := by
  have : D' = D := funext fun x => propext (hD x)
  rwa [this]

/-- The ends of shown links are shown. -/
theorem shows_vat (h : MInv m D) {x y : Subport} (hs : ShowsR m x y) : (∃ e, VAt m x.1 e) ∧ ∃ e, VAt m y.1 e := by
  obtain ⟨q, r, h1, h2, -⟩ := hs
  obtain ⟨n, -, d, k, -, h3, h4, -⟩ := h.sub_vis h1
  obtain ⟨n', -, d', k', -, h3', h4', -⟩ := h.sub_vis h2
  exact ⟨⟨_, h3, h4⟩, ⟨_, h3', h4'⟩⟩

/-- Shown positions after moving ports. -/
theorem Trans.vat {m' : MG} {ρ π : Nat → Nat} {keep new : Endpoint → Prop} (T : Trans m m' ρ π keep new)
    (hn : ∀ p' e', At m'.graph p' e' → new e' → m'.copy e'.1 = false) {p' : Nat} {e' : Endpoint} :
    VAt m' p' e' ↔ (∃ p e, VAt m p e ∧ keep e ∧ p' = π p ∧ e' = mapE ρ e) ∨ (At m'.graph p' e' ∧ new e') := by
  constructor
  · rintro ⟨h1, h2⟩
    rcases T.back _ _ h1 with ⟨p, e, h3, h4, rfl, rfl⟩ | ⟨h3, -⟩
    · refine .inl ⟨p, e, ⟨h3, ?_⟩, h4, rfl, rfl⟩
      simp only [mapE] at h2
      rw [← T.copy _ (At.contains h3), h2]
    · exact .inr ⟨h1, h3⟩
  · rintro (⟨p, e, ⟨h1, h2⟩, h3, rfl, rfl⟩ | ⟨h1, h2⟩)
    · refine ⟨T.fwd _ _ h1 h3, ?_⟩
      simp only [mapE]
      rw [T.copy _ (At.contains h1), h2]
    · exact ⟨h1, hn _ _ h1 h2⟩

/-- Effect of `unlink_port` on a shown port. -/
theorem unlinkPort_eff (h : MOk m) {p : Nat} {e : Endpoint} (hp : VAt m p e) :
    ∃ r m', m.unlinkPort p = some (r, m') ∧ MOk m' ∧ (∀ x, VNode m' x ↔ VNode m x) ∧ (∀ q f, VAt m' q f ↔ VAt m q f) ∧
      (∀ x y, ShowsR m' x y ↔ ShowsR m x y ∧ x.1 ≠ p ∧ y.1 ≠ p) ∧
      (∀ q f, VAt m q f → (m'.multi q = true ↔ m.multi q = true ∧ q ≠ p)) ∧
      (m.multi p = true → r = some (p, 0)) ∧ (m.multi p = false → r = (m.graph.lk p).map fun q => (q, 0)) ∧
      (∀ z, (∃ q, Sub m' q z) ↔ (∃ q, Sub m q z) ∧ (z.1 = p → z.2 = 0)) := by
  obtain ⟨n, d, k⟩ := e
  obtain ⟨hp1, hp2⟩ := hp
  unfold MG.unlinkPort
  cases hm : m.multi p with
  | true =>
    obtain ⟨c, cp, hC, hl⟩ := h.copy_of_main hp1 hp2 hm
    obtain ⟨r, g', sc', h1, h2, h3, h4, h5, h6, h7⟩ := removeCopy_ok (f := m.multi) (show MInv ⟨m.graph, m.multi, m.copy, m.copyCount, m.subCount⟩ _ from h) (fun _ _ _ _ => rfl) hC (.inl hl)
    refine ⟨r, _, ?_, h2.mono (by simp), ?_, ?_, ?_, ?_, fun _ => h6 hl, (by simp), fun z => by rw [h7]; exact and_congr_right fun _ => ⟨fun h => h hl, fun h _ => h⟩⟩
    · rw [if_pos rfl, show m.graph.portLink? p = _ from hl]
      exact h1
    · intro x
      unfold VNode
      simp only [h4, setFlag]
      by_cases hx : x = c
      · subst hx; simp [hC.copy]
      · simp [hx]
    · intro q f
      unfold VAt
      simp only [h3, setFlag]
      by_cases hx : f.1 = c
      · rw [hx]; simp [hC.copy]
      · simp [hx]
    · intro x y
      rw [h5]
      exact and_congr_right fun _ => ⟨fun h => h hl, fun h _ => h⟩
    · rintro q f ⟨hq1, hq2⟩
      simp only [setFlag]
      have : q ≠ cp := by
        rintro rfl
        rw [hq1.inj h.inv hC.port] at hq2
        simp only at hq2
        rw [hC.copy] at hq2; cases hq2
      by_cases hqp : q = p
      · simp [hqp]
      · simp [hqp, this]
  | false =>
    have hs : Sub m p (p, 0) := (h.sub_single ⟨_, hp1, hp2⟩ hm).2 ⟨rfl, rfl⟩
    obtain ⟨g', h1, h2, h3, h4, h5⟩ := unlink_sub h hs
    refine ⟨(m.graph.lk p).map fun q => (q, 0), _, ?_, h2, ?_, ?_, ?_, ?_, (by simp), fun _ => rfl, ?_⟩
    · rw [h1]; rfl
    · intro x; unfold VNode; simp only [h3.node]
    · intro q f; unfold VAt; simp only [h3.at_iff]
    · intro x y
      rw [h5]
      apply and_congr_right
      intro hs
      have key : ∀ q x, Sub m q x → (x ≠ (p, 0) ↔ x.1 ≠ p) := by
        rintro q ⟨x1, x2⟩ hx
        simp only [ne_eq, Prod.mk.injEq, not_and]
        constructor
        · rintro h1 rfl
          exact h1 rfl ((h.sub_single ⟨_, hp1, hp2⟩ hm).1 hx).2
        · exact fun h1 h2 => absurd h2 h1
      obtain ⟨q, r, a1, a2, -⟩ := hs
      rw [key q x a1, key r y a2]
    · rintro q f -
      show m.multi q = true ↔ _
      constructor
      · intro hq
        exact ⟨hq, by rintro rfl; rw [hm] at hq; cases hq⟩
      · exact fun h => h.1
    · rintro ⟨z1, z2⟩
      rw [exists_congr fun q => h4 q (z1, z2)]
      refine ⟨fun hz => ⟨hz, ?_⟩, fun hz => hz.1⟩
      obtain ⟨q, hz⟩ := hz
      rintro rfl
      exact ((h.sub_single ⟨_, hp1, hp2⟩ hm).1 hz).2

/-- Effect of the loop of `remove_node`. -/
theorem unlinkMultis_eff {ps : List Nat} : ∀ {m : MG}, MOk m → (∀ p ∈ ps, ∃ e, VAt m p e) →
    ∃ m', m.unlinkMultis ps = some m' ∧ MOk m' ∧ (∀ x, VNode m' x ↔ VNode m x) ∧ (∀ q f, VAt m' q f ↔ VAt m q f) ∧
      (∀ x y, ShowsR m' x y ↔ ShowsR m x y ∧ (m.multi x.1 = true → x.1 ∉ ps) ∧ (m.multi y.1 = true → y.1 ∉ ps)) ∧
      (∀ q f, VAt m q f → (m'.multi q = true ↔ m.multi q = true ∧ q ∉ ps)) ∧
      (∀ z, (∃ q, Sub m' q z) ↔ (∃ q, Sub m q z) ∧ (z.1 ∈ ps → z.2 = 0)) := by
  induction ps with
  | nil =>
    intro m h _
    exact ⟨m, rfl, h, fun _ => Iff.rfl, fun _ _ => Iff.rfl, by simp, by simp, by simp⟩
  | cons p ps ih =>
    intro m h hv
    unfold MG.unlinkMultis
    obtain ⟨e, hp⟩ := hv p (by simp)
    cases hm : m.multi p with
    | false =>
      simp only [Bool.false_eq_true, if_false]
      obtain ⟨m', h1, h2, h3, h4, h5, h6, h7⟩ := ih h fun q hq => hv q (List.mem_cons_of_mem _ hq)
      have key : ∀ q, (m.multi q = true → q ∉ ps) ↔ (m.multi q = true → q ∉ p :: ps) := by
        intro q
        apply forall_congr'
        intro hq
        have : q ≠ p := by rintro rfl; rw [hm] at hq; cases hq
        simp [this]
      refine ⟨m', h1, h2, h3, h4, ?_, ?_, ?_⟩
      · intro x y; rw [h5, key, key]
      · intro q f hq
        rw [h6 q f hq]
        apply and_congr_right
        intro hq
        have : q ≠ p := by rintro rfl; rw [hm] at hq; cases hq
        simp [this]
      · rintro ⟨z1, z2⟩
        rw [h7]
        refine and_congr_right fun hs => ?_
        obtain ⟨q, hs⟩ := hs
        simp only [List.mem_cons]
        refine ⟨?_, fun hx hz => hx (.inr hz)⟩
        rintro hx (rfl | hz)
        · exact ((h.sub_single ⟨_, hp⟩ hm).1 hs).2
        · exact hx hz
    | true =>
      simp only [if_true]
      obtain ⟨r, m1, a1, a2, a3, a4, a5, a6, -, -, a7⟩ := unlinkPort_eff h hp
      rw [a1]
      simp only
      obtain ⟨m', h1, h2, h3, h4, h5, h6, h7⟩ := ih a2 fun q hq => by
        obtain ⟨e, he⟩ := hv q (List.mem_cons_of_mem _ hq)
        exact ⟨e, (a4 _ _).2 he⟩
      refine ⟨m', h1, h2, fun x => by rw [h3, a3], fun q f => by rw [h4, a4], ?_, ?_, ?_⟩
      · intro x y
        rw [h5, a5]
        constructor
        · rintro ⟨⟨b1, b2, b3⟩, b4, b5⟩
          obtain ⟨⟨ex, hx⟩, ⟨ey, hy⟩⟩ := shows_vat h b1
          rw [a6 _ _ hx] at b4
          rw [a6 _ _ hy] at b5
          refine ⟨b1, ?_, ?_⟩
          · intro hq
            rw [List.mem_cons, not_or]
            exact ⟨b2, b4 ⟨hq, b2⟩⟩
          · intro hq
            rw [List.mem_cons, not_or]
            exact ⟨b3, b5 ⟨hq, b3⟩⟩
        · rintro ⟨b1, b2, b3⟩
          obtain ⟨⟨ex, hx⟩, ⟨ey, hy⟩⟩ := shows_vat h b1
          rw [a6 _ _ hx, a6 _ _ hy]
          refine ⟨⟨b1, ?_, ?_⟩, ?_, ?_⟩
          · intro hq
            exact b2 (by rw [hq, hm]) (by simp [hq])
          · intro hq
            exact b3 (by rw [hq, hm]) (by simp [hq])
          · intro hq hc
            exact b2 hq.1 (List.mem_cons_of_mem _ hc)
          · intro hq hc
            exact b3 hq.1 (List.mem_cons_of_mem _ hc)
      · intro q f hq
        rw [h6 q f ((a4 _ _).2 hq), a6 q f hq, List.mem_cons, not_or, and_assoc]
      · intro z
        rw [h7, a7, and_assoc, List.mem_cons]
        exact and_congr_right fun _ => ⟨fun hx hz => hz.elim hx.1 hx.2, fun hx => ⟨fun hz => hx (.inl hz), fun hz => hx (.inr hz)⟩⟩

/-- Effect of `remove_node` on a shown node. -/
theorem removeNode_eff (h : MOk m) {n : Nat} (hn : VNode m n) :
    ∃ m', m.removeNode n = some m' ∧ MOk m' ∧ (∀ x, VNode m' x ↔ VNode m x ∧ x ≠ n) ∧
      (∀ q f, VAt m' q f ↔ VAt m q f ∧ f.1 ≠ n) ∧
      (∀ x y, ShowsR m' x y ↔ ShowsR m x y ∧ m.graph.portNode x.1 ≠ some n ∧ m.graph.portNode y.1 ≠ some n) ∧
      (∀ z, (∃ q, Sub m' q z) ↔ (∃ q, Sub m q z) ∧ m.graph.portNode z.1 ≠ some n) := by
  unfold MG.removeNode
  rw [hn.2]
  simp only [Bool.false_eq_true, if_false]
  obtain ⟨m1, h1, h2, h3, h4, h5, h6, h7m⟩ := unlinkMultis_eff (ps := m.graph.allPorts n) h (by
    intro p hp
    obtain ⟨d, k, hk⟩ := mem_allPorts.1 hp
    exact ⟨_, hk, hn.2⟩)
  rw [h1]
  simp only
  have hn1 := (h3 n).2 hn
  have hmem : ∀ q f, VAt m q f → (q ∈ m.graph.allPorts n ↔ f.1 = n) := by
    rintro q ⟨x, d, k⟩ ⟨hq, -⟩
    rw [mem_allPorts]
    constructor
    · rintro ⟨d', k', hk⟩
      have := hq.inj h.inv hk
      simp only [Prod.mk.injEq] at this
      exact this.1
    · rintro rfl; exact ⟨d, k, hq⟩
  have hflag : ∀ q e, At m1.graph q e → e.1 = n → m1.multi q = false := by
    intro q e hq he
    cases hm : m1.multi q with
    | false => rfl
    | true =>
      have hv := (h4 q e).1 ⟨hq, by rw [he]; exact hn1.2⟩
      exact absurd ((hmem q e hv).2 he) ((h6 q e hv).1 hm).2
  obtain ⟨g', r1, r2, r3, r4, r5⟩ := remove_flat h2.inv hn1.1
  have hlk : ∀ p e q f, At m1.graph p e → e.1 ≠ n → At m1.graph q f → f.1 ≠ n → (Lk g' p q ↔ Lk m1.graph p q) := by
    intro p e q f hp he hq hf
    rw [r5, At.portNode h2.inv hp, At.portNode h2.inv hq]
    simp [he, hf]
  have T : Trans m1 { m1 with graph := g' } id id (fun e => e.1 ≠ n) (fun _ => False) := by
    refine ⟨r2, fun _ _ _ _ h => h, ?_, ?_, hlk, fun _ _ _ _ => rfl, fun _ _ _ h => h.elim, ?_, fun _ _ => rfl, ?_, ?_,
      fun _ _ _ h => h.elim⟩
    · intro p e hp he; exact (r4 _ _).2 ⟨hp, he⟩
    · intro p e hp
      obtain ⟨h7, h8⟩ := (r4 _ _).1 hp
      exact .inl ⟨p, e, h7, h8, rfl, rfl⟩
    · intro p hp
      obtain ⟨e, he⟩ := h2.multi_live hp
      refine ⟨e, (r4 _ _).2 ⟨he, fun hc => ?_⟩⟩
      rw [show ({ m1 with graph := g' } : MG).multi = m1.multi from rfl, hflag p e he hc] at hp; cases hp
    · intro x hx; exact ⟨x, h2.copyLive x hx, rfl⟩
    · intro e he hc
      rw [hc, hn1.2] at he; cases he
  have hnd : ∀ (q : Nat) e, VAt m q e → (m.graph.portNode q ≠ some n ↔ e.1 ≠ n) := by
    intro q e hq
    rw [At.portNode h.inv hq.1]; simp
  have hM := T.minv h2 rfl (T.subs_same h2 (fun _ h => h.elim) rfl)
  refine ⟨{ m1 with graph := g' }, by rw [r1]; rfl, hM.mono ?_, ?_, ?_, ?_, ?_⟩
  · intro x
    simp only [false_iff]
    rintro ⟨y, rfl, h7 | ⟨p, e, h7, h8, h9, -⟩⟩
    · exact h7
    · rw [hflag p e h7 (Classical.not_not.1 h8)] at h9; cases h9
  · intro x
    rw [← h3]
    unfold VNode
    simp only [r3]
    constructor
    · rintro ⟨⟨h7, h8⟩, h9⟩; exact ⟨⟨h8, h9⟩, h7⟩
    · rintro ⟨⟨h7, h8⟩, h9⟩; exact ⟨⟨h9, h7⟩, h8⟩
  · intro q f
    rw [← h4]
    unfold VAt
    simp only [r4]
    constructor
    · rintro ⟨⟨h7, h8⟩, h9⟩; exact ⟨⟨h7, h9⟩, h8⟩
    · rintro ⟨⟨h7, h8⟩, h9⟩; exact ⟨⟨h7, h9⟩, h8⟩
  · intro x y
    rw [T.shows h2]
    constructor
    · rintro ⟨p, k, r, l, a1, ⟨e, a2, a3⟩, ⟨f, a4, a5⟩, rfl, rfl⟩
      have a6 := ((h5 _ _).1 a1).1
      obtain ⟨⟨e', b1⟩, ⟨f', b2⟩⟩ := shows_vat h a6
      refine ⟨a6, ?_, ?_⟩
      · show m.graph.portNode p ≠ _
        rw [hnd _ _ b1]
        rw [((h4 _ _).2 b1).1.inj h2.inv a2]; exact a3
      · show m.graph.portNode r ≠ _
        rw [hnd _ _ b2]
        rw [((h4 _ _).2 b2).1.inj h2.inv a4]; exact a5
    · rintro ⟨a1, a2, a3⟩
      obtain ⟨⟨e', b1⟩, ⟨f', b2⟩⟩ := shows_vat h a1
      rw [hnd _ _ b1] at a2
      rw [hnd _ _ b2] at a3
      refine ⟨x.1, x.2, y.1, y.2, (h5 _ _).2 ⟨a1, ?_, ?_⟩, ⟨e', ((h4 _ _).2 b1).1, a2⟩, ⟨f', ((h4 _ _).2 b2).1, a3⟩, rfl, rfl⟩
      · intro _ hc; exact a2 ((hmem _ _ b1).1 hc)
      · intro _ hc; exact a3 ((hmem _ _ b2).1 hc)
  · intro z
    rw [T.subs_iff h2 (fun _ h => h.elim)]
    constructor
    · rintro (⟨p, k, e, a1, a2, a3, rfl⟩ | ⟨-, _, -, a1⟩)
      · have a4 := ((h7m _).1 a1).1
        obtain ⟨q, a5⟩ := id a4
        obtain ⟨x, c, d, k', l, a6, a7, -⟩ := h.sub_vis a5
        refine ⟨a4, ?_⟩
        show m.graph.portNode p ≠ _
        rw [hnd _ _ ⟨a6, a7⟩]
        rw [((h4 _ _).2 ⟨a6, a7⟩).1.inj h2.inv a2]; exact a3
      · exact a1.elim
    · rintro ⟨⟨q, a1⟩, a2⟩
      obtain ⟨x, c, d, k', l, a6, a7, -⟩ := h.sub_vis a1
      rw [hnd _ _ ⟨a6, a7⟩] at a2
      refine .inl ⟨z.1, z.2, _, (h7m _).2 ⟨⟨q, a1⟩, ?_⟩, ((h4 _ _).2 ⟨a6, a7⟩).1, a2, rfl⟩
      intro hc; exact absurd ((hmem _ _ ⟨a6, a7⟩).1 hc) a2

end Verif.Multi
