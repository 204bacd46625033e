import Verif.Multi.Copy

/-!
# Effects of the linking operations of a `MultiPortGraph`
-/

namespace Verif.Multi

open Verif (Direction)
open Verif.PG Verif.View

variable {m : MG} {D : Nat → Prop}

/-- A copy node gets one more subport. -/
theorem grow_eff (h : MOk m) {c cp p : Nat} {d : Direction} (hC : CopyOf m c d cp) (hl : Lk m.graph p cp)
    (hroom : m.graph.numPorts c d + 2 ≤ 32768) (hall : ∀ q j, At m.graph q (c, d, j) → ∃ r, Lk m.graph q r)
    {i o : Nat} (hio : ∀ d', newCount i o d' = m.graph.numPorts c d' + if d' = d then 1 else 0) :
    ∃ s m1 tr, m.setNumPorts c i o = some (m1, tr) ∧ m1.graph.portIndex c d (m.graph.numPorts c d) = some s ∧
      Freed m { m1 with subCount := m1.subCount + 1 } p (p, m.graph.numPorts c d) s := by
  have hcn := h.copyLive c hC.copy
  have hsum : i + o ≤ 32768 ∧ ¬ (m.graph.numPorts c .incoming = i ∧ m.graph.numPorts c .outgoing = o) := by
    have h1 := hio .incoming
    have h2 := hio .outgoing
    have h3 := hC.one
    simp only [newCount] at h1 h2
    cases d <;> simp [Direction.reverse] at h1 h2 h3 <;> omega
  obtain ⟨g', tr, hg⟩ : ∃ g' tr, m.graph.setNumPorts c i o = some (g', tr) := by
    obtain ⟨nm, hnm⟩ := Option.isSome_iff_exists.1 (containsNode_iff.1 hcn)
    obtain ⟨g', tr1, tr2, -, h1, -⟩ := setNumPorts_ok h.inv hnm (inc := i) (out := o) (by
      have := hsum.2
      rw [numPorts_eq hnm, numPorts_eq hnm] at this
      exact this) (.inl hsum.1) (by omega)
    exact ⟨g', _, h1⟩
  obtain ⟨hI', hnum, π, M, hother, -, tr1, l, rfl, hCl⟩ := resize_flat h.inv hcn hg
  -- nothing is dropped
  have hkeep : ∀ q e, At m.graph q e → ¬ Dropped c i o e := by
    rintro q ⟨x, d', j⟩ hq ⟨h1, h2⟩
    simp only at h1 h2
    subst h1
    have h3 := at_iff_lt.1 ⟨q, hq⟩
    rw [hio] at h2
    omega
  obtain rfl : tr1 = [] := by
    cases tr1 with
    | nil => rfl
    | cons x t =>
      obtain ⟨e, h1, h2⟩ := (hCl.mem_drop x.1).1 (by simp)
      exact absurd h2 (hkeep _ _ h1)
  obtain ⟨L, hL1, -, hL3⟩ := rekeyFlags_ok (f := m.multi) (l := l) [] (by simp)
  obtain rfl : L = [] := by simpa using hL3
  obtain ⟨f1, f2, -⟩ := swaps_calls h.inv hI' M hCl (f := m.multi) (fun x hx => h.multi_live hx) (by simp)
  obtain ⟨s, hs⟩ : ∃ s, At g' s (c, d, m.graph.numPorts c d) := by
    rw [at_iff_lt, hnum, hio]; simp
  -- the new position
  have hsnew : ∀ q j, At g' q (c, d, j) → m.graph.numPorts c d ≤ j → q = s ∧ j = m.graph.numPorts c d := by
    intro q j hq hj
    have h1 := at_iff_lt.1 ⟨q, hq⟩
    rw [hnum, hio, if_pos rfl] at h1
    obtain rfl : j = m.graph.numPorts c d := by omega
    exact ⟨hq.unique hs, rfl⟩
  let m' : MG := ⟨g', swaps m.multi l, m.copy, m.copyCount, m.subCount + 1⟩
  have T : Trans m m' id π (fun _ => True)
      (fun e => e.1 = c ∧ e.2.1 = d ∧ m.graph.numPorts c d ≤ e.2.2) := by
    refine ⟨hI', fun _ _ _ _ h => h, fun q e hq _ => M.fwd q e hq (hkeep q e hq), ?_,
      fun q e r f hq _ hr _ => M.lk q e r f hq (hkeep q e hq) hr (hkeep r f hr), fun q e hq _ => f1 q e hq (hkeep q e hq),
      ?_, ?_, fun _ _ => rfl, ?_, fun _ _ => trivial, ?_⟩
    · rintro p' ⟨x, d', j⟩ hp
      rcases M.back p' _ hp with ⟨q, e, h1, h2, h3, h4, -⟩ | ⟨h1, h2⟩
      · exact .inl ⟨q, e, h1, trivial, h3, h4⟩
      · right
        simp only at h1
        obtain ⟨rfl, h1⟩ := h1
        have h3 := at_iff_lt.1 ⟨p', hp⟩
        rw [hnum, hio] at h3
        have : d' = d := by
          apply Classical.byContradiction
          intro hc
          rw [if_neg hc] at h3
          omega
        subst this
        exact ⟨⟨rfl, rfl, h1⟩, h2⟩
    · rintro p' ⟨x, d', j⟩ hp ⟨h1, h2, h3⟩
      simp only at h1 h2 h3
      subst h1 h2
      show swaps m.multi l p' = false
      cases hc : swaps m.multi l p' with
      | false => rfl
      | true =>
        rcases f2 p' hc with ⟨q, ⟨x', d'', j'⟩, h4, h5, rfl⟩ | ⟨-, h4⟩
        · have h6 := hp.inj hI' (M.fwd q _ h4 h5)
          simp only [mapE, id, Prod.mk.injEq] at h6
          obtain ⟨rfl, rfl, rfl⟩ := h6
          have := at_iff_lt.1 ⟨q, h4⟩
          omega
        · simp at h4
    · intro p' hp'
      rcases f2 p' hp' with ⟨q, e, h4, h5, rfl⟩ | ⟨-, h4⟩
      · exact ⟨_, M.fwd q e h4 h5⟩
      · simp at h4
    · intro x hx; exact ⟨x, h.copyLive x hx, rfl⟩
    · rintro c1 d1 k1 ⟨h1, h2, -⟩ -
      simp only at h1 h2
      subst h1 h2
      exact ⟨π cp, M.fwd _ _ hC.port (hkeep _ _ hC.port), by
        show swaps m.multi l (π cp) = true
        rw [f1 _ _ hC.port (hkeep _ _ hC.port), hC.flag]⟩
  have hsubs : Counted (SubPort m') (m.subCount + 1) := by
    have h1 := (h.subs.image (π := π) (by
      rintro x y ⟨-, e, h1, -⟩ ⟨-, f, h3, -⟩ he
      exact T.inj h1 trivial h3 trivial he)).union (Counted.single s) (by
      rintro _ ⟨q, ⟨-, ⟨x, d', j⟩, h1, -⟩, rfl⟩ hc
      have h2 := T.fwd q _ h1 trivial
      rw [hc] at h2
      have := hs.inj hI' h2
      simp only [mapE, id, Prod.mk.injEq] at this
      obtain ⟨rfl, rfl, rfl⟩ := this
      have := at_iff_lt.1 ⟨q, h1⟩
      omega)
    refine h1.congr fun q' => ?_
    rw [T.subPort_iff]
    apply or_congr Iff.rfl
    constructor
    · rintro ⟨⟨x, d', j⟩, h2, ⟨h3, h4, h5⟩, -⟩
      simp only at h3 h4 h5
      subst h3 h4
      exact (hsnew _ _ h2 h5).1
    · rintro rfl
      exact ⟨_, hs, ⟨rfl, rfl, Nat.le_refl _⟩, hC.copy⟩
  have hok : MOk m' := (T.minv h rfl hsubs).mono (by
    intro x
    simp only [false_iff]
    rintro ⟨y, -, h1 | ⟨p, e, -, h1, -⟩⟩
    · exact h1
    · exact h1 trivial)
  have hπ : ∀ q e, VAt m q e → π q = q := by
    intro q e hq
    apply hother q e hq.1
    intro hc
    have := hq.2
    rw [hc, hC.copy] at this; cases this
  obtain ⟨pn, pk, hpa, hpv⟩ : ∃ x k, At m.graph p (x, d, k) ∧ m.copy x = false := (h.main_vis hC (hl.sym h.inv)).2
  have hpp : π p = p := hπ p _ ⟨hpa, hpv⟩
  have hC' : CopyOf m' c d (π cp) := T.copyOf hC
  have hl' : Lk g' p (π cp) := by
    have := (T.lk _ _ _ _ hpa trivial hC.port trivial).2 hl
    rwa [hpp] at this
  have honc : ∀ q x, Sub m q x → (∃ e, At m.graph q e ∧ e.1 = c) → x.1 = p := by
    rintro q x hx ⟨e, h1, h2⟩
    rcases h.sub_iff.1 hx with ⟨-, ⟨e', h3, h4, -⟩ | ⟨c1, d1, cp1, h3, h4, h5⟩⟩
    · rw [h3.inj h.inv h1, h2, hC.copy] at h4; cases h4
    · have := h3.inj h.inv h1
      rw [← this] at h2
      simp only at h2
      subst h2
      obtain ⟨-, rfl⟩ := h4.fun hC
      exact h5.fun (hl.sym h.inv)
  have hπs : ∀ q x, Sub m q x → x.1 ≠ p → π q = q := by
    intro q x hx hne
    obtain ⟨n1, d1, k1, h1, -⟩ := id hx
    apply hother q _ h1
    intro hc
    exact hne (honc q x hx ⟨_, h1, hc⟩)
  have hsubs' : Sub m' s (p, m.graph.numPorts c d) := (hok.sub_multi hC' hl').2 hs
  have hnotold : ∀ q e, At m.graph q e → π q ≠ s := by
    rintro q ⟨x, d', j⟩ h1 hc
    have h2 := T.fwd q _ h1 trivial
    rw [hc] at h2
    have := hs.inj hI' h2
    simp only [mapE, id, Prod.mk.injEq] at this
    obtain ⟨rfl, rfl, rfl⟩ := this
    have := at_iff_lt.1 ⟨q, h1⟩
    omega
  refine ⟨s, ⟨g', swaps m.multi l, m.copy, m.copyCount, m.subCount⟩, [] ++ l.map (fun x => (x.1, .moved x.2)), ?_, at_index.2 hs, hok, ?_, ?_, ?_, rfl, hsubs', ?_, ?_, ?_, ?_, ?_⟩
  · unfold MG.setNumPorts
    rw [hg]
    simp only
    rw [hL1]
    rfl
  · intro x
    show g'.containsNode x = true ∧ m.copy x = false ↔ _
    rw [M.node]
    simp [VNode]
  · intro q f
    constructor
    · rintro ⟨h1, h2⟩
      rcases T.back _ _ h1 with ⟨q0, e, h3, -, rfl, rfl⟩ | ⟨⟨h3, -⟩, -⟩
      · have h4 : VAt m q0 e := ⟨h3, h2⟩
        rw [hπ _ _ h4]; exact h4
      · rw [h3] at h2
        rw [show m.copy c = true from hC.copy] at h2; cases h2
    · intro h1
      have h2 := T.fwd _ _ h1.1 trivial
      rw [hπ _ _ h1] at h2
      exact ⟨h2, h1.2⟩
  · intro x y
    rw [show ({ (⟨g', swaps m.multi l, m.copy, m.copyCount, m.subCount⟩ : MG) with subCount := m.subCount + 1 } : MG) = m' from rfl,
      T.shows h]
    constructor
    · rintro ⟨p1, k1, r, l1, h1, -, -, rfl, rfl⟩
      obtain ⟨⟨e, h4⟩, ⟨e', h5⟩⟩ := shows_vat h h1
      rw [hπ _ _ h4, hπ _ _ h5]; exact h1
    · intro h1
      obtain ⟨⟨e, h4⟩, ⟨e', h5⟩⟩ := shows_vat h h1
      exact ⟨x.1, x.2, y.1, y.2, h1, ⟨e, h4.1, trivial⟩, ⟨e', h5.1, trivial⟩, by rw [hπ _ _ h4], by rw [hπ _ _ h5]⟩
  · intro q hq
    obtain ⟨p1, e, r, f, h1, -, -, -, h2, -⟩ := T.lk_back hq
    exact hnotold _ _ h1 h2.symm
  · intro k hk
    obtain ⟨q, hq⟩ := at_iff_lt.2 hk
    obtain ⟨r, hr⟩ := hall q k hq
    obtain ⟨y, hy⟩ := h.lk_sub hr (hC.subs q k hq) (by simp)
    exact ⟨y, q, r, (h.sub_multi hC hl).2 hq, hy, hr⟩
  · intro q f hne
    constructor
    · intro hsub
      obtain ⟨n1, d1, k1, h1, -⟩ := id hsub
      rcases T.back _ _ h1 with ⟨q0, e, h3, -, rfl, -⟩ | ⟨⟨h3, h4, h5⟩, -⟩
      · obtain ⟨p0, k0, e0, h6, h7, -, rfl⟩ := T.sub_back h h3 trivial hsub
        obtain ⟨n2, c2, d2, k2, l2, h8, h9, -⟩ := h.sub_vis h6
        have h10 := hπ p0 _ ⟨h8, h9⟩
        simp only [h10] at hne ⊢
        rw [hπs _ _ h6 hne]; exact h6
      · simp only at h3 h4 h5
        subst h3 h4
        obtain ⟨rfl, -⟩ := hsnew _ _ h1 h5
        rw [hok.sub_fun hsub hsubs'] at hne
        exact absurd rfl hne
    · intro hsub
      obtain ⟨n2, c2, d2, k2, l2, h8, h9, -⟩ := h.sub_vis hsub
      have h10 := (T.sub_fwd h (show Sub m q (f.1, f.2) from hsub) h8 trivial).1
      rw [hπ _ _ ⟨h8, h9⟩, hπs _ _ hsub hne] at h10
      exact h10
  · intro q f hne hsub hfree r hr
    obtain ⟨n1, d1, k1, h1, -⟩ := id hsub
    obtain ⟨p1, e, r1, f1', h2, -, -, -, h3, -, h4⟩ := T.lk_back hr
    have h5 := hπs _ _ hsub hne
    obtain rfl := T.inj h2 trivial h1 trivial (by rw [h5, ← h3])
    exact hfree _ h4
  · intro j
    have h1 : (∃ i, Sub m' i (p, j)) ↔ j < g'.numPorts c d := by
      rw [← at_iff_lt]; exact exists_congr fun q => hok.sub_multi hC' hl'
    have h2 : (∃ i, Sub m i (p, j)) ↔ j < m.graph.numPorts c d := by
      rw [← at_iff_lt]; exact exists_congr fun q => h.sub_multi hC hl
    show (∃ i, Sub m' i (p, j)) ↔ _
    rw [h1, h2, hnum, hio, if_pos rfl, Prod.mk.injEq]
    omega

theorem addPort_eff (h : MOk m) {c cp p : Nat} {d : Direction} (hC : CopyOf m c d cp) (hl : Lk m.graph p cp)
    (hroom : m.graph.numPorts c d + 2 ≤ 32768) (hall : ∀ q j, At m.graph q (c, d, j) → ∃ r, Lk m.graph q r) :
    ∃ s m1, m.addPort c d = some (s, m1) ∧
      Freed m { m1 with subCount := m1.subCount + 1 } p (p, m.graph.numPorts c d) s := by
  unfold MG.addPort
  cases d with
  | incoming =>
    obtain ⟨s, m1, tr, h1, h2, h3⟩ := grow_eff h hC hl hroom hall (i := m.graph.numPorts c .incoming + 1)
      (o := m.graph.numPorts c .outgoing) (by intro d'; cases d' <;> simp [newCount])
    exact ⟨s, m1, by simp only [h1, h2, Option.map_some], h3⟩
  | outgoing =>
    obtain ⟨s, m1, tr, h1, h2, h3⟩ := grow_eff h hC hl hroom hall (i := m.graph.numPorts c .incoming)
      (o := m.graph.numPorts c .outgoing + 1) (by intro d'; cases d' <;> simp [newCount])
    exact ⟨s, m1, by simp only [h1, h2, Option.map_some], h3⟩

end Verif.Multi
