import Verif.Multi.Rearrange

/-!
# The effect of making a copy node
-/

namespace Verif.Multi

open Verif (Direction)
open Verif.PG Verif.View

variable {m : MG} {D : Nat → Prop}

/-- The subport `e` of the port `p`, carried by the flat port `s`, is free in `m'`, which shows the
same as `m` and has the same subports at the other ports. -/
structure Freed (m m' : MG) (p : Nat) (e : Subport) (s : Nat) : Prop where
  ok : MOk m'
  node : ∀ x, VNode m' x ↔ VNode m x
  at_iff : ∀ q f, VAt m' q f ↔ VAt m q f
  shows : ∀ x y, ShowsR m' x y ↔ ShowsR m x y
  port : e.1 = p
  sub : Sub m' s e
  free : ∀ q, ¬ Lk m'.graph s q
  least : ∀ k, k < e.2 → ∃ y, ShowsR m (p, k) y
  subs : ∀ i f, f.1 ≠ p → (Sub m' i f ↔ Sub m i f)
  frees : ∀ i f, f.1 ≠ p → Sub m i f → (∀ q, ¬ Lk m.graph i q) → ∀ q, ¬ Lk m'.graph i q
  new : ∀ j, (∃ i, Sub m' i (p, j)) ↔ (∃ i, Sub m i (p, j)) ∨ (p, j) = e

theorem linkDirected_flat {g : PG} (hI : Inv g) {a b : Nat} {n n' k k' : Nat} {d : Direction}
    (ha : At g a (n, d, k)) (hb : At g b (n', d.reverse, k')) (la : ∀ q, ¬ Lk g a q) (lb : ∀ q, ¬ Lk g b q) :
    ∃ g' r, MG.linkDirected g a b d = some (.ok r, g') ∧ Inv g' ∧ SameAt g g' ∧
      (∀ p q, Lk g' p q ↔ Lk g p q ∨ (p = a ∧ q = b) ∨ (p = b ∧ q = a)) := by
  cases d with
  | incoming =>
    obtain ⟨g', h1, h2, h3, h4⟩ := link_flat hI hb ha (by simp [Direction.reverse]) lb la
    exact ⟨g', _, h1, h2, h3, fun p q => by rw [h4, or_comm (a := p = b ∧ q = a)]⟩
  | outgoing =>
    obtain ⟨g', h1, h2, h3, h4⟩ := link_flat hI ha hb (by simp [Direction.reverse]) la lb
    exact ⟨g', _, h1, h2, h3, h4⟩

theorem makeCopy_eff (h : MOk m) {maxOff : Nat} (h2m : 2 ≤ maxOff) (hmax : maxOff ≤ 32767) {p n k l : Nat} {d : Direction}
    (hp : At m.graph p (n, d, k)) (hv : m.copy n = false) (hm : m.multi p = false) (hl : Lk m.graph p l) :
    ∃ s m', m.makeCopy maxOff p l d = some (.ok ((p, 1), s), m') ∧ Freed m m' p (p, 1) s := by
  obtain ⟨c, g1, a1, a2, a3, a4, a5, a6, a7, a8⟩ := add_flat h.inv (i := if d = .incoming then 2 else 1)
    (o := if d = .incoming then 1 else 2) (by split <;> omega) (by split <;> omega) hmax
  have hnd : g1.numPorts c d = 2 ∧ g1.numPorts c d.reverse = 1 := by
    cases d
    · simpa [Direction.reverse] using a6
    · simpa [Direction.reverse, and_comm] using a6
  have hne : ∀ q e, At m.graph q e → e.1 ≠ c := by
    intro q e he hc
    have := At.contains he
    rw [hc, a3] at this; cases this
  have hold : ∀ q e, At m.graph q e → At g1 q e := fun q e he => (a5 q e (hne q e he)).2 he
  have hfresh : ∀ q d' j, At g1 q (c, d', j) → ∀ e, ¬ At m.graph q e := by
    intro q d' j hq e he
    have := a7 q d' j hq
    rw [he.port h.inv] at this; cases this
  obtain ⟨cp, hcp⟩ := at_iff_lt.2 (show 0 < g1.numPorts c d.reverse by rw [hnd.2]; omega)
  obtain ⟨s0, hs0⟩ := at_iff_lt.2 (show 0 < g1.numPorts c d by rw [hnd.1]; omega)
  obtain ⟨s1, hs1⟩ := at_iff_lt.2 (show 1 < g1.numPorts c d by rw [hnd.1]; omega)
  obtain ⟨el, fl, hel, hfl, hdl⟩ := hl.at h.inv
  obtain rfl := hp.inj h.inv hel
  obtain ⟨nl, dl, kl⟩ := fl
  simp only at hdl
  subst hdl
  -- the ports differ
  have hpp := hold _ _ hp
  have hll := hold _ _ hfl
  have n1 : cp ≠ p := by rintro rfl; exact hfresh _ _ _ hcp _ hp
  have n2 : s0 ≠ p := by rintro rfl; exact hfresh _ _ _ hs0 _ hp
  have n3 : s1 ≠ p := by rintro rfl; exact hfresh _ _ _ hs1 _ hp
  have n4 : cp ≠ l := by rintro rfl; exact hfresh _ _ _ hcp _ hfl
  have n5 : s0 ≠ l := by rintro rfl; exact hfresh _ _ _ hs0 _ hfl
  have n6 : s1 ≠ l := by rintro rfl; exact hfresh _ _ _ hs1 _ hfl
  have n7 : cp ≠ s0 := by rintro rfl; exact reverse_ne d (by simpa using congrArg (·.2.1) (hcp.inj a2 hs0))
  have n8 : cp ≠ s1 := by rintro rfl; exact reverse_ne d (by simpa using congrArg (·.2.1) (hcp.inj a2 hs1))
  have n9 : s0 ≠ s1 := by rintro rfl; simpa using congrArg (·.2.2) (hs0.inj a2 hs1)
  have n10 : p ≠ l := by rintro rfl; exact reverse_ne d (by simpa using congrArg (·.2.1) (hfl.inj h.inv hp))
  have hlm : m.multi l = false := by rw [← h.lk_multi hl, hm]
  have hnl : ∀ q, ¬ Lk g1 cp q ∧ ¬ Lk g1 s0 q ∧ ¬ Lk g1 s1 q := by
    intro q
    refine ⟨?_, ?_, ?_⟩
    · intro hc; obtain ⟨e, -, he, -⟩ := ((a8 _ _).1 hc).at h.inv; exact hfresh _ _ _ hcp _ he
    · intro hc; obtain ⟨e, -, he, -⟩ := ((a8 _ _).1 hc).at h.inv; exact hfresh _ _ _ hs0 _ he
    · intro hc; obtain ⟨e, -, he, -⟩ := ((a8 _ _).1 hc).at h.inv; exact hfresh _ _ _ hs1 _ he
  -- the four steps
  obtain ⟨g2, b1, b2, b3, b4⟩ := unlink_flat a2 hpp
  obtain ⟨g3, r3, c1, c2, c3, c4⟩ := linkDirected_flat b2 ((b3.at_iff _ _).2 hpp) ((b3.at_iff _ _).2 hcp)
    (by intro q hq; rw [b4] at hq; exact hq.2.1 rfl) (by intro q hq; rw [b4] at hq; exact (hnl q).1 hq.1)
  have c5 : ∀ x y, Lk g3 x y ↔ (Lk m.graph x y ∧ x ≠ p ∧ y ≠ p) ∨ (x = p ∧ y = cp) ∨ (x = cp ∧ y = p) := by
    intro x y; rw [c4, b4, a8]
  obtain ⟨g4, r4, d1, d2, d3, d4⟩ := linkDirected_flat c2 ((c3.at_iff _ _).2 ((b3.at_iff _ _).2 hs0))
    ((c3.at_iff _ _).2 ((b3.at_iff _ _).2 hll))
    (by
      intro q hq
      rw [c5] at hq
      rcases hq with ⟨hq, -⟩ | ⟨hq, -⟩ | ⟨hq, -⟩
      · exact (hnl q).2.1 ((a8 _ _).2 hq)
      · exact n2 hq
      · exact n7 hq.symm)
    (by
      intro q hq
      rw [c5] at hq
      rcases hq with ⟨hq, -, hq'⟩ | ⟨hq, -⟩ | ⟨hq, -⟩
      · exact hq' (hq.fun (hl.sym h.inv))
      · exact n10 hq.symm
      · exact n4 hq.symm)
  have hat : ∀ q e, At g4 q e ↔ At g1 q e := by
    intro q e; rw [d3.at_iff, c3.at_iff, b3.at_iff]
  have hnode : ∀ x, g4.containsNode x = true ↔ x = c ∨ m.graph.containsNode x = true := by
    intro x; rw [d3.node, c3.node, b3.node, a4]
  have hnum : ∀ x d', g4.numPorts x d' = g1.numPorts x d' := by
    intro x d'; rw [d3.num, c3.num, b3.num]
  have hlk : ∀ x y, Lk g4 x y ↔ (Lk m.graph x y ∧ x ≠ p ∧ y ≠ p) ∨ (x = p ∧ y = cp) ∨ (x = cp ∧ y = p) ∨
      (x = s0 ∧ y = l) ∨ (x = l ∧ y = s0) := by
    intro x y; rw [d4, c5]
    constructor
    · rintro ((h | h | h) | h | h) <;> simp [h]
    · rintro (h | h | h | h | h) <;> simp [h]
  have hoat : ∀ q e, At g4 q e → e.1 ≠ c → At m.graph q e := by
    intro q e hq he; exact (a5 q e he).1 ((hat _ _).1 hq)
  have hoat' : ∀ q e, At m.graph q e → At g4 q e := fun q e hq => (hat _ _).2 (hold q e hq)
  -- the flags
  let f' : Nat → Bool := setFlag (setFlag m.multi cp true) p true
  let c' : Nat → Bool := setFlag m.copy c true
  have hf' : ∀ q, q ≠ p → q ≠ cp → f' q = m.multi q := by
    intro q h1 h2; simp [f', setFlag, h1, h2]
  have hfp : f' p = true := by simp [f', setFlag]
  have hfcp : f' cp = true := by simp [f', setFlag]
  have hc' : ∀ x, x ≠ c → c' x = m.copy x := by intro x hx; simp [c', setFlag, hx]
  have hcc : c' c = true := by simp [c', setFlag]
  have hcold : m.copy c = false := by
    cases hc : m.copy c with
    | false => rfl
    | true => rw [h.copyLive c hc] at a3; cases a3
  have hfold : ∀ q e, At m.graph q e → q ≠ p → f' q = m.multi q := by
    intro q e hq hqp
    apply hf' q hqp
    rintro rfl; exact hfresh _ _ _ hcp _ hq
  have hfnew : ∀ q j, At g4 q (c, d, j) → f' q = false := by
    intro q j hq
    have hq' := (hat _ _).1 hq
    rw [hf' q]
    · cases hc : m.multi q with
      | false => rfl
      | true =>
        obtain ⟨e, he⟩ := h.multi_live hc
        exact absurd he (hfresh _ _ _ hq' e)
    · rintro rfl; exact hfresh _ _ _ hq' _ hp
    · rintro rfl; exact reverse_ne d (by simpa using congrArg (·.2.1) (hcp.inj a2 hq'))
  have hmulp : ∀ q, m.multi q = true → q ≠ p := by rintro q hq rfl; rw [hm] at hq; cases hq
  -- the state
  let m' : MG := ⟨g4, f', c', m.copyCount + 1, m.subCount + 2⟩
  have hCnew : CopyOf m' c d cp := by
    refine ⟨hcc, (hat _ _).2 hcp, hfcp, ?_, ?_, hfnew⟩
    · show g4.numPorts _ _ = 1; rw [hnum, hnd.2]
    · show 2 ≤ g4.numPorts _ _; rw [hnum, hnd.1]
  have hnumold : ∀ x d', x ≠ c → g4.numPorts x d' = m.graph.numPorts x d' := by
    intro x d' hx
    rw [hnum]
    exact num_of_at fun q j => a5 q _ hx
  have hCold : ∀ x d' q, CopyOf m x d' q → CopyOf m' x d' q := by
    intro x d' q hC
    have hx : x ≠ c := by rintro rfl; rw [hC.copy] at hcold; cases hcold
    refine ⟨by show c' x = true; rw [hc' x hx, hC.copy], hoat' _ _ hC.port, ?_, ?_, ?_, ?_⟩
    · show f' q = true
      rw [hfold q _ hC.port (hmulp q hC.flag), hC.flag]
    · show g4.numPorts _ _ = 1; rw [hnumold _ _ hx]; exact hC.one
    · show 2 ≤ g4.numPorts _ _; rw [hnumold _ _ hx]; exact hC.two
    · intro r j hr
      have hr' := hoat r _ hr hx
      show f' r = false
      rw [hfold r _ hr', hC.subs r j hr']
      rintro rfl
      rw [hr'.inj h.inv hp] at hr'
      have := congrArg (·.1) (hr'.inj h.inv (hoat r _ hr hx))
      simp only at this
      rw [this, hC.copy] at hv; cases hv
  have hok : MOk m' := by
    refine ⟨d2, ?_, ?_, fun _ h => h.elim, ?_, ?_, ?_⟩
    · intro x hx
      refine (hnode x).2 ?_
      by_cases hxc : x = c
      · exact .inl hxc
      · exact .inr (h.copyLive x (by rw [← hc' x hxc]; exact hx))
    · intro q hq _
      by_cases h1 : q = p
      · subst h1
        refine ⟨cp, _, _, hoat' _ _ hp, (hat _ _).2 hcp, (hlk _ _).2 (by simp), hfcp, ?_⟩
        show c' c = !c' n
        rw [hcc, hc' n (hne _ _ hp), hv]; rfl
      · by_cases h2 : q = cp
        · subst h2
          refine ⟨p, _, _, (hat _ _).2 hcp, hoat' _ _ hp, (hlk _ _).2 (by simp), hfp, ?_⟩
          show c' n = !c' c
          rw [hcc, hc' n (hne _ _ hp), hv]; rfl
        · have hq' : m.multi q = true := by rw [← hf' q h1 h2]; exact hq
          obtain ⟨r, e, f, g5, g6, g7, g8, g9⟩ := h.partner q hq' (by simp)
          refine ⟨r, e, f, hoat' _ _ g5, hoat' _ _ g6, (hlk _ _).2 (.inl ⟨g7, h1, hmulp r g8⟩), ?_, ?_⟩
          · show f' r = true
            rw [hfold r _ g6 (hmulp r g8), g8]
          · show c' f.1 = !c' e.1
            rw [hc' _ (hne _ _ g5), hc' _ (hne _ _ g6), g9]
    · intro x hx
      by_cases hxc : x = c
      · subst hxc; exact ⟨d, cp, hCnew⟩
      · obtain ⟨d', q, hC⟩ := h.shape x (by rw [← hc' x hxc]; exact hx)
        exact ⟨d', q, hCold _ _ _ hC⟩
    · refine ((Counted.single c).union h.copies (by rintro x rfl hx; rw [hcold] at hx; cases hx)).congr ?_ |> fun h => by
        rw [Nat.add_comm] at h; exact h
      intro x
      show c' x = true ↔ _
      by_cases hxc : x = c
      · subst hxc; simp [hcc]
      · rw [hc' x hxc]; simp [hxc]
    · have h2 : Counted (fun q => ∃ j, At g4 q (c, d, j)) 2 := by
        have := counted_dir g4 c d
        rw [length_ports, hnum, hnd.1] at this
        exact this
      refine (h.subs.union h2 ?_).congr ?_
      · rintro q ⟨-, e, he, -⟩ ⟨j, hj⟩
        exact hfresh _ _ _ ((hat _ _).1 hj) _ he
      · intro q
        constructor
        · rintro ⟨h1, ⟨x, d', j⟩, h3, h4⟩
          by_cases hx : x = c
          · subst hx
            rcases hCnew.classify h3 with ⟨rfl, -⟩ | ⟨-, -, rfl⟩
            · exact .inr ⟨j, h3⟩
            · rw [show m'.multi q = true from hfcp] at h1; cases h1
          · left
            have h3' := hoat _ _ h3 hx
            have hqp : q ≠ p := by rintro rfl; rw [show m'.multi q = true from hfp] at h1; cases h1
            exact ⟨by rw [← hfold q _ h3' hqp]; exact h1, _, h3', by rw [← hc' x hx]; exact h4⟩
        · rintro (⟨h1, e, h3, h4⟩ | ⟨j, hj⟩)
          · have hqp : q ≠ p := by
              rintro rfl
              rw [h3.inj h.inv hp] at h4
              simp only at h4
              rw [hv] at h4; cases h4
            exact ⟨by show f' q = false; rw [hfold q _ h3 hqp, h1], e, hoat' _ _ h3,
              by show c' e.1 = true; rw [hc' _ (hne _ _ h3), h4]⟩
          · exact ⟨hfnew q j hj, _, hj, hcc⟩
  -- names
  have hmain : Lk g4 cp p := (hlk _ _).2 (by simp)
  have hsub0 : Sub m' s0 (p, 0) := (hok.sub_multi hCnew (hmain.sym d2)).2 ((hat _ _).2 hs0)
  have hsub1 : Sub m' s1 (p, 1) := (hok.sub_multi hCnew (hmain.sym d2)).2 ((hat _ _).2 hs1)
  have hsubp : Sub m p (p, 0) := (h.sub_single ⟨_, hp, hv⟩ hm).2 ⟨rfl, rfl⟩
  have hfwd : ∀ q x, Sub m q x → q ≠ p → Sub m' q x := by
    intro q x hs hqp
    rcases h.sub_iff.1 hs with ⟨h1, ⟨⟨x', d', j⟩, h3, h4, h5⟩ | ⟨c1, d', cp1, h3, h4, h5⟩⟩
    · refine hok.sub_iff.2 ⟨by show f' q = false; rw [hfold q _ h3 hqp, h1], .inl ⟨_, hoat' _ _ h3, ?_, h5⟩⟩
      show c' x' = false
      rw [hc' _ (hne _ _ h3)]; exact h4
    · refine hok.sub_iff.2 ⟨by show f' q = false; rw [hfold q _ h3 hqp, h1], .inr ⟨c1, d', cp1, hoat' _ _ h3, hCold _ _ _ h4, ?_⟩⟩
      exact (hlk _ _).2 (.inl ⟨h5, hmulp _ h4.flag, hmulp _ (h.main_vis h4 h5).1⟩)
  have hback : ∀ q x e, Sub m' q x → At m.graph q e → q ≠ p → Sub m q x := by
    intro q x e hs he hqp
    obtain ⟨x', hx'⟩ := h.sub_exists he (by rw [← hfold q e he hqp]; exact hok.sub_flag hs) (by simp)
    rwa [hok.sub_fun hs (hfwd q x' hx' hqp)]
  refine ⟨s1, m', ?_, hok, ?_, ?_, ?_, rfl, hsub1, ?_, ?_, ?_, ?_, ?_⟩
  · unfold MG.makeCopy
    rw [a1]
    simp only
    have e1 : (g1.ports c d.reverse).head? = some cp := by
      rw [List.head?_eq_getElem?]; exact getElem?_ports.2 hcp
    rw [e1, at_index.2 hs0, at_index.2 hs1]
    simp only
    rw [b1]
    simp only
    rw [c1]
    simp only
    rw [d1]
  · intro x
    unfold VNode
    rw [show m'.graph.containsNode x = true ↔ _ from hnode x]
    show _ ∧ c' x = false ↔ _
    by_cases hx : x = c
    · subst hx; simp [hcc, a3]
    · simp [hx, hc' x hx]
  · intro q f
    unfold VAt
    show At g4 q f ∧ c' f.1 = false ↔ _
    by_cases hx : f.1 = c
    · rw [hx, hcc]
      constructor
      · rintro ⟨-, h1⟩; cases h1
      · rintro ⟨h1, -⟩; exact absurd hx (hne _ _ h1)
    · rw [hc' _ hx, hat, a5 _ _ hx]
  · intro x y
    constructor
    · rintro ⟨q, r, h1, h2, h3⟩
      have hq : q ≠ p ∧ q ≠ cp := by
        have := hok.sub_flag h1
        constructor
        · rintro rfl; rw [show m'.multi q = true from hfp] at this; cases this
        · rintro rfl; rw [show m'.multi q = true from hfcp] at this; cases this
      have hr : r ≠ p ∧ r ≠ cp := by
        have := hok.sub_flag h2
        constructor
        · rintro rfl; rw [show m'.multi r = true from hfp] at this; cases this
        · rintro rfl; rw [show m'.multi r = true from hfcp] at this; cases this
      rcases (hlk _ _).1 h3 with ⟨h4, -, -⟩ | ⟨h4, -⟩ | ⟨h4, -⟩ | ⟨rfl, rfl⟩ | ⟨rfl, rfl⟩
      · obtain ⟨e, f, h5, h6, -⟩ := h4.at h.inv
        exact ⟨q, r, hback _ _ _ h1 h5 hq.1, hback _ _ _ h2 h6 hr.1, h4⟩
      · exact absurd h4 hq.1
      · exact absurd h4 hq.2
      · obtain rfl := hok.sub_fun h1 hsub0
        exact ⟨p, r, hsubp, hback _ _ _ h2 hfl hr.1, hl⟩
      · obtain rfl := hok.sub_fun h2 hsub0
        exact ⟨q, p, hback _ _ _ h1 hfl hq.1, hsubp, hl.sym h.inv⟩
    · rintro ⟨q, r, h1, h2, h3⟩
      by_cases hq : q = p
      · subst hq
        obtain rfl := h3.fun hl
        rw [h.sub_fun h1 hsubp]
        exact ⟨s0, r, hsub0, hfwd _ _ h2 (Ne.symm n10), (hlk _ _).2 (by simp)⟩
      · by_cases hr : r = p
        · subst hr
          obtain rfl := (h3.sym h.inv).fun hl
          rw [h.sub_fun h2 hsubp]
          exact ⟨q, s0, hfwd _ _ h1 hq, hsub0, (hlk _ _).2 (by simp)⟩
        · exact ⟨q, r, hfwd _ _ h1 hq, hfwd _ _ h2 hr, (hlk _ _).2 (.inl ⟨h3, hq, hr⟩)⟩
  · intro q hq
    rcases (hlk _ _).1 hq with ⟨h1, -⟩ | ⟨h1, -⟩ | ⟨h1, -⟩ | ⟨h1, -⟩ | ⟨h1, -⟩
    · exact (hnl q).2.2 ((a8 _ _).2 h1)
    · exact n3 h1
    · exact n8 h1.symm
    · exact n9 h1.symm
    · exact n6 h1
  · intro j hj
    obtain rfl : j = 0 := by simp only at hj; omega
    obtain ⟨y, hy⟩ := h.lk_sub hl hm (by simp)
    exact ⟨y, p, l, hsubp, hy, hl⟩
  · intro i f hfp'
    constructor
    · intro hs
      have hif := hok.sub_flag hs
      have hip : i ≠ p := by rintro rfl; rw [show m'.multi i = true from hfp] at hif; cases hif
      rcases hok.sub_iff.1 hs with ⟨h1, ⟨e, h3, h4, h5⟩ | ⟨c1, d', cp1, h3, h4, h5⟩⟩
      · have hx : e.1 ≠ c := by
          intro hx
          rw [hx, show m'.copy c = true from hcc] at h4; cases h4
        exact hback _ _ _ hs (hoat _ _ h3 hx) hip
      · have hx : c1 ≠ c := by
          rintro rfl
          obtain ⟨-, rfl⟩ := h4.fun hCnew
          exact hfp' (h5.fun hmain)
        exact hback _ _ _ hs (hoat _ _ h3 hx) hip
    · intro hs
      apply hfwd _ _ hs
      rintro rfl
      rw [h.sub_fun hs hsubp] at hfp'
      exact hfp' rfl
  · intro i f hfp' hs hfree q hq
    have hip : i ≠ p := by
      rintro rfl
      rw [h.sub_fun hs hsubp] at hfp'
      exact hfp' rfl
    obtain ⟨x, d', j, h1, -⟩ := hs
    rcases (hlk _ _).1 hq with ⟨h2, -⟩ | ⟨h2, -⟩ | ⟨rfl, -⟩ | ⟨rfl, -⟩ | ⟨rfl, -⟩
    · exact hfree _ h2
    · exact hip h2
    · exact hfresh _ _ _ hcp _ h1
    · exact hfresh _ _ _ hs0 _ h1
    · exact hfree _ (hl.sym h.inv)
  · intro j
    constructor
    · rintro ⟨i, hs⟩
      have h1 := at_iff_lt.1 ⟨_, (hat _ _).1 ((hok.sub_multi hCnew (hmain.sym hok.inv)).1 hs)⟩
      rw [hnd.1] at h1
      rcases Nat.lt_or_ge j 1 with h2 | h2
      · obtain rfl : j = 0 := by omega
        exact .inl ⟨p, hsubp⟩
      · obtain rfl : j = 1 := by omega
        exact .inr rfl
    · rintro (⟨i, hs⟩ | hj)
      · obtain rfl : j = 0 := ((h.sub_single ⟨_, hp, hv⟩ hm).1 hs).2
        exact ⟨s0, hsub0⟩
      · cases hj; exact ⟨s1, hsub1⟩

end Verif.Multi
