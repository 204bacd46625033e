import Verif.Undo.HierLemmas

/-!
# C66 and C67 for hierarchies
-/

namespace Verif.Undo

open Verif.Hier Verif.Equality

/-! ## C66 undoing calls -/

/-- **C66** `detach` undoes every successful call that attaches the node: it returns the parent below
which the node was put, and the hierarchy is equal (`==`) to the one before. -/
theorem C66_attach_detach {h h1 : Hierarchy} (hr : Hier.Reach h) {op : Hier.Op} (hop : op.ok) {n : Nat} (ho : attaches op = some n)
    {r : Option Nat} (hs : h.step op = some (.ok r, h1)) :
    ∃ p h2, under h op = some p ∧ h1.step (.detach n) = some (.ok (some p), h2) ∧ eqHierarchy h2 h = true := by
  obtain ⟨hr1, -, p, hu, hk, hput, hna, -⟩ := step_attach hr hop ho hs
  have hn : n < 2 ^ 31 := by
    cases op <;> simp only [attaches, Option.some.injEq, reduceCtorEq] at ho <;> subst ho <;> exact hop.1
  obtain ⟨h2, e, hr2, hk2⟩ := detach_step hr1 hn
  have hp : h1.parent n = some p := by
    rw [(C23_forest_partial hr1).2.1, hk]
    simp only [Kids.set, if_true]
    exact (hput.mem n).2 (.inl rfl)
  rw [hp] at e
  refine ⟨p, h2, hu, e, eq_of_kids hr2 hr ?_⟩
  rw [hk2, hk]
  funext q
  simp only [Kids.erase, Kids.set]
  split
  · subst_vars
    exact hput.erase fun hm => hna ⟨q, hm⟩
  · exact filter_ne_self fun hm => hna ⟨q, hm⟩

example : ∃ h1, exH.step (.insertBefore 8 4) = some (.ok none, h1) ∧ h1.kids 2 = [5, 8, 4] ∧
    ((h1.step (.detach 8)).map fun x => (x.1.toOption, eqHierarchy x.2 exH)) = some (some (some 2), true) :=
  ⟨((exH.step (.insertBefore 8 4)).getD (.ok none, exH)).2, rfl, by decide +kernel, by decide +kernel⟩

/-- **C66** Conversely, a detached node can be put back: in front of its former next sibling, behind
its former previous sibling, or at the end or the front of the list of its former parent if it was
the last or the first child. -/
theorem C66_detach_attach {h h1 : Hierarchy} (hr : Hier.Reach h) {n p : Nat} (hn : n < 2 ^ 31)
    (hs : h.step (.detach n) = some (.ok (some p), h1)) {op : Hier.Op} (hop : op.ok)
    (hat : (∃ b, h.next n = some b ∧ op = .insertBefore n b) ∨ (∃ a, h.prev n = some a ∧ op = .insertAfter n a) ∨
      (h.last p = some n ∧ op = .pushChild n p) ∨ (h.first p = some n ∧ op = .pushFrontChild n p)) :
    ∃ h2, h1.step op = some (.ok none, h2) ∧ eqHierarchy h2 h = true := by
  obtain ⟨h1', e, hr1, hk1⟩ := detach_step hr hn
  rw [hs] at e
  simp only [Option.some.injEq, Prod.mk.injEq, Except.ok.injEq] at e
  obtain ⟨hpar, rfl⟩ := e
  obtain ⟨F, hparIff, hends, hsib, -⟩ := C23_forest_partial hr
  have hmem : n ∈ h.kids p := (hparIff n p).1 hpar.symm
  obtain ⟨l1, l2, hl⟩ := List.append_of_mem hmem
  have hnd := F.once p
  rw [hl] at hnd
  have hd := List.nodup_append.1 hnd
  have hn1 : n ∉ l1 := fun hx => hd.2.2 n hx n (by simp) rfl
  have hn2 : n ∉ l2 := (List.nodup_cons.1 hd.2.1).1
  have hkp : h1.kids p = l1 ++ l2 := by
    rw [hk1]
    simp only [Kids.erase, hl]
    exact Put.erase ⟨l1, l2, rfl, rfl⟩ (by simp [hn1, hn2])
  have hna : ¬ Attached h1.kids n := by
    rintro ⟨q, hq⟩
    rw [hk1] at hq
    simp [Kids.erase] at hq
  have hnanc : ¬ Anc h1.kids n p := by
    intro ha
    rw [hk1] at ha
    exact F.acyclic p n hmem (anc_mono erase_sub ha)
  have fin : ∀ op : Hier.Op, op.ok → attaches op = some n → under h1 op = some p → place op (l1 ++ l2) = l1 ++ n :: l2 →
      ∃ h2, h1.step op = some (.ok none, h2) ∧ eqHierarchy h2 h = true := by
    intro op hop h1o h2o h3o
    obtain ⟨h2, e1, hr2, e2⟩ := attach_step hr1 hop h1o h2o hna hnanc
    refine ⟨h2, e1, eq_of_kids hr2 hr ?_⟩
    rw [e2, hkp, h3o, hk1, ← hl]
    funext q
    simp only [Kids.set, Kids.erase]
    split
    · subst_vars; rfl
    · exact filter_ne_self fun hm => by
        rename_i hq
        exact hq (F.oneParent _ _ _ hm hmem)
  have hsibs := hsib p l1 n l2 hl
  have hpar1 : ∀ x, x ∈ l1 ++ l2 → h1.parent x = some p := by
    intro x hx
    rw [(C23_forest_partial hr1).2.1, hkp]
    exact hx
  rcases hat with ⟨b, hb, rfl⟩ | ⟨a, ha, rfl⟩ | ⟨ha, rfl⟩ | ⟨ha, rfl⟩
  · rw [hsibs.2] at hb
    cases l2 with
    | nil => cases hb
    | cons x l2 =>
      cases hb
      refine fin _ hop rfl (hpar1 _ (by simp)) ?_
      refine putBefore_append fun hx => hd.2.2 _ hx _ (by simp) rfl
  · rw [hsibs.1] at ha
    obtain ⟨l, rfl⟩ := List.getLast?_eq_some_iff.1 ha
    refine fin _ hop rfl (hpar1 _ (by simp)) ?_
    simp only [place, List.append_assoc, List.cons_append, List.nil_append]
    refine putAfter_append fun hx => ?_
    have := (List.nodup_append.1 hd.1).2.2 a hx a (by simp)
    exact this rfl
  · refine fin _ hop rfl rfl ?_
    rw [(hends p).2.1, hl] at ha
    have : l2 = [] := by
      rcases List.eq_nil_or_concat l2 with h0 | ⟨l, x, h0⟩
      · exact h0
      · rw [List.concat_eq_append] at h0
        rw [h0] at ha hn2
        rw [← List.cons_append, ← List.append_assoc, List.getLast?_concat] at ha
        cases ha
        simp at hn2
    subst this
    simp [place]
  · refine fin _ hop rfl rfl ?_
    rw [(hends p).1, hl] at ha
    cases l1 with
    | nil => rfl
    | cons x l =>
      cases ha
      simp at hn1

example : (exH.step (.detach 2)).map (fun x => (x.1.toOption, x.2.kids 0)) = some (some (some 0), [1, 3]) ∧ exH.next 2 = some 3 ∧
    ((exH.step (.detach 2)).bind fun x => (x.2.step (.insertBefore 2 3)).map fun y => eqHierarchy y.2 exH) = some true := by
  decide +kernel

theorem transpose_twice (a b : Nat) (l : List Nat) : (l.map (transpose a b)).map (transpose a b) = l := by
  rw [List.map_map]
  refine (List.map_congr_left fun x _ => ?_).trans (List.map_id l)
  exact transpose_invol a b x

theorem swap_twice (K : Kids) (a b : Nat) : (K.swap a b).swap a b = K := by
  funext p
  simp only [Kids.swap, transpose_invol]
  exact transpose_twice a b _

theorem transpose_comm (a b x : Nat) : transpose a b x = transpose b a x := by
  unfold transpose
  split <;> split <;> simp_all

/-- **C66** `swap_nodes` undoes itself. -/
theorem C66_swap_twice {h : Hierarchy} (hr : Hier.Reach h) {a b : Nat} (ha : a < 2 ^ 31) (hb : b < 2 ^ 31) :
    ∃ h1 h2, h.swapNodes a b = some h1 ∧ h1.swapNodes a b = some h2 ∧ eqHierarchy h2 h = true := by
  have hop : (Hier.Op.swapNodes a b).ok := ⟨ha, hb⟩
  obtain ⟨h1, e1, k1⟩ := (C24_calls_partial hr hop).2 _ _ rfl
  have hr1 := Hier.Reach.step hr hop e1
  obtain ⟨h2, e2, k2⟩ := (C24_calls_partial hr1 hop).2 _ _ rfl
  have hr2 := Hier.Reach.step hr1 hop e2
  simp only [Hierarchy.step, Option.map_eq_some_iff, Prod.mk.injEq] at e1 e2
  obtain ⟨_, e1, -, rfl⟩ := e1
  obtain ⟨_, e2, -, rfl⟩ := e2
  refine ⟨_, _, e1, e2, eq_of_kids hr2 hr ?_⟩
  rw [k2, k1, swap_twice]

example : ((exH.swapNodes 0 4).map fun h => (h.kids 4, h.kids 2)) = some ([1, 2, 3], [5, 0]) ∧
    ((exH.swapNodes 0 4).bind fun h => (h.swapNodes 0 4).map fun h => eqHierarchy h exH) = some true := by decide +kernel

/-- **C66** `rekey` back undoes `rekey` to another node. -/
theorem C66_rekey_back {h h1 : Hierarchy} (hr : Hier.Reach h) {a b : Nat} (ha : a < 2 ^ 31) (hb : b < 2 ^ 31) (hab : a ≠ b)
    (hs : h.rekey a b = some h1) : ∃ h2, h1.rekey b a = some h2 ∧ eqHierarchy h2 h = true := by
  have hop : (Hier.Op.rekey a b).ok := ⟨ha, hb⟩
  have hop' : (Hier.Op.rekey b a).ok := ⟨hb, ha⟩
  obtain ⟨c1, c2⟩ := C24_calls_partial hr hop
  have hfree : ¬ (Attached h.kids b ∨ h.kids b ≠ []) := by
    intro hf
    have : h.step (.rekey a b) = none := c1 (by simp only [spec, if_pos hf])
    simp [Hierarchy.step, hs] at this
  obtain ⟨h1', e1, k1⟩ := c2 _ _ (by simp only [spec, if_neg hfree]; rfl)
  have hr1 := Hier.Reach.step hr hop e1
  simp only [Hierarchy.step, hs, Option.map_some, Option.some.injEq, Prod.mk.injEq] at e1
  obtain ⟨-, rfl⟩ := e1
  simp only [not_or, ne_eq, not_not] at hfree
  have ht : ∀ x, transpose a b x = a ↔ x = b := by
    intro x
    unfold transpose
    split
    · subst_vars; exact ⟨fun h => absurd h.symm hab, fun h => absurd h hab⟩
    · split
      · subst_vars; simp
      · simp_all
  have hfree' : ¬ (Attached h1.kids a ∨ h1.kids a ≠ []) := by
    rw [k1]
    simp only [not_or, ne_eq, not_not]
    refine ⟨?_, ?_⟩
    · rintro ⟨p, hp⟩
      simp only [Kids.swap, List.mem_map] at hp
      obtain ⟨x, hx, hxa⟩ := hp
      rw [ht] at hxa
      subst hxa
      exact hfree.1 ⟨_, hx⟩
    · have : transpose a b a = b := by simp [transpose]
      simp only [Kids.swap, this, hfree.2, List.map_nil]
  obtain ⟨h2, e2, k2⟩ := (C24_calls_partial hr1 hop').2 _ _ (by simp only [spec, if_neg hfree']; rfl)
  have hr2 := Hier.Reach.step hr1 hop' e2
  simp only [Hierarchy.step, Option.map_eq_some_iff, Prod.mk.injEq] at e2
  obtain ⟨_, e2, -, rfl⟩ := e2
  refine ⟨_, e2, eq_of_kids hr2 hr ?_⟩
  rw [k2, k1]
  have : (h.kids.swap a b).swap b a = (h.kids.swap a b).swap a b := by
    funext p
    simp only [Kids.swap, transpose_comm b a]
    congr 1
    funext x
    exact transpose_comm b a x
  rw [this, swap_twice]

example : ((exH.rekey 2 7).bind fun h => (h.rekey 7 2).map fun h => eqHierarchy h exH) = some true := by decide +kernel

/-! ## C67 calls that commute -/

/-- **C67** Two successful calls that attach different nodes below different parents succeed in the
other order too, with the same hierarchy in the end. -/
theorem C67_attach_attach {h h1 h2 : Hierarchy} (hr : Hier.Reach h) {op op' : Hier.Op} (hop : op.ok) (hop' : op'.ok) {n n' : Nat}
    (ho : attaches op = some n) (ho' : attaches op' = some n')
    (hs : h.step op = some (.ok none, h1)) (hs' : h1.step op' = some (.ok none, h2))
    (hne : under h op ≠ under h1 op') :
    ∃ k1 k2, h.step op' = some (.ok none, k1) ∧ k1.step op = some (.ok none, k2) ∧ eqHierarchy k2 h2 = true := by
  obtain ⟨hr1, -, p, hu, hk1, hput, hna, hnc⟩ := step_attach hr hop ho hs
  obtain ⟨hr2, -, p', hu', hk2, hput', hna', hnc'⟩ := step_attach hr1 hop' ho' hs'
  have hpp : p ≠ p' := by rintro rfl; exact hne (hu.trans hu'.symm)
  have sub1 : ∀ q x, x ∈ h.kids q → x ∈ h1.kids q := by rw [hk1]; exact set_place_sub hput
  have sub2 : ∀ q x, x ∈ h1.kids q → x ∈ h2.kids q := by rw [hk2]; exact set_place_sub hput'
  have e1 : h1.kids p' = h.kids p' := by rw [hk1]; simp only [Kids.set, if_neg hpp.symm]
  -- the parent that `op'` refers to is the same before
  have hu0 : under h op' = some p' := by
    have key : ∀ b : Nat, h1.parent b = some p' → h.parent b = some p' := by
      intro b hb
      rw [(C23_forest_partial hr1).2.1, e1] at hb
      exact ((C23_forest_partial hr).2.1 b p').2 hb
    cases op' <;> simp only [attaches, Option.some.injEq, reduceCtorEq] at ho'
    case pushChild => exact hu'
    case pushFrontChild => exact hu'
    case insertBefore m b => exact key b hu'
    case insertAfter m b => exact key b hu'
  obtain ⟨k1, f1, hrk1, hkk1⟩ := attach_step hr hop' ho' hu0 (fun ⟨q, hq⟩ => hna' ⟨q, sub1 _ _ hq⟩)
    (fun ha => hnc' (anc_mono sub1 ha))
  rw [e1] at hput' hk2
  have e2 : k1.kids p = h.kids p := by rw [hkk1]; simp only [Kids.set, if_neg hpp]
  have hkeq : h2.kids = (h.kids.set p' (place op' (h.kids p'))).set p (place op (h.kids p)) := by
    rw [hk2, hk1]
    funext q
    simp only [Kids.set]
    split
    · rename_i hq
      subst hq
      rw [if_neg hpp.symm]
    · rfl
  have sub3 : ∀ q x, x ∈ k1.kids q → x ∈ h2.kids q := by
    intro q x hx
    rw [hkeq, ← hkk1]
    refine set_place_sub (n := n) ?_ q x hx
    rw [e2]; exact hput
  have hnn : n ≠ n' := by
    rintro rfl
    refine hna' ⟨p, ?_⟩
    rw [hk1]
    simp only [Kids.set, if_true]
    exact (hput.mem n).2 (.inl rfl)
  have hm2 : n ∈ h2.kids p := by
    rw [hkeq]
    simp only [Kids.set, if_true]
    exact (hput.mem n).2 (.inl rfl)
  have hu1 : under k1 op = some p := by
    have key : ∀ b : Nat, h.parent b = some p → k1.parent b = some p := by
      intro b hb
      rw [(C23_forest_partial hr).2.1] at hb
      rw [(C23_forest_partial hrk1).2.1, e2]
      exact hb
    cases op <;> simp only [attaches, Option.some.injEq, reduceCtorEq] at ho
    case pushChild => exact hu
    case pushFrontChild => exact hu
    case insertBefore m b => exact key b hu
    case insertAfter m b => exact key b hu
  obtain ⟨k2, f2, hrk2, hkk2⟩ := attach_step hrk1 hop ho hu1
    (by
      rintro ⟨q, hq⟩
      rw [hkk1] at hq
      simp only [Kids.set] at hq
      split at hq
      · rcases (hput'.mem n).1 hq with hx | hx
        · exact hnn hx
        · exact hna ⟨_, hx⟩
      · exact hna ⟨_, hq⟩)
    (fun ha => (C23_forest_partial hr2).1.acyclic p n hm2 (anc_mono sub3 ha))
  refine ⟨k1, k2, f1, f2, eq_of_kids hrk2 hr2 ?_⟩
  rw [hkk2, hkeq, e2, hkk1]

example : ∃ h1 h2, exH.step (.pushFrontChild 8 4) = some (.ok none, h1) ∧ h1.step (.insertAfter 9 5) = some (.ok none, h2) ∧
    h2.kids 4 = [8] ∧ h2.kids 2 = [5, 9, 4] ∧ under exH (.pushFrontChild 8 4) ≠ under h1 (.insertAfter 9 5) :=
  ⟨((exH.step (.pushFrontChild 8 4)).getD (.ok none, exH)).2,
   ((((exH.step (.pushFrontChild 8 4)).getD (.ok none, exH)).2.step (.insertAfter 9 5)).getD (.ok none, exH)).2, rfl, rfl, by decide, by decide, by decide⟩

/-- **C67** Two `detach` calls give the same answers and the same hierarchy in either order. -/
theorem C67_detach_detach {h : Hierarchy} (hr : Hier.Reach h) {n m : Nat} (hn : n < 2 ^ 31) (hm : m < 2 ^ 31) (hne : n ≠ m) :
    ∃ h1 h2 k1 k2, h.step (.detach n) = some (.ok (h.parent n), h1) ∧ h1.step (.detach m) = some (.ok (h.parent m), h2) ∧
      h.step (.detach m) = some (.ok (h.parent m), k1) ∧ k1.step (.detach n) = some (.ok (h.parent n), k2) ∧
      eqHierarchy k2 h2 = true := by
  have key : ∀ n m, n < 2 ^ 31 → m < 2 ^ 31 → n ≠ m → ∃ h1 h2, h.step (.detach n) = some (.ok (h.parent n), h1) ∧
      h1.step (.detach m) = some (.ok (h.parent m), h2) ∧ Hier.Reach h2 ∧
      h2.kids = fun p => (h.kids p).filter fun x => decide (x ≠ n) && decide (x ≠ m) := by
    intro n m hn hm hne
    obtain ⟨h1, e1, hr1, k1⟩ := detach_step hr hn
    obtain ⟨h2, e2, hr2, k2⟩ := detach_step hr1 hm
    have : h1.parent m = h.parent m := by
      apply Option.ext
      intro p
      rw [(C23_forest_partial hr1).2.1, (C23_forest_partial hr).2.1, k1]
      simp [Kids.erase, hne.symm]
    rw [this] at e2
    refine ⟨h1, h2, e1, e2, hr2, ?_⟩
    rw [k2, k1]
    funext p
    simp only [Kids.erase, List.filter_filter]
    congr 1
    funext x
    rw [Bool.and_comm]
  obtain ⟨h1, h2, e1, e2, hr2, k⟩ := key n m hn hm hne
  obtain ⟨h1', h2', e1', e2', hr2', k'⟩ := key m n hm hn hne.symm
  refine ⟨h1, h2, h1', h2', e1, e2, e1', e2', eq_of_kids hr2' hr2 ?_⟩
  rw [k, k']
  funext p
  congr 1
  funext x
  rw [Bool.and_comm]

example := C67_detach_detach exH_reach (n := 2) (m := 5) (by decide) (by decide) (by decide)

/-- **C67** A successful attaching call and the `detach` of another node, one that the call does not
name, may be made in the other order. -/
theorem C67_attach_detach {h h1 h2 : Hierarchy} (hr : Hier.Reach h) {op : Hier.Op} (hop : op.ok) {n m : Nat} (ho : attaches op = some n)
    (hs : h.step op = some (.ok none, h1)) (hm : m < 2 ^ 31) (hmn : m ≠ n) (hsib : anchor op ≠ some m) {r : Option Nat}
    (hs' : h1.step (.detach m) = some (.ok r, h2)) :
    ∃ k1 k2, h.step (.detach m) = some (.ok r, k1) ∧ k1.step op = some (.ok none, k2) ∧ eqHierarchy k2 h2 = true := by
  obtain ⟨hr1, -, p, hu, hk1, hput, hna, hnc⟩ := step_attach hr hop ho hs
  obtain ⟨h2', e2, hr2, hk2⟩ := detach_step hr1 hm
  rw [hs'] at e2
  simp only [Option.some.injEq, Prod.mk.injEq, Except.ok.injEq] at e2
  obtain ⟨rfl, rfl⟩ := e2
  obtain ⟨k1, f1, hrk1, hkk1⟩ := detach_step hr hm
  have hpar : h1.parent m = h.parent m := by
    apply Option.ext
    intro q
    rw [(C23_forest_partial hr1).2.1, (C23_forest_partial hr).2.1, hk1]
    simp only [Kids.set]
    split
    · subst_vars
      rw [hput.mem]
      simp [hmn]
    · rfl
  have hu1 : under k1 op = some p := by
    have key : ∀ b : Nat, b ≠ m → h.parent b = some p → k1.parent b = some p := by
      intro b hbm hb
      rw [(C23_forest_partial hr).2.1] at hb
      rw [(C23_forest_partial hrk1).2.1, hkk1]
      simpa [Kids.erase, hbm] using hb
    cases op <;> simp only [attaches, Option.some.injEq, reduceCtorEq] at ho
    case pushChild => exact hu
    case pushFrontChild => exact hu
    case insertBefore _ b => exact key b (fun hb => hsib (by rw [hb]; rfl)) hu
    case insertAfter _ b => exact key b (fun hb => hsib (by rw [hb]; rfl)) hu
  obtain ⟨k2, f2, hrk2, hkk2⟩ := attach_step hrk1 hop ho hu1
    (fun ⟨q, hq⟩ => hna ⟨q, by rw [hkk1] at hq; exact erase_sub _ _ hq⟩)
    (fun ha => hnc (by rw [hkk1] at ha; exact anc_mono erase_sub ha))
  refine ⟨k1, k2, by rw [hpar]; exact f1, f2, eq_of_kids hrk2 hr2 ?_⟩
  have hbp : ∀ b : Nat, h.parent b = some p → b ∈ h.kids p := fun b hb => ((C23_forest_partial hr).2.1 b p).1 hb
  have hplace : place op ((h.kids p).filter (· ≠ m)) = (place op (h.kids p)).filter (· ≠ m) := by
    cases op <;> simp only [attaches, Option.some.injEq, reduceCtorEq] at ho <;> subst ho
    case pushChild => simp [place, List.filter_append, hmn.symm]
    case pushFrontChild => simp [place, hmn.symm]
    case insertBefore n b =>
      obtain ⟨l1, l2, hl⟩ := List.append_of_mem (hbp b hu)
      have hnd := (C23_forest_partial hr).1.once p
      rw [hl] at hnd ⊢
      have hb1 : b ∉ l1 := fun hx => (List.nodup_append.1 hnd).2.2 b hx b (by simp) rfl
      have hbm : b ≠ m := fun hb => hsib (by rw [hb]; rfl)
      simp only [place]
      rw [putBefore_append hb1, List.filter_append, List.filter_append, List.filter_cons_of_pos (by simpa using hbm),
        List.filter_cons_of_pos (by simpa using hmn.symm), List.filter_cons_of_pos (by simpa using hbm)]
      exact putBefore_append fun hx => hb1 (List.mem_filter.1 hx).1
    case insertAfter n b =>
      obtain ⟨l1, l2, hl⟩ := List.append_of_mem (hbp b hu)
      have hnd := (C23_forest_partial hr).1.once p
      rw [hl] at hnd ⊢
      have hb1 : b ∉ l1 := fun hx => (List.nodup_append.1 hnd).2.2 b hx b (by simp) rfl
      have hbm : b ≠ m := fun hb => hsib (by rw [hb]; rfl)
      simp only [place]
      rw [putAfter_append hb1, List.filter_append, List.filter_append, List.filter_cons_of_pos (by simpa using hbm),
        List.filter_cons_of_pos (by simpa using hbm), List.filter_cons_of_pos (by simpa using hmn.symm)]
      exact putAfter_append fun hx => hb1 (List.mem_filter.1 hx).1
  rw [hkk2, hk2, hk1, hkk1]
  funext q
  simp only [Kids.set, Kids.erase]
  split
  · exact hplace
  · rfl

example : ∃ h1 h2, exH.step (.insertBefore 8 3) = some (.ok none, h1) ∧ h1.step (.detach 2) = some (.ok (some 0), h2) ∧
    h2.kids 0 = [1, 8, 3] ∧ h2.kids 2 = [5, 4] :=
  ⟨((exH.step (.insertBefore 8 3)).getD (.ok none, exH)).2,
   ((((exH.step (.insertBefore 8 3)).getD (.ok none, exH)).2.step (.detach 2)).getD (.ok none, exH)).2, rfl, rfl, by decide, by decide⟩

/-- In the other order the two calls may differ: once 0 is no longer below 1, 1 can be put below 0. -/
theorem C67_witness_order : ∃ h h1, Hierarchy.new.step (.pushChild 0 1) = some (.ok none, h) ∧ Hier.Reach h ∧
    (h.step (.detach 0)).map (·.2) = some h1 ∧
    ((h1.step (.pushChild 1 0)).map fun x => x.1.toOption) = some (some none) ∧
    ((h.step (.pushChild 1 0)).map fun x => x.1.toOption) = some none :=
  ⟨_, _, rfl, .step (op := .pushChild 0 1) .new ⟨by decide, by decide, by decide⟩ rfl, rfl, by decide, by decide⟩

#print axioms C66_attach_detach
#print axioms C66_detach_attach
#print axioms C66_swap_twice
#print axioms C66_rekey_back
#print axioms C67_attach_attach
#print axioms C67_detach_detach
#print axioms C67_attach_detach
#print axioms C67_witness_order

end Verif.Undo
