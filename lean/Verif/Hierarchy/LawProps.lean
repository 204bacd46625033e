import Verif.Hierarchy.Props

/-!
# C72: hierarchy calls that undo each other, agree or commute

The theorems compare the child lists; by C23 all accessors are determined by them.
-/

namespace Verif.Hier

/-- The node that a call attaches. -/
def Op.attaches : Op → Option Nat
  | .pushChild n _ | .pushFrontChild n _ | .insertBefore n _ | .insertAfter n _ => some n
  | _ => none

/-- One call: what the specification says happens. -/
theorem call {h : Hierarchy} (hr : Reach h) {op : Op} (hop : op.ok) {r : Res} {K : Kids} (hs : spec h.kids op = some (r, K)) :
    ∃ h', h.step op = some (r, h') ∧ h'.kids = K ∧ Reach h' := by
  obtain ⟨h', h1, h2⟩ := (C24_calls_partial hr hop).2 r K hs
  exact ⟨h', h1, h2, .step hr hop h1⟩

/-- The converse. -/
theorem called {h h' : Hierarchy} (hr : Reach h) {op : Op} (hop : op.ok) {r : Res} (he : h.step op = some (r, h')) :
    spec h.kids op = some (r, h'.kids) ∧ Reach h' := by
  refine ⟨?_, .step hr hop he⟩
  cases hs : spec h.kids op with
  | none => rw [(C24_calls_partial hr hop).1 hs] at he; cases he
  | some x =>
    obtain ⟨h2, h1, h2'⟩ := (C24_calls_partial hr hop).2 x.1 x.2 hs
    rw [he] at h1; cases h1
    rw [h2']

theorem parent_kids {K : Kids} (f : Forest K) {n p : Nat} : K.parent n = some p ↔ n ∈ K p := by
  unfold Kids.parent
  split
  · next h =>
    have := Classical.choose_spec h
    constructor
    · intro e; cases e; exact this
    · intro hp; rw [f.oneParent _ _ _ this hp]
  · next h =>
    constructor
    · intro e; cases e
    · intro hp; exact absurd ⟨p, hp⟩ h

theorem parent_none {K : Kids} {n : Nat} : K.parent n = none ↔ ¬ Attached K n := by
  unfold Kids.parent
  split <;> simp_all

theorem forest_of {h : Hierarchy} (hr : Reach h) : Forest h.kids := (C23_forest_partial hr).1

/-- What a successful attachment does. -/
theorem attach_spec {K K' : Kids} (f : Forest K) {op : Op} {n : Nat} (ha : op.attaches = some n)
    (hs : spec K op = some (.ok none, K')) :
    ¬ Attached K n ∧ ∃ p l r, K p = l ++ r ∧ ¬ Anc K n p ∧ K' = K.set p (l ++ n :: r) := by
  cases op <;> simp only [Op.attaches, Option.some.injEq, reduceCtorEq] at ha <;> subst ha <;> simp only [spec] at hs
  case pushChild n p =>
    split at hs
    · simp at hs
    · next h1 =>
      split at hs
      · simp at hs
      · next h2 =>
        simp only [Option.some.injEq, Prod.mk.injEq, true_and] at hs
        exact ⟨h2, p, K p, [], by simp, h1, hs.symm⟩
  case pushFrontChild n p =>
    split at hs
    · simp at hs
    · next h1 =>
      split at hs
      · simp at hs
      · next h2 =>
        simp only [Option.some.injEq, Prod.mk.injEq, true_and] at hs
        exact ⟨h2, p, [], K p, by simp, h1, hs.symm⟩
  case insertBefore n b =>
    split at hs
    · simp at hs
    · next h1 =>
      split at hs
      · simp at hs
      · next p hp =>
        split at hs
        · simp at hs
        · next h2 =>
          simp only [Option.some.injEq, Prod.mk.injEq, true_and] at hs
          obtain ⟨l, r, hl⟩ := List.append_of_mem ((parent_kids f).1 hp)
          have hb : b ∉ l := fun hb => by
            have := f.once p
            rw [hl, List.nodup_append] at this
            exact this.2.2 b hb b (by simp) rfl
          rw [hl, putBefore_eq hb] at hs
          exact ⟨h1, p, l, b :: r, hl, h2, hs.symm⟩
  case insertAfter n b =>
    split at hs
    · simp at hs
    · next h1 =>
      split at hs
      · simp at hs
      · next p hp =>
        split at hs
        · simp at hs
        · next h2 =>
          simp only [Option.some.injEq, Prod.mk.injEq, true_and] at hs
          obtain ⟨l, r, hl⟩ := List.append_of_mem ((parent_kids f).1 hp)
          have hb : b ∉ l := fun hb => by
            have := f.once p
            rw [hl, List.nodup_append] at this
            exact this.2.2 b hb b (by simp) rfl
          rw [hl, putAfter_eq hb] at hs
          exact ⟨h1, p, l ++ [b], r, by simp [hl], h2, by simp [hs]⟩

theorem set_erase {K : Kids} {n p : Nat} {l r : List Nat} (hn : ¬ Attached K n) (hp : K p = l ++ r) :
    (K.set p (l ++ n :: r)).erase n = K := by
  have hk : ∀ x, (K x).filter (· ≠ n) = K x := fun x =>
    List.filter_eq_self.2 fun y hy => by simp only [decide_eq_true_eq]; rintro rfl; exact hn ⟨x, hy⟩
  funext x
  unfold Kids.erase Kids.set
  by_cases hx : x = p
  · subst hx
    have h2 := hk x
    rw [hp, List.filter_append] at h2
    simp only [if_true, hp, List.filter_append, List.filter_cons, ne_eq, not_true_eq_false, decide_false,
      Bool.false_eq_true, if_false]
    simpa using h2
  · simp only [hx, if_false]; exact hk x

/-- **C72** `detach` undoes every successful attachment, and returns the parent. -/
theorem C72_attach_detach {h h1 : Hierarchy} (hr : Reach h) {op : Op} (hop : op.ok) {n : Nat} (ha : op.attaches = some n)
    (he : h.step op = some (.ok none, h1)) :
    ∃ h2 p, h1.parent n = some p ∧ h1.step (.detach n) = some (.ok (some p), h2) ∧ h2.kids = h.kids := by
  have hn : n < 2 ^ 31 := by
    cases op <;> simp only [Op.attaches, Option.some.injEq, reduceCtorEq] at ha <;> subst ha <;> exact hop.1
  obtain ⟨hs, hr1⟩ := called hr hop he
  obtain ⟨hno, p, l, r, hp, -, hK⟩ := attach_spec (forest_of hr) ha hs
  have hpar : n ∈ h1.kids p := by rw [hK]; simp [Kids.set]
  obtain ⟨h2, g1, g2, -⟩ := call hr1 (op := .detach n) hn rfl
  refine ⟨h2, p, ((C23_forest_partial hr1).2.1 n p).2 hpar, ?_, ?_⟩
  · rw [g1, (parent_kids (forest_of hr1)).2 hpar]
  · rw [g2, hK, set_erase hno hp]

theorem erase_split {K : Kids} (f : Forest K) {n p : Nat} {l r : List Nat} (hp : K p = l ++ n :: r) :
    K.erase n = K.set p (l ++ r) := by
  have hnd := f.once p
  rw [hp, List.nodup_append] at hnd
  have hn1 : n ∉ l := fun hx => hnd.2.2 n hx n (by simp) rfl
  have hn2 : n ∉ r := (List.nodup_cons.1 hnd.2.1).1
  have hmem : n ∈ K p := by rw [hp]; simp
  funext x
  unfold Kids.erase Kids.set
  by_cases hx : x = p
  · subst hx
    simp only [if_true, hp, List.filter_append, List.filter_cons, ne_eq, not_true_eq_false, decide_false,
      Bool.false_eq_true, if_false]
    congr 1 <;>
    · rw [List.filter_eq_self]
      intro y hy
      simp only [decide_not, Bool.not_eq_eq_eq_not, Bool.not_true, decide_eq_false_iff_not]
      rintro rfl
      first | exact hn1 hy | exact hn2 hy
  · simp only [hx, if_false]
    rw [List.filter_eq_self]
    intro y hy
    simp only [decide_eq_true_eq]
    rintro rfl
    exact hx (f.oneParent _ _ _ hy hmem)

theorem anc_mono {K K' : Kids} (h : ∀ p, ∀ x ∈ K' p, x ∈ K p) {a b : Nat} (ha : Anc K' a b) : Anc K a b := by
  induction ha with
  | refl => exact .refl _
  | step _ hm ih => exact .step ih (h _ _ hm)

/-- **C72** After `detach` the node can be put back to its place: after its former previous sibling, before its former
next sibling, at the front or at the end. -/
theorem C72_detach_attach {h : Hierarchy} (hr : Reach h) {n p : Nat} {l r : List Nat} (hp : h.kids p = l ++ n :: r) :
    ∃ h1, h.step (.detach n) = some (.ok (some p), h1) ∧ ∀ op : Op, op.ok →
      (op = .pushFrontChild n p ∧ l = [] ∨ op = .pushChild n p ∧ r = [] ∨ (∃ a, op = .insertAfter n a ∧ l.getLast? = some a) ∨
        ∃ b, op = .insertBefore n b ∧ r.head? = some b) →
      ∃ h2, h1.step op = some (.ok none, h2) ∧ h2.kids = h.kids := by
  have f := forest_of hr
  have hmem : n ∈ h.kids p := by rw [hp]; simp
  have hn : n < 2 ^ 31 := hr.inv.2 p n hmem
  obtain ⟨h1, g1, g2, hr1⟩ := call hr (op := .detach n) hn rfl
  have f1 := forest_of hr1
  refine ⟨h1, by rw [g1, (parent_kids f).2 hmem], fun op hop ho => ?_⟩
  have hK : h1.kids = h.kids.set p (l ++ r) := by rw [g2, erase_split f hp]
  have hKp : h1.kids p = l ++ r := by rw [hK]; simp [Kids.set]
  have hback : h1.kids.set p (l ++ n :: r) = h.kids := by
    rw [hK, ← hp]
    funext x; unfold Kids.set; by_cases hx : x = p <;> simp [hx]
  have hna : ¬ Attached h1.kids n := by
    rintro ⟨q, hq⟩
    rw [g2] at hq
    simp [Kids.erase] at hq
  have hanc : ¬ Anc h1.kids n p := fun ha => f.acyclic p n hmem (anc_mono (fun q x hx => by
    rw [g2] at hx
    exact (List.mem_filter.1 hx).1) ha)
  have hnd := f1.once p
  rw [hKp] at hnd
  have hspec : spec h1.kids op = some (.ok none, h.kids) := by
    rcases ho with ⟨rfl, rfl⟩ | ⟨rfl, rfl⟩ | ⟨a, rfl, ha⟩ | ⟨b, rfl, hb⟩
    · simp only [spec, hanc, hna, if_false, hKp]
      rw [← hback]; rfl
    · simp only [spec, hanc, hna, if_false, hKp]
      rw [← hback]; simp
    · obtain ⟨l', rfl⟩ : ∃ l', l = l' ++ [a] := by
        rw [List.getLast?_eq_some_iff] at ha; exact ha
      have hpa : h1.kids.parent a = some p := (parent_kids f1).2 (by rw [hKp]; simp)
      have hal : a ∉ l' := by
        intro hx
        rw [List.append_assoc, List.nodup_append] at hnd
        exact hnd.2.2 a hx a (by simp) rfl
      simp only [spec, hna, if_false, hpa, hanc, hKp]
      rw [← hback, List.append_assoc, List.singleton_append, putAfter_eq hal]; simp
    · obtain ⟨r', rfl⟩ : ∃ r', r = b :: r' := by
        cases r with
        | nil => simp at hb
        | cons x r' => simp only [List.head?_cons, Option.some.injEq] at hb; exact ⟨r', by rw [hb]⟩
      have hpb : h1.kids.parent b = some p := (parent_kids f1).2 (by rw [hKp]; simp)
      have hbl : b ∉ l := by
        intro hx
        rw [List.nodup_append] at hnd
        exact hnd.2.2 b hx b (by simp) rfl
      simp only [spec, hna, if_false, hpb, hanc, hKp]
      rw [← hback, putBefore_eq hbl]
  obtain ⟨h2, k1, k2, -⟩ := call hr1 hop hspec
  exact ⟨h2, k1, k2⟩

theorem swap_swap (K : Kids) (a b : Nat) : (K.swap a b).swap a b = K := by
  funext x
  simp only [Kids.swap, transpose_invol, List.map_map]
  rw [List.map_congr_left (f := transpose a b ∘ transpose a b) (g := id) (fun y _ => transpose_invol a b y), List.map_id]

theorem swap_comm (K : Kids) (a b : Nat) : K.swap a b = K.swap b a := by
  have : ∀ x, transpose a b x = transpose b a x := fun x => by unfold transpose; grind
  funext x
  simp only [Kids.swap, this]
  exact List.map_congr_left fun y _ => this y

/-- **C72** `swap_nodes` twice is the identity. -/
theorem C72_swap_swap {h : Hierarchy} (hr : Reach h) {a b : Nat} (ha : a < 2 ^ 31) (hb : b < 2 ^ 31) :
    ∃ h1 h2, h.swapNodes a b = some h1 ∧ h1.swapNodes a b = some h2 ∧ h2.kids = h.kids := by
  obtain ⟨h1, g1, g2, hr1⟩ := call hr (op := .swapNodes a b) ⟨ha, hb⟩ rfl
  obtain ⟨h2, g3, g4, -⟩ := call hr1 (op := .swapNodes a b) ⟨ha, hb⟩ rfl
  simp only [Hierarchy.step, Option.map_eq_some_iff, Prod.mk.injEq, true_and, exists_eq_right] at g1 g3
  exact ⟨h1, h2, g1, g3, by rw [g4, g2, swap_swap]⟩

/-- **C72** `rekey` into an unused node does what `swap_nodes` does, and the reverse `rekey` undoes it. -/
theorem C72_rekey {h : Hierarchy} (hr : Reach h) {old new : Nat} (ho : old < 2 ^ 31) (hn : new < 2 ^ 31)
    (hroot : h.isRoot new = true) (hkids : h.kids new = []) :
    ∃ h1 h2 h3, h.rekey old new = some h1 ∧ h.swapNodes old new = some h2 ∧ h1.kids = h2.kids ∧
      h1.rekey new old = some h3 ∧ h3.kids = h.kids := by
  have hna := ((C23_forest_partial hr).2.2.2.2 new hroot).1
  have hunused : ¬ (Attached h.kids new ∨ h.kids new ≠ []) := by
    rintro (⟨p, hp⟩ | hh)
    · exact hna p hp
    · exact hh hkids
  obtain ⟨h1, g1, g2, hr1⟩ := call hr (op := .rekey old new) ⟨ho, hn⟩ (by simp only [spec, hunused, if_false]; rfl)
  obtain ⟨h2, g3, g4, -⟩ := call hr (op := .swapNodes old new) ⟨ho, hn⟩ rfl
  have hunused1 : ¬ (Attached h1.kids old ∨ h1.kids old ≠ []) := by
    rw [g2]
    have e1 : transpose old new old = new := by simp [transpose]
    rintro (⟨p, hp⟩ | hh)
    · simp only [Kids.swap, List.mem_map] at hp
      obtain ⟨y, hy, hy'⟩ := hp
      have : y = new := by rw [← transpose_invol old new y, hy', e1]
      exact hna _ (this ▸ hy)
    · exact hh (by simp only [Kids.swap, e1, hkids, List.map_nil])
  obtain ⟨h3, g5, g6, -⟩ := call hr1 (op := .rekey new old) ⟨hn, ho⟩ (by simp only [spec, hunused1, if_false]; rfl)
  simp only [Hierarchy.step, Option.map_eq_some_iff, Prod.mk.injEq, true_and, exists_eq_right] at g1 g3 g5
  exact ⟨h1, h2, h3, g1, g3, by rw [g2, g4], g5, by rw [g6, g2, swap_comm, swap_comm _ old new, swap_comm _ new old, swap_swap]⟩

theorem set_nil_erase {K : Kids} (n : Nat) : (K.set n []).erase n = (K.erase n).set n [] := by
  funext x; unfold Kids.set Kids.erase
  by_cases hx : x = n <;> simp [hx]

/-- **C72** `remove` is `detach` and `detach_children`, in either order. -/
theorem C72_remove {h : Hierarchy} (hr : Reach h) {n : Nat} (hn : n < 2 ^ 31) :
    ∃ h1 h2 h3 h4 h5 r r', h.remove n = some h1 ∧ h.detach n = some (r, h2) ∧ h2.detachChildren n = some h3 ∧
      h.detachChildren n = some h4 ∧ h4.detach n = some (r', h5) ∧ r = r' ∧ h3.kids = h1.kids ∧ h5.kids = h1.kids := by
  obtain ⟨h1, a1, a2, -⟩ := call hr (op := .remove n) hn rfl
  obtain ⟨h2, b1, b2, hr2⟩ := call hr (op := .detach n) hn rfl
  obtain ⟨h3, c1, c2, -⟩ := call hr2 (op := .detachChildren n) hn rfl
  obtain ⟨h4, d1, d2, hr4⟩ := call hr (op := .detachChildren n) hn rfl
  obtain ⟨h5, e1, e2, -⟩ := call hr4 (op := .detach n) hn rfl
  simp only [Hierarchy.step, Option.map_eq_some_iff, Prod.mk.injEq, true_and, exists_eq_right, Except.ok.injEq, Prod.exists] at a1 b1 c1 d1 e1
  obtain ⟨r, x, b1, b3, rfl⟩ := b1
  obtain ⟨r', x, e1, e3, rfl⟩ := e1
  refine ⟨h1, _, h3, h4, _, r, r', a1, b1, c1, d1, e1, ?_, ?_, ?_⟩
  · rw [b3, e3]
    have f := forest_of hr
    have f4 := forest_of hr4
    cases hp : h.kids.parent n with
    | none =>
      symm
      rw [parent_none] at hp ⊢
      rintro ⟨q, hq⟩
      rw [d2] at hq
      unfold Kids.set at hq
      split at hq
      · cases hq
      · exact hp ⟨q, hq⟩
    | some p =>
      symm
      have hpn := (parent_kids f).1 hp
      rw [parent_kids f4, d2]
      unfold Kids.set
      rw [if_neg]
      · exact hpn
      · rintro rfl
        exact f.acyclic _ _ hpn (.refl _)
  · rw [c2, b2, a2, set_nil_erase]
  · rw [e2, d2, a2]

/-- **C72** Two `detach` calls commute, with their results. -/
theorem C72_detach_detach {h : Hierarchy} (hr : Reach h) {a b : Nat} (ha : a < 2 ^ 31) (hb : b < 2 ^ 31) (hab : a ≠ b) :
    ∃ h1 h2 h3 h4 ra rb, h.detach a = some (ra, h1) ∧ h1.detach b = some (rb, h2) ∧ h.detach b = some (rb, h3) ∧
      h3.detach a = some (ra, h4) ∧ h2.kids = h4.kids := by
  have f := forest_of hr
  obtain ⟨h1, a1, a2, hr1⟩ := call hr (op := .detach a) ha rfl
  obtain ⟨h2, b1, b2, hr2⟩ := call hr1 (op := .detach b) hb rfl
  obtain ⟨h3, c1, c2, hr3⟩ := call hr (op := .detach b) hb rfl
  obtain ⟨h4, d1, d2, hr4⟩ := call hr3 (op := .detach a) ha rfl
  have key : ∀ {x y : Nat}, x ≠ y → Forest (h.kids.erase x) → (h.kids.erase x).parent y = h.kids.parent y := by
    intro x y hxy f1
    cases hp : h.kids.parent y with
    | none =>
      rw [parent_none] at hp ⊢
      rintro ⟨q, hq⟩
      exact hp ⟨q, (List.mem_filter.1 hq).1⟩
    | some p =>
      rw [parent_kids f1]
      exact List.mem_filter.2 ⟨(parent_kids f).1 hp, by simp [Ne.symm hxy]⟩
  have k1 := key hab (a2 ▸ forest_of hr1)
  have k2 := key (Ne.symm hab) (c2 ▸ forest_of hr3)
  rw [a2, k1] at b1
  rw [c2, k2] at d1
  simp only [Hierarchy.step, Option.map_eq_some_iff, Prod.mk.injEq, Except.ok.injEq, Prod.exists] at a1 b1 c1 d1
  obtain ⟨r1, x1, a1, a3, rfl⟩ := a1
  obtain ⟨r2, x2, b1, b3, rfl⟩ := b1
  obtain ⟨r3, x3, c1, c3, rfl⟩ := c1
  obtain ⟨r4, x4, d1, d3, rfl⟩ := d1
  refine ⟨_, _, _, _, r1, r2, a1, b1, by rw [c1, b3, c3], by rw [d1, a3, d3], ?_⟩
  rw [b2, a2, d2, c2]
  funext x
  simp only [Kids.erase, List.filter_filter]
  exact List.filter_congr fun y _ => Bool.and_comm _ _

/-- The two calls do the same: both fail with the same error or succeed with the same child lists. -/
def SameCall (h : Hierarchy) (op op' : Op) : Prop :=
  ∃ r h1 h2, h.step op = some (r, h1) ∧ h.step op' = some (r, h2) ∧ h1.kids = h2.kids

theorem same_of_spec {h : Hierarchy} (hr : Reach h) {op op' : Op} (hop : op.ok) (hop' : op'.ok)
    (hs : spec h.kids op = spec h.kids op') (hsome : spec h.kids op ≠ none) : SameCall h op op' := by
  obtain ⟨⟨r, K⟩, hx⟩ := Option.ne_none_iff_exists'.1 hsome
  obtain ⟨h1, a1, a2, -⟩ := call hr hop hx
  obtain ⟨h2, b1, b2, -⟩ := call hr hop' (hs ▸ hx)
  exact ⟨r, h1, h2, a1, b1, by rw [a2, b2]⟩

/-- **C72** Under a parent without children `push_child` and `push_front_child` do the same. For an unattached node
`push_child` is `insert_after` the last child, `push_front_child` is `insert_before` the first child, and `insert_after`
a child is `insert_before` the next one. -/
theorem C72_attach_same {h : Hierarchy} (hr : Reach h) {n p : Nat} (hn : n < 2 ^ 31) (hp : p < 2 ^ 31) (hnp : n ≠ p) :
    (h.kids p = [] → SameCall h (.pushChild n p) (.pushFrontChild n p)) ∧
    (h.isRoot n = true → ∀ a, h.last p = some a → SameCall h (.pushChild n p) (.insertAfter n a)) ∧
    (h.isRoot n = true → ∀ b, h.first p = some b → SameCall h (.pushFrontChild n p) (.insertBefore n b)) ∧
    (∀ a b, h.next a = some b → SameCall h (.insertAfter n a) (.insertBefore n b)) := by
  have f := forest_of hr
  obtain ⟨-, hpar, hacc, hsib, hroots⟩ := C23_forest_partial hr
  have hb := hr.inv.2
  have hroot : h.isRoot n = true → ¬ Attached h.kids n := fun e ⟨q, hq⟩ => (hroots n e).1 q hq
  refine ⟨fun he => ?_, fun hn0 a ha => ?_, fun hn0 b hb0 => ?_, fun a b hab => ?_⟩
  · refine same_of_spec hr ⟨hn, hp, hnp⟩ ⟨hn, hp, hnp⟩ (by simp [spec, he]) ?_
    simp only [spec]; repeat' split
    all_goals simp
  · rw [(hacc p).2.1] at ha
    have hm : a ∈ h.kids p := mem_of_getLast? ha
    have hpa := (parent_kids f).2 hm
    obtain ⟨l, hl⟩ := List.getLast?_eq_some_iff.1 ha
    have hal : a ∉ l := fun hx => by
      have := f.once p
      rw [hl, List.nodup_append] at this
      exact this.2.2 a hx a (by simp) rfl
    refine same_of_spec hr ⟨hn, hp, hnp⟩ ⟨hn, hb p a hm⟩ ?_ ?_
    · simp only [spec, hroot hn0, if_false, hpa]
      split
      · rfl
      · rw [hl, putAfter_eq hal]; simp
    · simp only [spec]; repeat' split
      all_goals simp
  · rw [(hacc p).1] at hb0
    have hm : b ∈ h.kids p := mem_of_head? hb0
    have hpb := (parent_kids f).2 hm
    obtain ⟨l, hl⟩ : ∃ l, h.kids p = b :: l := by
      cases hk : h.kids p with
      | nil => rw [hk] at hb0; cases hb0
      | cons x l => rw [hk] at hb0; cases hb0; exact ⟨l, rfl⟩
    refine same_of_spec hr ⟨hn, hp, hnp⟩ ⟨hn, hb p b hm⟩ ?_ ?_
    · simp only [spec, hroot hn0, if_false, hpb]
      split
      · rfl
      · rw [hl]; simp [putBefore]
    · simp only [spec]; repeat' split
      all_goals simp
  · obtain ⟨q, l, r, hl⟩ : ∃ q l r, h.kids q = l ++ a :: b :: r := by
      by_cases ha : h.isRoot a = true
      · rw [(hroots a ha).2.2] at hab; cases hab
      · obtain ⟨q, hq⟩ : ∃ q, h.parent a = some q := by
          simp only [Hierarchy.isRoot, Option.isNone_iff_eq_none] at ha
          exact Option.ne_none_iff_exists'.1 ha
        obtain ⟨l, r, hl⟩ := List.append_of_mem ((hpar a q).1 hq)
        have := (hsib q l a r hl).2
        rw [hab] at this
        cases r with
        | nil => cases this
        | cons x r => cases this; exact ⟨q, l, r, hl⟩
    have hnd := f.once q
    rw [hl, List.nodup_append] at hnd
    have hal : a ∉ l := fun hx => hnd.2.2 a hx a (by simp) rfl
    have hbl : b ∉ l ++ [a] := by
      intro hx
      rcases List.mem_append.1 hx with hx | hx
      · exact hnd.2.2 b hx b (by simp) rfl
      · simp only [List.mem_singleton] at hx
        have := (List.nodup_cons.1 hnd.2.1).1
        simp [hx] at this
    have hma : a ∈ h.kids q := by rw [hl]; simp
    have hmb : b ∈ h.kids q := by rw [hl]; simp
    refine same_of_spec hr ⟨hn, hb q a hma⟩ ⟨hn, hb q b hmb⟩ ?_ ?_
    · simp only [spec, (parent_kids f).2 hma, (parent_kids f).2 hmb, hl]
      rw [putAfter_eq hal]
      have := putBefore_eq (n := n) (r := r) hbl
      simp only [List.append_assoc, List.singleton_append] at this
      rw [this]
    · simp only [spec]; repeat' split
      all_goals simp

/-- The parent under which a call attaches a node. -/
noncomputable def Op.target (K : Kids) : Op → Option Nat
  | .pushChild _ p | .pushFrontChild _ p => some p
  | .insertBefore _ b | .insertAfter _ b => K.parent b
  | _ => none

/-- The children of this parent afterwards. -/
def Op.place : Op → List Nat → List Nat
  | .pushChild n _, l => l ++ [n]
  | .pushFrontChild n _, l => n :: l
  | .insertBefore n b, l => putBefore n b l
  | .insertAfter n a, l => putAfter n a l
  | _, l => l

theorem attach_iff {K K' : Kids} {op : Op} {n : Nat} (ha : op.attaches = some n) :
    spec K op = some (.ok none, K') ↔
      ¬ Attached K n ∧ ∃ p, op.target K = some p ∧ ¬ Anc K n p ∧ K' = K.set p (op.place (K p)) := by
  cases op <;> simp only [Op.attaches, Option.some.injEq, reduceCtorEq] at ha <;> subst ha <;>
    simp only [spec, Op.target, Op.place]
  case pushChild n p =>
    by_cases h1 : Anc K n p <;> by_cases h2 : Attached K n <;> simp [h1, h2, eq_comm]
  case pushFrontChild n p =>
    by_cases h1 : Anc K n p <;> by_cases h2 : Attached K n <;> simp [h1, h2, eq_comm]
  case insertBefore n b =>
    by_cases h2 : Attached K n
    · simp [h2]
    · cases hp : K.parent b with
      | none => simp [h2]
      | some p => by_cases h1 : Anc K n p <;> simp [h1, h2, eq_comm]
  case insertAfter n b =>
    by_cases h2 : Attached K n
    · simp [h2]
    · cases hp : K.parent b with
      | none => simp [h2]
      | some p => by_cases h1 : Anc K n p <;> simp [h1, h2, eq_comm]

theorem mem_place {op : Op} {n x : Nat} {l : List Nat} (ha : op.attaches = some n) (h : x ∈ op.place l) : x = n ∨ x ∈ l := by
  cases op <;> simp only [Op.attaches, Option.some.injEq, reduceCtorEq] at ha <;> subst ha <;> simp only [Op.place] at h
  · simpa [or_comm] using h
  · simpa using h
  · exact mem_putBefore h
  · exact mem_putAfter h

theorem place_mem {op : Op} {n x : Nat} {l : List Nat} (ha : op.attaches = some n) (h : x ∈ l) : x ∈ op.place l := by
  cases op <;> simp only [Op.attaches, Option.some.injEq, reduceCtorEq] at ha <;> subst ha <;> simp only [Op.place]
  · simp [h]
  · simp [h]
  · next b =>
    induction l with
    | nil => cases h
    | cons y l ih => unfold putBefore; split <;> grind
  · next b =>
    induction l with
    | nil => cases h
    | cons y l ih => unfold putAfter; split <;> grind

theorem anc_set {K : Kids} {p n : Nat} {L : List Nat} (hL : ∀ x ∈ L, x = n ∨ x ∈ K p) {a b : Nat} (h : Anc (K.set p L) a b) :
    Anc K a b ∨ (Anc K a p ∧ Anc K n b) := by
  induction h with
  | refl => exact .inl (.refl _)
  | @step q x _ hx ih =>
    unfold Kids.set at hx
    by_cases hq : q = p
    · subst hq
      simp only [if_true] at hx
      have hap : Anc K a q := by rcases ih with h | h <;> first | exact h | exact h.1
      rcases hL x hx with rfl | hx
      · exact .inr ⟨hap, .refl _⟩
      · exact .inl (.step hap hx)
    · simp only [hq, if_false] at hx
      rcases ih with h | ⟨h, h'⟩
      · exact .inl (.step h hx)
      · exact .inr ⟨h, .step h' hx⟩

theorem anc_trans {K : Kids} {a b c : Nat} (h : Anc K a b) (h' : Anc K b c) : Anc K a c := by
  induction h' with
  | refl => exact h
  | step _ hm ih => exact .step ih hm

/-- **C72** Two attachments under different parents, which succeed in one order, succeed in the other order, with the same
child lists. -/
theorem C72_attach_attach {h h1 h2 : Hierarchy} (hr : Reach h) {op op' : Op} (hop : op.ok) (hop' : op'.ok) {n n' p p' : Nat}
    (ha : op.attaches = some n) (ha' : op'.attaches = some n') (he : h.step op = some (.ok none, h1))
    (he' : h1.step op' = some (.ok none, h2)) (hp : h2.parent n = some p) (hp' : h2.parent n' = some p') (hne : p ≠ p') :
    ∃ h3 h4, h.step op' = some (.ok none, h3) ∧ h3.step op = some (.ok none, h4) ∧ h4.kids = h2.kids := by
  obtain ⟨s1, hr1⟩ := called hr hop he
  obtain ⟨s2, hr2⟩ := called hr1 hop' he'
  have f := forest_of hr
  have f1 := forest_of hr1
  have f2 := forest_of hr2
  obtain ⟨hn, q, t1, c1, k1⟩ := (attach_iff ha).1 s1
  obtain ⟨hn', q', t2, c2, k2⟩ := (attach_iff ha').1 s2
  -- the parents
  have hsub : ∀ x, ∀ y ∈ h.kids x, y ∈ h1.kids x := by
    intro x y hy
    rw [k1]; unfold Kids.set
    split
    · next e => subst e; exact place_mem ha hy
    · exact hy
  have hsub' : ∀ x, ∀ y ∈ h1.kids x, y ∈ h2.kids x := by
    intro x y hy
    rw [k2]; unfold Kids.set
    split
    · next e => subst e; exact place_mem ha' hy
    · exact hy
  have hself : ∀ {g : Hierarchy} {o : Op} {m : Nat} {l : List Nat}, o.attaches = some m → ∀ x, o.target g.kids = some x →
      Forest g.kids → m ∈ o.place (g.kids x) := by
    intro g o m l ho x hx fg
    cases o <;> simp only [Op.attaches, Option.some.injEq, reduceCtorEq] at ho <;> subst ho <;>
      simp only [Op.place, Op.target] at hx ⊢
    · simp
    · simp
    · next b =>
      obtain ⟨l, r, hl⟩ := List.append_of_mem ((parent_kids fg).1 hx)
      have hb : b ∉ l := fun hb => by
        have := fg.once x
        rw [hl, List.nodup_append] at this
        exact this.2.2 b hb b (by simp) rfl
      rw [hl, putBefore_eq hb]; simp
    · next b =>
      obtain ⟨l, r, hl⟩ := List.append_of_mem ((parent_kids fg).1 hx)
      have hb : b ∉ l := fun hb => by
        have := fg.once x
        rw [hl, List.nodup_append] at this
        exact this.2.2 b hb b (by simp) rfl
      rw [hl, putAfter_eq hb]; simp
  have m1 : n ∈ h1.kids q := by
    rw [k1]; simp only [Kids.set, if_true]; exact hself (l := []) ha q t1 f
  have m2 : n' ∈ h2.kids q' := by
    rw [k2]; simp only [Kids.set, if_true]; exact hself (l := []) ha' q' t2 f1
  have e1 : q = p := f2.oneParent _ _ _ (hsub' _ _ m1) (((C23_forest_partial hr2).2.1 _ _).1 hp)
  have e2 : q' = p' := f2.oneParent _ _ _ m2 (((C23_forest_partial hr2).2.1 _ _).1 hp')
  subst e1 e2
  have hnn : n ≠ n' := by rintro rfl; exact hn' ⟨q, m1⟩
  have hk1q : h1.kids q' = h.kids q' := by rw [k1]; simp [Kids.set, Ne.symm hne]
  -- the second call first
  have s3 : spec h.kids op' = some (.ok none, h.kids.set q' (op'.place (h.kids q'))) := by
    refine (attach_iff ha').2 ⟨fun ⟨x, hx⟩ => hn' ⟨x, hsub x _ hx⟩, q', ?_, fun hx => c2 (anc_mono (K := h1.kids) hsub hx), rfl⟩
    cases op' <;> simp only [Op.attaches, reduceCtorEq] at ha' <;> simp only [Op.target] at t2 ⊢
    · exact t2
    · exact t2
    · rw [parent_kids f, ← hk1q]; exact (parent_kids f1).1 t2
    · rw [parent_kids f, ← hk1q]; exact (parent_kids f1).1 t2
  obtain ⟨h3, g1, g2, hr3⟩ := call hr hop' s3
  have f3 := forest_of hr3
  have hk3q : h3.kids q = h.kids q := by rw [g2]; simp [Kids.set, hne]
  have s4 : spec h3.kids op = some (.ok none, h3.kids.set q (op.place (h3.kids q))) := by
    refine (attach_iff ha).2 ⟨?_, q, ?_, ?_, rfl⟩
    · rintro ⟨x, hx⟩
      rw [g2] at hx
      unfold Kids.set at hx
      split at hx
      · rcases mem_place ha' hx with e | hx
        · exact hnn e
        · exact hn ⟨_, hx⟩
      · exact hn ⟨_, hx⟩
    · cases op <;> simp only [Op.attaches, reduceCtorEq] at ha <;> simp only [Op.target] at t1 ⊢
      · exact t1
      · exact t1
      · rw [parent_kids f3, hk3q]; exact (parent_kids f).1 t1
      · rw [parent_kids f3, hk3q]; exact (parent_kids f).1 t1
    · intro hx
      rw [g2] at hx
      rcases anc_set (fun x hx => mem_place ha' hx) hx with hx | ⟨x1, x2⟩
      · exact c1 hx
      · refine c2 (anc_trans (.step (anc_mono (K := h1.kids) hsub x2) m1) (anc_mono (K := h1.kids) hsub x1))
  obtain ⟨h4, g3, g4, -⟩ := call hr3 hop s4
  refine ⟨h3, h4, g1, g3, ?_⟩
  rw [g4, hk3q, g2, k2, hk1q, k1]
  funext x
  unfold Kids.set
  by_cases x1 : x = q <;> by_cases x2 : x = q' <;> simp [x1, x2, hne, Ne.symm hne]

theorem set_set (K : Kids) (p : Nat) (l l' : List Nat) : (K.set p l).set p l' = K.set p l' := by
  funext x; unfold Kids.set; split <;> rfl

theorem push_back {K : Kids} (f : Forest K) {p : Nat} (hp : p < 2 ^ 31) : ∀ (l2 l1 : List Nat) (h : Hierarchy), Reach h → K p = l1 ++ l2 →
    (∀ n ∈ l2, n < 2 ^ 31) → h.kids = K.set p l1 →
    ∃ rs h', runOps h (l2.map fun n => .pushChild n p) = some (rs, h') ∧ (∀ r ∈ rs, r = .ok none) ∧ h'.kids = K
  | [], l1, h, hr, hk, hb, he => ⟨[], h, rfl, by simp, by
      rw [he]; funext x; unfold Kids.set; split
      · next e => subst e; rw [hk]; simp
      · rfl⟩
  | n :: l2, l1, h, hr, hk, hb, he => by
    have hm : n ∈ K p := by rw [hk]; simp
    have hnp : n ≠ p := by rintro rfl; exact f.acyclic _ _ hm (.refl _)
    have hsub : ∀ x, ∀ y ∈ h.kids x, y ∈ K x := by
      intro x y hy
      rw [he] at hy
      unfold Kids.set at hy
      split at hy
      · next e => subst e; rw [hk]; simp [hy]
      · exact hy
    have h1 : ¬ Anc h.kids n p := fun ha => f.acyclic _ _ hm (anc_mono hsub ha)
    have h2 : ¬ Attached h.kids n := by
      rintro ⟨x, hx⟩
      have := f.oneParent _ _ _ (hsub _ _ hx) hm
      subst this
      rw [he] at hx
      simp only [Kids.set, if_true] at hx
      have := f.once x
      rw [hk, List.nodup_append] at this
      exact this.2.2 n hx n (by simp) rfl
    have hop : (Op.pushChild n p).ok := ⟨hb n (by simp), hp, hnp⟩
    obtain ⟨h', g1, g2, hr'⟩ := call hr (op := .pushChild n p) hop (by simp only [spec, h1, h2, if_false]; rfl)
    obtain ⟨rs, h'', g3, g4, g5⟩ := push_back f hp l2 (l1 ++ [n]) h' hr' (by rw [hk]; simp) (fun m hm => hb m (by simp [hm]))
      (by rw [g2, he, set_set]; simp [Kids.set])
    refine ⟨.ok none :: rs, h'', ?_, ?_, g5⟩
    · simp only [List.map_cons, runOps, g1, g3, Option.map_some]
    · intro r hx
      rcases List.mem_cons.1 hx with rfl | hx
      · rfl
      · exact g4 r hx

/-- **C72** `detach_children` is undone by pushing the former children back in their order. -/
theorem C72_detach_children {h : Hierarchy} (hr : Reach h) {p : Nat} (hp : p < 2 ^ 31) :
    ∃ h1 rs h2, h.detachChildren p = some h1 ∧ runOps h1 ((h.kids p).map fun n => .pushChild n p) = some (rs, h2) ∧
      (∀ r ∈ rs, r = .ok none) ∧ h2.kids = h.kids := by
  obtain ⟨h1, a1, a2, hr1⟩ := call hr (op := .detachChildren p) hp rfl
  obtain ⟨rs, h2, b1, b2, b3⟩ := push_back (forest_of hr) hp (h.kids p) [] h1 hr1 rfl (fun n hn => hr.inv.2 p n hn) a2
  simp only [Hierarchy.step, Option.map_eq_some_iff, Prod.mk.injEq, true_and, exists_eq_right] at a1
  exact ⟨h1, rs, h2, a1, b1, b2, b3⟩

/-- A few child lists. -/
def look (h : Hierarchy) : List (List Nat) := (List.range 9).map h.kids

/-! Concrete cases. The children of 0 are 1, 2, 3 and those of 2 are 5, 4. -/

-- attach and detach
example : look exH = [[1, 2, 3], [], [5, 4], [], [], [], [], [], []] ∧
    ((exH.step (.insertAfter 7 5)).bind fun x => x.2.step (.detach 7)).map (fun x => look x.2) = some (look exH) ∧
    (exH.step (.insertAfter 7 5)).map (fun x => look x.2) = some [[1, 2, 3], [], [5, 7, 4], [], [], [], [], [], []] := by decide +kernel

-- detach_children and pushing them back
example : ((exH.step (.detachChildren 0)).bind fun x => runOps x.2 [.pushChild 1 0, .pushChild 2 0, .pushChild 3 0]).map
    (fun x => look x.2) = some (look exH) := by decide +kernel

-- two attachments under different parents, the first one's node under the second's tree
example : (runOps exH [.insertBefore 7 2, .pushChild 8 7]).map (fun x => (x.1, look x.2)) =
      some ([.ok none, .ok none], [[1, 7, 2, 3], [], [5, 4], [], [], [], [], [8], []]) ∧
    (runOps exH [.pushChild 8 7, .insertBefore 7 2]).map (fun x => (x.1, look x.2)) =
      some ([.ok none, .ok none], [[1, 7, 2, 3], [], [5, 4], [], [], [], [], [8], []]) := by decide +kernel

-- rekey against swap_nodes
example : (exH.rekey 2 7).map look = (exH.swapNodes 2 7).map look ∧
    (exH.rekey 2 7).map look = some [[1, 7, 3], [], [], [], [], [], [], [5, 4], []] := by decide +kernel

-- the different ways to attach
example : (exH.step (.pushChild 7 2)).map (fun x => look x.2) = (exH.step (.insertAfter 7 4)).map (fun x => look x.2) ∧
    (exH.step (.pushFrontChild 7 2)).map (fun x => look x.2) = (exH.step (.insertBefore 7 5)).map (fun x => look x.2) ∧
    (exH.step (.insertAfter 7 1)).map (fun x => look x.2) = (exH.step (.insertBefore 7 2)).map (fun x => look x.2) ∧
    (exH.step (.pushChild 7 6)).map (fun x => look x.2) = (exH.step (.pushFrontChild 7 6)).map (fun x => look x.2) := by decide +kernel

/-- **C72** Under one parent the order of two attachments shows, and of two attachments that would close a cycle only the
first succeeds: whence the different parents and the success of both calls in `C72_attach_attach`. -/
theorem C72_witness_order :
    (runOps exH [.pushChild 7 2, .pushChild 8 2]).map (fun x => (x.1, x.2.kids 2)) = some ([.ok none, .ok none], [5, 4, 7, 8]) ∧
    (runOps exH [.pushChild 8 2, .pushChild 7 2]).map (fun x => (x.1, x.2.kids 2)) = some ([.ok none, .ok none], [5, 4, 8, 7]) ∧
    (runOps exH [.pushChild 7 8, .pushChild 8 7]).map (fun x => x.1.map (·.isOk)) = some [true, false] ∧
    (runOps exH [.pushChild 8 7, .pushChild 7 8]).map (fun x => x.1.map (·.isOk)) = some [true, false] := by decide +kernel

/-- With 6 under 5. -/
def deeper : Hierarchy := ((exH.step (.pushChild 6 5)).getD (.ok none, exH)).2

theorem deeper_reach : Reach deeper :=
  .step (op := .pushChild 6 5) (r := .ok none) exH_reach ⟨by decide, by decide, by decide⟩ (by rfl)

/-- **C72** For a node with a parent the ways to attach give different errors: `push_child` under its own descendant says that
this would close a cycle, `insert_after` says that the node is attached. Whence the root in `C72_attach_same`. -/
theorem C72_witness_errors : Reach deeper ∧ deeper.last 5 = some 6 ∧ deeper.parent 2 = some 0 ∧
    ¬ SameCall deeper (.pushChild 2 5) (.insertAfter 2 6) := by
  refine ⟨deeper_reach, by decide +kernel, by decide +kernel, ?_⟩
  rintro ⟨r, h1, h2, e1, e2, -⟩
  have a : (deeper.step (.pushChild 2 5)).map (·.1) ≠ (deeper.step (.insertAfter 2 6)).map (·.1) := by decide +kernel
  exact a (by rw [e1, e2]; rfl)

example := C72_attach_detach exH_reach (op := .insertAfter 7 5) (by simp [Op.ok]) (n := 7) rfl
  (h1 := ((exH.step (.insertAfter 7 5)).getD (.ok none, exH)).2) (by rfl)

example := C72_detach_attach exH_reach (n := 2) (p := 0) (l := [1]) (r := [3]) (by decide +kernel)

example := C72_swap_swap exH_reach (a := 0) (b := 5) (by decide) (by decide)

example := C72_rekey exH_reach (old := 2) (new := 7) (by decide) (by decide) (by decide +kernel) (by decide +kernel)

example := C72_remove exH_reach (n := 2) (by decide)

example := C72_detach_detach exH_reach (a := 1) (b := 2) (by decide) (by decide) (by decide)

example := C72_attach_same exH_reach (n := 7) (p := 2) (by decide) (by decide) (by decide)

example := C72_attach_attach exH_reach (op := .insertBefore 7 2) (op' := .pushChild 8 7) (by simp [Op.ok]) (by simp [Op.ok]) (n := 7) (n' := 8) (p := 0)
  (p' := 7) rfl rfl (h1 := ((exH.step (.insertBefore 7 2)).getD (.ok none, exH)).2)
  (h2 := ((((exH.step (.insertBefore 7 2)).getD (.ok none, exH)).2.step (.pushChild 8 7)).getD (.ok none, exH)).2) (by rfl) (by rfl)
  (by decide +kernel) (by decide +kernel) (by decide)

#print axioms C72_attach_detach
#print axioms C72_detach_attach
#print axioms C72_swap_swap
#print axioms C72_rekey
#print axioms C72_remove
#print axioms C72_detach_detach
#print axioms C72_attach_same
#print axioms C72_attach_attach
#print axioms C72_detach_children
#print axioms C72_witness_order
#print axioms C72_witness_errors

end Verif.Hier
