import Verif.Undo.Spec
import Verif.Equality.Props

/-!
# Lemmas on child lists for the undo laws
-/

namespace Verif.Undo

open Verif.Hier Verif.Equality

theorem putBefore_append {n b : Nat} {l1 l2 : List Nat} (h : b ∉ l1) : putBefore n b (l1 ++ b :: l2) = l1 ++ n :: b :: l2 := by
  induction l1 with
  | nil => simp [putBefore]
  | cons x l ih =>
    simp only [List.mem_cons, not_or] at h
    simp [putBefore, ih h.2, Ne.symm h.1]

theorem putAfter_append {n a : Nat} {l1 l2 : List Nat} (h : a ∉ l1) : putAfter n a (l1 ++ a :: l2) = l1 ++ a :: n :: l2 := by
  induction l1 with
  | nil => simp [putAfter]
  | cons x l ih =>
    simp only [List.mem_cons, not_or] at h
    simp [putAfter, ih h.2, Ne.symm h.1]

theorem filter_ne_self {n : Nat} {l : List Nat} (h : n ∉ l) : l.filter (· ≠ n) = l := by
  rw [List.filter_eq_self]
  intro x hx
  simp only [ne_eq, decide_not, Bool.not_eq_eq_eq_not, Bool.not_true, decide_eq_false_iff_not]
  rintro rfl
  exact h hx

/-- `n` was put somewhere into `l`. -/
def Put (n : Nat) (l l' : List Nat) : Prop := ∃ a b, l = a ++ b ∧ l' = a ++ n :: b

theorem Put.erase {n : Nat} {l l' : List Nat} (h : Put n l l') (hn : n ∉ l) : l'.filter (· ≠ n) = l := by
  obtain ⟨a, b, rfl, rfl⟩ := h
  simp only [List.mem_append, not_or] at hn
  rw [List.filter_append, List.filter_cons_of_neg (by simp), filter_ne_self hn.1, filter_ne_self hn.2]

theorem Put.mem {n : Nat} {l l' : List Nat} (h : Put n l l') (x : Nat) : x ∈ l' ↔ x = n ∨ x ∈ l := by
  obtain ⟨a, b, rfl, rfl⟩ := h
  simp only [List.mem_append, List.mem_cons]
  tauto

theorem put_before {n b : Nat} {l : List Nat} (h : b ∈ l) : Put n l (putBefore n b l) := by
  induction l with
  | nil => simp at h
  | cons x l ih =>
    unfold putBefore
    split
    · exact ⟨[], x :: l, rfl, rfl⟩
    · rename_i hx
      rcases List.mem_cons.1 h with h | h
      · exact absurd h.symm hx
      · obtain ⟨a, c, h1, h2⟩ := ih h
        exact ⟨x :: a, c, by rw [h1]; rfl, by rw [h2]; rfl⟩

theorem put_after {n b : Nat} {l : List Nat} (h : b ∈ l) : Put n l (putAfter n b l) := by
  induction l with
  | nil => simp at h
  | cons x l ih =>
    unfold putAfter
    split
    · exact ⟨[x], l, rfl, rfl⟩
    · rename_i hx
      rcases List.mem_cons.1 h with h | h
      · exact absurd h.symm hx
      · obtain ⟨a, c, h1, h2⟩ := ih h
        exact ⟨x :: a, c, by rw [h1]; rfl, by rw [h2]; rfl⟩

/-- How a call changes the list of the parent. -/
def place : Hier.Op → List Nat → List Nat
  | .pushChild n _, l => l ++ [n]
  | .pushFrontChild n _, l => n :: l
  | .insertBefore n b, l => putBefore n b l
  | .insertAfter n b, l => putAfter n b l
  | _, l => l

theorem parent_of_mem {K : Kids} (F : Forest K) {p n : Nat} (h : n ∈ K p) : K.parent n = some p := by
  have ha : Attached K n := ⟨p, h⟩
  unfold Kids.parent
  rw [dif_pos ha]
  exact congrArg some (F.oneParent _ _ _ (Classical.choose_spec ha) h)

theorem parent_none {K : Kids} {n : Nat} (h : ¬ Attached K n) : K.parent n = none := by
  unfold Kids.parent
  rw [dif_neg h]

theorem mem_of_parent {K : Kids} {p n : Nat} (h : K.parent n = some p) : n ∈ K p := by
  unfold Kids.parent at h
  split at h
  · rename_i ha
    cases h
    exact Classical.choose_spec ha
  · cases h

theorem parent_eq {h : Hierarchy} (hr : Hier.Reach h) (n : Nat) : h.kids.parent n = h.parent n := by
  obtain ⟨F, hp, -⟩ := C23_forest_partial hr
  by_cases ha : Attached h.kids n
  · obtain ⟨p, hn⟩ := ha
    rw [parent_of_mem F hn, (hp n p).2 hn]
  · rw [parent_none ha]
    cases e : h.parent n with
    | none => rfl
    | some p => exact absurd ⟨p, (hp n p).1 e⟩ ha

/-- A successful attaching call: where the node goes. -/
theorem spec_attach {h : Hierarchy} (hr : Hier.Reach h) {op : Hier.Op} {n : Nat} (ho : attaches op = some n) {r : Option Nat} {K : Kids}
    (hs : spec h.kids op = some (.ok r, K)) :
    r = none ∧ ∃ p, under h op = some p ∧ K = h.kids.set p (place op (h.kids p)) ∧ Put n (h.kids p) (place op (h.kids p)) ∧
      ¬ Attached h.kids n ∧ ¬ Anc h.kids n p := by
  cases op <;> simp only [attaches, Option.some.injEq, reduceCtorEq] at ho <;> subst ho
  case pushChild n p =>
    simp only [spec] at hs
    split at hs
    · simp at hs
    · split at hs
      · simp at hs
      · simp only [Option.some.injEq, Prod.mk.injEq, Except.ok.injEq] at hs
        exact ⟨hs.1.symm, p, rfl, hs.2.symm, ⟨h.kids p, [], by simp, rfl⟩, by assumption, by assumption⟩
  case pushFrontChild n p =>
    simp only [spec] at hs
    split at hs
    · simp at hs
    · split at hs
      · simp at hs
      · simp only [Option.some.injEq, Prod.mk.injEq, Except.ok.injEq] at hs
        exact ⟨hs.1.symm, p, rfl, hs.2.symm, ⟨[], h.kids p, rfl, rfl⟩, by assumption, by assumption⟩
  case insertBefore n b =>
    simp only [spec] at hs
    split at hs
    · simp at hs
    · split at hs
      · simp at hs
      · rename_i p hp
        split at hs
        · simp at hs
        · simp only [Option.some.injEq, Prod.mk.injEq, Except.ok.injEq] at hs
          exact ⟨hs.1.symm, p, by rw [← hp, parent_eq hr]; rfl, hs.2.symm, put_before (mem_of_parent hp), by assumption, by assumption⟩
  case insertAfter n b =>
    simp only [spec] at hs
    split at hs
    · simp at hs
    · split at hs
      · simp at hs
      · rename_i p hp
        split at hs
        · simp at hs
        · simp only [Option.some.injEq, Prod.mk.injEq, Except.ok.injEq] at hs
          exact ⟨hs.1.symm, p, by rw [← hp, parent_eq hr]; rfl, hs.2.symm, put_after (mem_of_parent hp), by assumption, by assumption⟩

/-- Conversely. -/
theorem spec_attach' {h : Hierarchy} (hr : Hier.Reach h) {op : Hier.Op} {n p : Nat} (ho : attaches op = some n)
    (hu : under h op = some p) (h1 : ¬ Attached h.kids n) (h2 : ¬ Anc h.kids n p) :
    spec h.kids op = some (.ok none, h.kids.set p (place op (h.kids p))) := by
  cases op <;> simp only [attaches, Option.some.injEq, reduceCtorEq] at ho <;> subst ho
  case pushChild n q => cases hu; simp only [spec, if_neg h1, if_neg h2, place]
  case pushFrontChild n q => cases hu; simp only [spec, if_neg h1, if_neg h2, place]
  case insertBefore n b =>
    have : h.kids.parent b = some p := by rw [parent_eq hr]; exact hu
    simp only [spec, if_neg h1, this, if_neg h2, place]
  case insertAfter n b =>
    have : h.kids.parent b = some p := by rw [parent_eq hr]; exact hu
    simp only [spec, if_neg h1, this, if_neg h2, place]

/-- A successful attaching call, in terms of the hierarchy. -/
theorem step_attach {h h' : Hierarchy} (hr : Hier.Reach h) {op : Hier.Op} (hop : op.ok) {n : Nat} (ho : attaches op = some n) {r : Option Nat}
    (hs : h.step op = some (.ok r, h')) :
    Hier.Reach h' ∧ r = none ∧ ∃ p, under h op = some p ∧ h'.kids = h.kids.set p (place op (h.kids p)) ∧
      Put n (h.kids p) (place op (h.kids p)) ∧ ¬ Attached h.kids n ∧ ¬ Anc h.kids n p := by
  refine ⟨.step hr hop hs, ?_⟩
  obtain ⟨h1, h2⟩ := C24_calls_partial hr hop
  cases e : spec h.kids op with
  | none => rw [h1 e] at hs; cases hs
  | some x =>
    obtain ⟨r', K⟩ := x
    obtain ⟨h'', e1, e2⟩ := h2 r' K e
    rw [e1] at hs
    simp only [Option.some.injEq, Prod.mk.injEq] at hs
    obtain ⟨rfl, rfl⟩ := hs
    subst e2
    exact spec_attach hr ho e

/-- The converse. -/
theorem attach_step {h : Hierarchy} (hr : Hier.Reach h) {op : Hier.Op} (hop : op.ok) {n p : Nat} (ho : attaches op = some n)
    (hu : under h op = some p) (h1 : ¬ Attached h.kids n) (h2 : ¬ Anc h.kids n p) :
    ∃ h', h.step op = some (.ok none, h') ∧ Hier.Reach h' ∧ h'.kids = h.kids.set p (place op (h.kids p)) := by
  obtain ⟨h', e1, e2⟩ := (C24_calls_partial hr hop).2 _ _ (spec_attach' hr ho hu h1 h2)
  exact ⟨h', e1, .step hr hop e1, e2⟩

theorem detach_step {h : Hierarchy} (hr : Hier.Reach h) {n : Nat} (hn : n < 2 ^ 31) :
    ∃ h', h.step (.detach n) = some (.ok (h.parent n), h') ∧ Hier.Reach h' ∧ h'.kids = h.kids.erase n := by
  have hop : (Hier.Op.detach n).ok := hn
  obtain ⟨h', e1, e2⟩ := (C24_calls_partial hr hop).2 (.ok (h.kids.parent n)) (h.kids.erase n) rfl
  rw [parent_eq hr] at e1
  exact ⟨h', e1, .step hr hop e1, e2⟩

theorem anc_mono {K L : Kids} (h : ∀ p x, x ∈ K p → x ∈ L p) {a n : Nat} (ha : Anc K a n) : Anc L a n := by
  induction ha with
  | refl => exact .refl _
  | step _ hm ih => exact .step ih (h _ _ hm)

theorem erase_sub {K : Kids} {n : Nat} (p x : Nat) (h : x ∈ K.erase n p) : x ∈ K p := (List.mem_filter.1 h).1

theorem set_place_sub {K : Kids} {n p : Nat} {l : List Nat} (h : Put n (K p) l) (q x : Nat) (hx : x ∈ K q) : x ∈ K.set p l q := by
  unfold Kids.set
  split
  · subst_vars
    exact (h.mem x).2 (.inr hx)
  · exact hx

theorem eq_of_kids {a b : Hierarchy} (ha : Hier.Reach a) (hb : Hier.Reach b) (h : a.kids = b.kids) : eqHierarchy a b = true :=
  (C62_hierarchy_partial ha hb).2 h

end Verif.Undo
