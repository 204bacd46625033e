import Verif.Hierarchy.Model
import Verif.Secondary.Props

/-!
# Sibling lists

Lemmas: node data that represents a family of child lists.
-/

namespace Verif.Hier

open Verif.Secondary

theorem get_modify (h : Hierarchy) (n : Nat) (f : NodeData → NodeData) (x : Nat) :
    (h.modify n f).get x = if x = n then f (h.get n) else h.get x := by
  simp only [Hierarchy.get, Hierarchy.modify, Dense.get_set]

/-- The node data `D` is what the child lists `K` look like in memory. -/
structure Repr (D : Nat → NodeData) (K : Nat → List Nat) : Prop where
  first : ∀ n, (D n).first = (K n).head?
  last : ∀ n, (D n).last = (K n).getLast?
  count : ∀ n, (D n).count = (K n).length
  nodup : ∀ n, (K n).Nodup
  sib : ∀ p l1 n l2, K p = l1 ++ n :: l2 →
    (D n).parent = some p ∧ (D n).prev = l1.getLast? ∧ (D n).next = l2.head?
  root : ∀ n, (∀ p, n ∉ K p) → (D n).parent = none ∧ (D n).prev = none ∧ (D n).next = none

/-- A function with one value replaced. -/
def upd {V : Type} (f : Nat → V) (k : Nat) (v : V) : Nat → V := fun x => if x = k then v else f x

theorem split3 {α : Type} {a b l1 l2 : List α} {n x : α} (h : a ++ n :: b = l1 ++ x :: l2) :
    (∃ a', a = l1 ++ x :: a' ∧ l2 = a' ++ n :: b) ∨ (a = l1 ∧ n = x ∧ b = l2) ∨
    (∃ b', b = b' ++ x :: l2 ∧ l1 = a ++ n :: b') := by
  induction a generalizing l1 with
  | nil =>
    cases l1 with
    | nil => simp at h; exact Or.inr (Or.inl ⟨rfl, h.1, h.2⟩)
    | cons y l1 =>
      simp at h
      exact Or.inr (Or.inr ⟨l1, h.2, by simp [h.1]⟩)
  | cons y a ih =>
    cases l1 with
    | nil =>
      simp at h
      exact Or.inl ⟨a, by simp [h.1], h.2.symm⟩
    | cons z l1 =>
      simp at h
      obtain ⟨rfl, h⟩ := h
      rcases ih h with ⟨a', e1, e2⟩ | ⟨e1, e2, e3⟩ | ⟨b', e1, e2⟩
      · exact Or.inl ⟨a', by simp [e1], e2⟩
      · exact Or.inr (Or.inl ⟨by rw [e1], e2, e3⟩)
      · exact Or.inr (Or.inr ⟨b', e1, by simp [e2]⟩)

/-- Likewise with nothing in the middle. -/
theorem split2 {α : Type} {a b l1 l2 : List α} {x : α} (h : a ++ b = l1 ++ x :: l2) :
    (∃ a', a = l1 ++ x :: a' ∧ l2 = a' ++ b) ∨ (∃ b', b = b' ++ x :: l2 ∧ l1 = a ++ b') := by
  induction a generalizing l1 with
  | nil => exact Or.inr ⟨l1, h, rfl⟩
  | cons y a ih =>
    cases l1 with
    | nil =>
      simp at h
      exact Or.inl ⟨a, by simp [h.1], h.2.symm⟩
    | cons z l1 =>
      simp at h
      obtain ⟨rfl, h⟩ := h
      rcases ih h with ⟨a', e1, e2⟩ | ⟨b', e1, e2⟩
      · exact Or.inl ⟨a', by simp [e1], e2⟩
      · exact Or.inr ⟨b', e1, by simp [e2]⟩

theorem mem_of_getLast? {α : Type} {l : List α} {x : α} (h : l.getLast? = some x) : x ∈ l :=
  List.mem_of_getLast? h

theorem mem_of_head? {α : Type} {l : List α} {x : α} (h : l.head? = some x) : x ∈ l := by
  cases l with
  | nil => cases h
  | cons y l => simp at h; simp [h]

namespace Repr

variable {D D' : Nat → NodeData} {K : Nat → List Nat}

theorem parent_iff (r : Repr D K) {n p : Nat} : (D n).parent = some p ↔ n ∈ K p := by
  constructor
  · intro h
    by_cases hr : ∀ q, n ∉ K q
    · rw [(r.root n hr).1] at h; cases h
    · simp only [Classical.not_forall, Classical.not_not] at hr
      obtain ⟨q, hq⟩ := hr
      obtain ⟨l1, l2, e⟩ := List.append_of_mem hq
      have := (r.sib q l1 n l2 e).1
      rw [h] at this
      cases this
      exact hq
  · intro h
    obtain ⟨l1, l2, e⟩ := List.append_of_mem h
    exact (r.sib p l1 n l2 e).1

theorem unique (r : Repr D K) {n p q : Nat} (hp : n ∈ K p) (hq : n ∈ K q) : p = q := by
  rw [← r.parent_iff] at hp hq
  rw [hp] at hq
  exact Option.some.inj hq

theorem root_iff (r : Repr D K) {n : Nat} : (D n).parent = none ↔ ∀ p, n ∉ K p := by
  constructor
  · intro h p hp
    rw [← r.parent_iff, h] at hp
    cases hp
  · intro h
    exact (r.root n h).1

/-- Inserting a root into a child list. -/
theorem insert (r : Repr D K) {n p : Nat} {a b : List Nat} (hn : ∀ q, n ∉ K q) (hp : K p = a ++ b)
    (h1 : ∀ x, (D' x).parent = if x = n then some p else (D x).parent)
    (h2 : ∀ x, (D' x).prev = if x = n then a.getLast? else if b.head? = some x then some n else (D x).prev)
    (h3 : ∀ x, (D' x).next = if x = n then b.head? else if a.getLast? = some x then some n else (D x).next)
    (h4 : ∀ x, (D' x).first = if x = p then (a ++ n :: b).head? else (D x).first)
    (h5 : ∀ x, (D' x).last = if x = p then (a ++ n :: b).getLast? else (D x).last)
    (h6 : ∀ x, (D' x).count = if x = p then (D x).count + 1 else (D x).count) :
    Repr D' (upd K p (a ++ n :: b)) := by
  have hnd := r.nodup p
  rw [hp] at hnd
  have hna : n ∉ a := fun h => hn p (by rw [hp]; simp [h])
  have hnb : n ∉ b := fun h => hn p (by rw [hp]; simp [h])
  constructor
  · intro x; rw [h4]; unfold upd; split <;> simp_all [r.first]
  · intro x; rw [h5]; unfold upd; split <;> simp_all [r.last]
  · intro x; rw [h6]; unfold upd; split
    · rename_i e; rw [e, r.count, hp]; simp; omega
    · exact r.count x
  · intro x
    unfold upd
    split
    · grind
    · exact r.nodup x
  · intro q l1 x l2 e
    unfold upd at e
    split at e
    · rename_i hq
      subst hq
      rcases split3 e with ⟨a', e1, e2⟩ | ⟨e1, e2, e3⟩ | ⟨b', e1, e2⟩
      · have hs := r.sib q l1 x (a' ++ b) (by rw [hp, e1]; simp)
        have hxn : x ≠ n := by rintro rfl; exact hna (by rw [e1]; simp)
        have hxb : b.head? ≠ some x := by
          intro hb
          have := mem_of_head? hb
          subst e1
          grind
        rw [h1, h2, h3, if_neg hxn, if_neg hxn, if_neg hxb, if_neg hxn]
        refine ⟨hs.1, hs.2.1, ?_⟩
        subst e1 e2
        cases a' with
        | nil => simp
        | cons y a' =>
          rw [if_neg, hs.2.2]
          · simp
          · intro hl
            rw [List.getLast?_append] at hl
            simp at hl
            have := List.mem_of_getLast? (l := y :: a') (a := x) hl
            grind
      · subst e1 e2 e3
        rw [h1, h2, h3]
        simp
      · have hs := r.sib q (a ++ b') x l2 (by rw [hp, e1]; simp)
        have hxn : x ≠ n := by rintro rfl; exact hnb (by rw [e1]; simp)
        have hxa : a.getLast? ≠ some x := by
          intro hb
          have := mem_of_getLast? hb
          subst e1
          grind
        rw [h1, h2, h3, if_neg hxn, if_neg hxn, if_neg hxa, if_neg hxn]
        refine ⟨hs.1, ?_, hs.2.2⟩
        subst e1 e2
        cases b' with
        | nil => simp
        | cons y b' =>
          rw [if_neg, hs.2.1]
          · simp [List.getLast?_append, List.getLast?_cons]
          · intro hl
            simp at hl
            grind
    · rename_i hq
      have hs := r.sib q l1 x l2 e
      have hxq : x ∈ K q := by rw [e]; simp
      have hxn : x ≠ n := by rintro rfl; exact hn q hxq
      have hxp : x ∉ a ++ b := by rw [← hp]; exact fun hh => hq (r.unique hxq hh)
      rw [h1, h2, h3, if_neg hxn, if_neg hxn, if_neg hxn, if_neg, if_neg]
      · exact hs
      · intro hh; exact hxp (by simp [mem_of_getLast? hh])
      · intro hh; exact hxp (by simp [mem_of_head? hh])
  · intro x hx
    have hxn : x ≠ n := by
      rintro rfl
      exact hx p (by simp [upd])
    have hxr : ∀ q, x ∉ K q := by
      intro q hq
      refine hx q ?_
      unfold upd
      split
      · rename_i e; subst e; rw [hp] at hq; simp at hq ⊢; rcases hq with h | h <;> simp [h]
      · exact hq
    have hxp : x ∉ a ++ b := by rw [← hp]; exact hxr p
    rw [h1, h2, h3, if_neg hxn, if_neg hxn, if_neg hxn, if_neg, if_neg]
    · exact r.root x hxr
    · intro hh; exact hxp (by simp [mem_of_getLast? hh])
    · intro hh; exact hxp (by simp [mem_of_head? hh])

/-- Taking a node out of a child list. -/
theorem erase (r : Repr D K) {n p : Nat} {a b : List Nat} (hp : K p = a ++ n :: b)
    (h1 : ∀ x, (D' x).parent = if x = n then none else (D x).parent)
    (h2 : ∀ x, (D' x).prev = if x = n then none else if b.head? = some x then a.getLast? else (D x).prev)
    (h3 : ∀ x, (D' x).next = if x = n then none else if a.getLast? = some x then b.head? else (D x).next)
    (h4 : ∀ x, (D' x).first = if x = p then (a ++ b).head? else (D x).first)
    (h5 : ∀ x, (D' x).last = if x = p then (a ++ b).getLast? else (D x).last)
    (h6 : ∀ x, (D' x).count = if x = p then (D x).count - 1 else (D x).count) :
    Repr D' (upd K p (a ++ b)) := by
  have hnd := r.nodup p
  rw [hp] at hnd
  have hna : n ∉ a := by grind
  have hnb : n ∉ b := by grind
  have hnp : n ∈ K p := by rw [hp]; simp
  constructor
  · intro x; rw [h4]; unfold upd; split <;> simp_all [r.first]
  · intro x; rw [h5]; unfold upd; split <;> simp_all [r.last]
  · intro x; rw [h6]; unfold upd; split
    · rename_i e; rw [e, r.count, hp]; simp
    · exact r.count x
  · intro x
    unfold upd
    split
    · grind
    · exact r.nodup x
  · intro q l1 x l2 e
    unfold upd at e
    split at e
    · rename_i hq
      subst hq
      rcases split2 e with ⟨a', e1, e2⟩ | ⟨b', e1, e2⟩
      · have hs := r.sib q l1 x (a' ++ n :: b) (by rw [hp, e1]; simp)
        have hxn : x ≠ n := by rintro rfl; exact hna (by rw [e1]; simp)
        have hxb : b.head? ≠ some x := by
          intro hb
          have := mem_of_head? hb
          subst e1
          grind
        rw [h1, h2, h3, if_neg hxn, if_neg hxn, if_neg hxb, if_neg hxn]
        refine ⟨hs.1, hs.2.1, ?_⟩
        subst e1 e2
        cases a' with
        | nil => simp
        | cons y a' =>
          rw [if_neg, hs.2.2]
          · simp
          · intro hl
            rw [List.getLast?_append] at hl
            simp at hl
            have := List.mem_of_getLast? (l := y :: a') (a := x) hl
            grind
      · have hs := r.sib q (a ++ n :: b') x l2 (by rw [hp, e1]; simp)
        have hxn : x ≠ n := by rintro rfl; exact hnb (by rw [e1]; simp)
        have hxa : a.getLast? ≠ some x := by
          intro hb
          have := mem_of_getLast? hb
          subst e1
          grind
        rw [h1, h2, h3, if_neg hxn, if_neg hxn, if_neg hxa, if_neg hxn]
        refine ⟨hs.1, ?_, hs.2.2⟩
        subst e1 e2
        cases b' with
        | nil => simp
        | cons y b' =>
          rw [if_neg, hs.2.1]
          · simp [List.getLast?_append, List.getLast?_cons]
          · intro hl
            simp at hl
            grind
    · rename_i hq
      have hs := r.sib q l1 x l2 e
      have hxq : x ∈ K q := by rw [e]; simp
      have hxp : x ∉ a ++ n :: b := by rw [← hp]; exact fun hh => hq (r.unique hxq hh)
      have hxn : x ≠ n := by rintro rfl; exact hxp (by simp)
      rw [h1, h2, h3, if_neg hxn, if_neg hxn, if_neg hxn, if_neg, if_neg]
      · exact hs
      · intro hh; exact hxp (by simp [mem_of_getLast? hh])
      · intro hh; exact hxp (by simp [mem_of_head? hh])
  · intro x hx
    by_cases hxn : x = n
    · rw [h1, h2, h3, if_pos hxn, if_pos hxn, if_pos hxn]; simp
    · have hxr : ∀ q, x ∉ K q := by
        intro q hq
        refine hx q ?_
        unfold upd
        split
        · rename_i e; subst e; rw [hp] at hq; simp [hxn] at hq ⊢; exact hq
        · exact hq
      have hxp : x ∉ a ++ n :: b := by rw [← hp]; exact hxr p
      rw [h1, h2, h3, if_neg hxn, if_neg hxn, if_neg hxn, if_neg, if_neg]
      · exact r.root x hxr
      · intro hh; exact hxp (by simp [mem_of_getLast? hh])
      · intro hh; exact hxp (by simp [mem_of_head? hh])

/-- Detaching all children of a node. -/
theorem clear (r : Repr D K) {p : Nat}
    (h1 : ∀ x, (D' x).parent = if x ∈ K p then none else (D x).parent)
    (h2 : ∀ x, (D' x).prev = if x ∈ K p then none else (D x).prev)
    (h3 : ∀ x, (D' x).next = if x ∈ K p then none else (D x).next)
    (h4 : ∀ x, (D' x).first = if x = p then none else (D x).first)
    (h5 : ∀ x, (D' x).last = if x = p then none else (D x).last)
    (h6 : ∀ x, (D' x).count = if x = p then 0 else (D x).count) :
    Repr D' (upd K p []) := by
  constructor
  · intro x; rw [h4]; unfold upd; split <;> simp_all [r.first]
  · intro x; rw [h5]; unfold upd; split <;> simp_all [r.last]
  · intro x; rw [h6]; unfold upd; split <;> simp_all [r.count]
  · intro x; unfold upd; split
    · simp
    · exact r.nodup x
  · intro q l1 x l2 e
    unfold upd at e
    split at e
    · simp at e
    · rename_i hq
      have hxq : x ∈ K q := by rw [e]; simp
      have hxp : x ∉ K p := fun hh => hq (r.unique hxq hh)
      rw [h1, h2, h3, if_neg hxp, if_neg hxp, if_neg hxp]
      exact r.sib q l1 x l2 e
  · intro x hx
    rw [h1, h2, h3]
    by_cases hxp : x ∈ K p
    · simp [hxp]
    · rw [if_neg hxp, if_neg hxp, if_neg hxp]
      refine r.root x fun q hq => ?_
      refine hx q ?_
      unfold upd
      split
      · rename_i e; subst e; exact absurd hq hxp
      · exact hq

end Repr

/-! ## Renaming -/

/-- Node data with all node names changed. -/
def NodeData.rename (s : Nat → Nat) (d : NodeData) : NodeData :=
  { first := d.first.map s, last := d.last.map s, count := d.count, parent := d.parent.map s,
    prev := d.prev.map s, next := d.next.map s }

theorem Repr.rename {D D' : Nat → NodeData} {K : Nat → List Nat} (r : Repr D K) {s : Nat → Nat}
    (hs : ∀ x, s (s x) = x) (h : ∀ x, D' x = (D (s x)).rename s) :
    Repr D' (fun x => (K (s x)).map s) := by
  have hinj : Function.Injective s := by
    intro x y e
    have := congrArg s e
    rwa [hs, hs] at this
  have hmem : ∀ x q, x ∈ (K (s q)).map s ↔ s x ∈ K (s q) := by
    intro x q
    constructor
    · intro hx
      obtain ⟨y, hy, rfl⟩ := List.mem_map.1 hx
      rwa [hs]
    · intro hx
      exact List.mem_map.2 ⟨s x, hx, hs x⟩
  constructor
  · intro n; rw [h]; simp [NodeData.rename, r.first]
  · intro n; rw [h]; simp [NodeData.rename, r.last]
  · intro n; rw [h]; simp [NodeData.rename, r.count]
  · intro n
    exact List.Pairwise.map s (fun a b hab hh => hab (hinj hh)) (r.nodup (s n))
  · intro p l1 n l2 e
    have e' : K (s p) = l1.map s ++ s n :: l2.map s := by
      have := congrArg (List.map s) e
      rw [List.map_map] at this
      have hid : s ∘ s = id := by funext x; simp [hs]
      rw [hid] at this
      simpa using this
    have := r.sib _ _ _ _ e'
    rw [h]
    simp only [NodeData.rename, this]
    have hid : ∀ o : Option Nat, (o.map s).map s = o := by intro o; cases o <;> simp [hs]
    simp [hs, hid]
  · intro n hn
    have := r.root (s n) (fun q hq => hn (s q) (by rw [hmem, hs]; exact hq))
    rw [h]
    simp [NodeData.rename, this]

end Verif.Hier
