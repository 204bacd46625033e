import Mathlib.Logic.Relation

/-!
# Specification of dominators

A graph is a relation `R` on nodes with an entry node `e`.
-/

namespace Verif.Algo.Dom

/-- Walks from the root, written backwards. -/
inductive Walk (R : Nat → Nat → Prop) (e : Nat) : List Nat → Nat → Prop where
  | root : Walk R e [e] e
  | step {l m n} : Walk R e l m → R m n → Walk R e (n :: l) n

/-- Every walk to `n` passes through `d`. -/
def Dominates (R : Nat → Nat → Prop) (e d n : Nat) : Prop := ∀ l, Walk R e l n → d ∈ l

/-- `d` is the immediate dominator of `n`: a strict dominator which all strict dominators
dominate. -/
def ImmDom (R : Nat → Nat → Prop) (e d n : Nat) : Prop :=
  d ≠ n ∧ Dominates R e d n ∧ ∀ c, c ≠ n → Dominates R e c n → Dominates R e c d

/-- The arcs between nodes reached from `e`, and arcs from `first` in place of those from nodes which
meet `ok` and are not reached. -/
def Taken (R : Nat → Nat → Prop) (ok : Nat → Prop) (e first m n : Nat) : Prop :=
  Relation.ReflTransGen R e n ∧ ((Relation.ReflTransGen R e m ∧ R m n) ∨
    (m = first ∧ ∃ x, ok x ∧ R x n ∧ ¬ Relation.ReflTransGen R e x))

end Verif.Algo.Dom
