import Verif.View.Spec
import Mathlib.Data.List.Chain

/-!
# Longest paths and partitions of the links into paths
-/

namespace Verif.View

open Verif (Direction)

variable {E : Type}

/-- The longest path that ends in `n` has `k` steps. -/
def LongestTo (R : Nat → Nat → Prop) (n k : Nat) : Prop :=
  (∃ path : List Nat, path.IsChain R ∧ path.getLast? = some n ∧ path.length = k + 1) ∧
    ∀ path : List Nat, path.IsChain R → path.getLast? = some n → path.length ≤ k + 1

/-- The links lead from the node `s` one after the other. -/
def GView.Trail (G : GView E) : Nat → List (E × E) → Prop
  | _, [] => True
  | s, (e, f) :: r => G.On e s ∧ ∃ m, G.On f m ∧ G.Trail m r

/-- A partition of the links into paths, each given by its first node and its links: every link is
on exactly one path, once, and every node is on a path. -/
structure GView.IntoPaths (G : GView E) (P : List (Nat × List (E × E))) : Prop where
  trail : ∀ x ∈ P, G.Trail x.1 x.2
  links : G.ListsLinks (P.flatMap (·.2))
  nodes : ∀ n, G.containsNode n = true → ∃ x ∈ P, x.1 = n ∨ ∃ l ∈ x.2, G.On l.2 n

/-- The nodes on a path. -/
def GView.visits (G : GView E) (x : Nat × List (E × E)) : List Nat := x.1 :: x.2.filterMap fun l => G.portNode (G.toPort l.2)

end Verif.View
