import Verif.Algo.View
import Mathlib.Logic.Relation

/-!
# Specification of convexity
-/

namespace Verif.Convex

open Verif (Direction)
open Verif.PG
open Verif.Algo

/-- No path between two nodes of `S` leaves `S`. -/
def Convex (R : Nat → Nat → Prop) (S : List Nat) : Prop :=
  ∀ s ∈ S, ∀ t ∈ S, ∀ x, Relation.ReflTransGen R s x → Relation.ReflTransGen R x t → x ∈ S

/-- The link from port `p` of node `m` to port `q` of node `n`, in outgoing direction. -/
def Link (g : PG) (m p q n : Nat) : Prop :=
  p ∈ g.ports m .outgoing ∧ g.portLink? p = some (some q) ∧ q ∈ g.ports n .incoming

/-- The subgraph with nodes `S` and boundary ports `inputs` and `outputs` is convex: every link on
a path between two nodes of `S` is within the subgraph, i.e. it joins two nodes of `S` and does
not lead from an output port to an input port. -/
def PortConvex (g : PG) (S inputs outputs : List Nat) : Prop :=
  ∀ s ∈ S, ∀ t ∈ S, ∀ m p q n, Relation.ReflTransGen (Arc g .outgoing) s m → Link g m p q n →
    Relation.ReflTransGen (Arc g .outgoing) n t → m ∈ S ∧ n ∈ S ∧ ¬ (p ∈ outputs ∧ q ∈ inputs)

end Verif.Convex
