import Verif.ViewAlgo.Spec
import Verif.Convex.Spec

/-!
# Convex subgraphs of a view
-/

namespace Verif.View

open Verif (Direction)

variable {E : Type}

/-- The subgraph with nodes `S` and boundary ports `inputs` and `outputs` is convex: every link of
the view on a path between two nodes of `S` is within the subgraph, i.e. it joins two nodes of `S`
and does not lead from an output port to an input port. -/
def GView.PortConvex (G : GView E) (S inputs outputs : List Nat) : Prop :=
  ∀ s ∈ S, ∀ t ∈ S, ∀ e f m n, Relation.ReflTransGen (G.ArcD .outgoing) s m → G.Shows e f → G.On e m → G.On f n →
    G.portDirection (G.toPort e) = some .outgoing → Relation.ReflTransGen (G.ArcD .outgoing) n t →
    m ∈ S ∧ n ∈ S ∧ ¬ (G.toPort e ∈ outputs ∧ G.toPort f ∈ inputs)

end Verif.View
