import Verif.Boundary.Spec
import Verif.Algo.TopoModel

/-!
# Arcs of a view

The relations between nodes in which the properties of the traversals of arbitrary views are
stated.
-/

namespace Verif.View

open Verif (Direction)
open Verif.Algo

variable {E : Type}

/-- A link of the view leads from a `d` port of `m` to a port of `n`. -/
def GView.ArcD (G : GView E) (d : Direction) (m n : Nat) : Prop :=
  ∃ e f, G.Shows e f ∧ G.On e m ∧ G.On f n ∧ G.portDirection (G.toPort e) = some d

/-- A link as before for which the filters accept both ports and the target node. -/
def GView.FArc (G : GView E) (F : Filter) (d : Direction) (n m : Nat) : Prop :=
  ∃ e f, G.Shows e f ∧ G.On e n ∧ G.On f m ∧ G.portDirection (G.toPort e) = some d ∧
    F.port n (G.toPort e) = true ∧ F.node m = true ∧ F.port m (G.toPort f) = true

/-- The same for the first link of a port only. -/
def GView.FirstArc (G : GView E) (F : Filter) (d : Direction) (n m : Nat) : Prop :=
  ∃ p ∈ G.ports n d, ∃ e f, (G.portLinks p).head? = some (e, f) ∧ G.On f m ∧
    F.port n p = true ∧ F.node m = true ∧ F.port m (G.toPort f) = true

end Verif.View
