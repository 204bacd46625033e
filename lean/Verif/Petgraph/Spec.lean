import Verif.Petgraph.Model
import Verif.View.Spec

/-!
# What `petgraph` asks for

The documentation of the traits of `petgraph`, in terms of the links a view shows.
-/

namespace Verif.Pet

open Verif (Direction)
open Verif.View

variable {E : Type}

/-- A directed link of the view: from an outgoing port of `a` to a port of `b`. -/
def Edge (G : GView E) (a b : Nat) (e f : E) : Prop :=
  G.Shows e f ∧ G.portDirection (G.toPort e) = some .outgoing ∧ G.On e a ∧ G.On f b

/-- The calls of a traversal on its visit map. -/
inductive Call where
  | visit (a : Nat)
  | unvisit (a : Nat)
  | reset
deriving DecidableEq

/-- The map after a call. -/
def Call.apply (m : List Bool) : Call → List Bool
  | .visit a => (Pet.visit m a).2
  | .unvisit a => (Pet.unvisit m a).2
  | .reset => resetMap m

/-- The node was visited, and not unvisited later. -/
def Marked (cs : List Call) (a : Nat) : Prop :=
  ∃ before after, cs = before ++ .visit a :: after ∧ Call.unvisit a ∉ after ∧ Call.reset ∉ after

end Verif.Pet
