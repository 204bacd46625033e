import Verif.Boundary.Model
import Verif.View.Spec
import Mathlib.Logic.Relation

/-!
# What a port order says
-/

namespace Verif.View

open Verif (Direction)

variable {E : Type}

/-- The view shows a link from an outgoing port of `m` to a port of `n`. -/
def GView.Arc (G : GView E) (m n : Nat) : Prop :=
  ∃ e f, G.Shows e f ∧ G.On e m ∧ G.On f n ∧ G.portDirection (G.toPort e) = some .outgoing

/-- There is a path from the node of port `p` to the node of port `q`. -/
def GView.Leads (G : GView E) (p q : Nat) : Prop :=
  ∃ m n, G.portNode p = some m ∧ G.portNode q = some n ∧ Relation.ReflTransGen G.Arc m n

/-- The order relates the `i`-th input to the `o`-th output. -/
def Ordering.Has (O : Ordering) (i o : Nat) : Prop := ∃ l, O.reachable[i]? = some l ∧ o ∈ l

/-- The two fields of an order hold the same pairs. -/
def Ordering.Consistent (O : Ordering) : Prop := ∀ i o, O.Has i o ↔ ∃ l, O.reaching[o]? = some l ∧ i ∈ l

/-- Two orders have the same numbers of inputs and outputs. -/
def Ordering.Compatible (O O' : Ordering) : Prop :=
  O.reachable.length = O'.reachable.length ∧ O.reaching.length = O'.reaching.length

end Verif.View
