import Verif.Dyn.Model
import Verif.Algo.Order

/-!
# Specification of a dynamic topological order
-/

namespace Verif.Dyn

open Verif (Direction)
open Verif.PG
open Verif.Algo
open Verif.Convex

/-- The order lists every node once and each arc goes forward; the map gives the positions in it. -/
structure Valid (D : TSort) (V : Nat → Prop) (R : Nat → Nat → Prop) : Prop where
  nodup : D.order.Nodup
  mem : ∀ n, n ∈ D.order ↔ V n
  pos : ∀ n i, D.pos n = some i ↔ D.order[i]? = some n
  forward : ∀ a b, R a b → Before D.order a b

/-- The arcs `R` and the arc from `a` to `b`. -/
def Plus (R : Nat → Nat → Prop) (a b : Nat) (x y : Nat) : Prop := R x y ∨ (x = a ∧ y = b)

/-- The graph has the arcs `R`, and possibly the arc from `a` to `b` in addition: it is the graph
before or after the insertion of this arc. -/
structure Shows (G : View) (R : Nat → Nat → Prop) (a b : Nat) : Prop where
  wf : G.WF
  old : ∀ x y, R x y → VArc G .outgoing x y
  new : ∀ x y, VArc G .outgoing x y → Plus R a b x y

end Verif.Dyn
