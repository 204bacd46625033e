import Verif.Equality.Model

/-!
# When two things look the same
-/

namespace Verif.Equality

open Verif (Direction)
open Verif.Hier Verif.PG

/-- Two graphs have the same nodes, the same ports at the same places, and the same links. -/
structure SameShape (a b : PG) : Prop where
  node : ∀ n, a.containsNode n = b.containsNode n
  port : ∀ n d k, a.portIndex n d k = b.portIndex n d k
  link : ∀ p, a.portLink? p = b.portLink? p

/-- The calls that build a graph without ever giving up a node or a port. -/
def Building : PG.Op → Prop
  | .addNode _ _ | .linkPorts _ _ | .unlinkPort _ | .clear => True
  | _ => False

/-- The graphs built by such calls only. -/
inductive Built (maxOff : Nat) : PG → Prop
  | init : Built maxOff PG.empty
  | step {g g' : PG} {op : PG.Op} : Built maxOff g → Building op → g.step maxOff op = some g' → Built maxOff g'

/-- What a region has gone through: some questions asked. -/
inductive Asked : Region → Region → Prop
  | refl (r : Region) : Asked r r
  | step {r s t : Region} {n : Nat} {b : Bool} : Asked r s → s.isDescendant n = some (b, t) → Asked r t

end Verif.Equality
