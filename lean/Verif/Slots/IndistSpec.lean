import Verif.Undo.Spec

/-!
# Which port graphs a client can tell apart

A client makes calls, reads their answers, notices panics, and asks four queries. (More queries are not
needed to tell graphs apart.)
-/

namespace Verif.Slots

open Verif (Direction)
open Verif.PG

/-- The two graphs answer `contains_node`, `port_index`, `port_link` and `node_port_capacity` alike. -/
structure SameQueries (g h : PG) : Prop where
  nodes : ∀ n, g.containsNode n = h.containsNode n
  ports : ∀ n d k, g.portIndex n d k = h.portIndex n d k
  links : ∀ p, g.portLink? p = h.portLink? p
  caps : ∀ n, g.nodePortCapacity n = h.nodePortCapacity n

/-- No sequence of calls tells the two graphs apart: it panics on both, or it gives the same answers on both
and leaves graphs which answer queries alike. -/
def Indist (maxOff : Nat) (g h : PG) : Prop :=
  ∀ ops : List PG.Op,
    (Undo.askAll maxOff g ops = none ∧ Undo.askAll maxOff h ops = none) ∨
    ∃ as g' h', Undo.askAll maxOff g ops = some (as, g') ∧ Undo.askAll maxOff h ops = some (as, h') ∧ SameQueries g' h'

end Verif.Slots
