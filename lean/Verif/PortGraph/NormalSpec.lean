import Verif.PortGraph.Spec

/-!
# The same graph in the same order

Two graphs in memory that differ only in gaps: the nodes in order of their numbers correspond, and so do
the ports. Stated with the queries of the code.
-/

namespace Verif.PG

open Verif (Direction)

/-- `ρ` takes the nodes of `g` to those of `g'` and `π` the ports, both keeping the order of numbers; port counts,
positions of ports and links correspond. -/
structure PG.OrderIso (ρ π : Nat → Nat) (g g' : PG) : Prop where
  nodes : ∀ n', g'.containsNode n' = true ↔ ∃ n, g.containsNode n = true ∧ ρ n = n'
  ports : ∀ p', g'.containsPort p' = true ↔ ∃ p, g.containsPort p = true ∧ π p = p'
  nodeOrder : ∀ a b, g.containsNode a = true → g.containsNode b = true → a < b → ρ a < ρ b
  portOrder : ∀ a b, g.containsPort a = true → g.containsPort b = true → a < b → π a < π b
  counts : ∀ n d, g.containsNode n = true → g'.numPorts (ρ n) d = g.numPorts n d
  index : ∀ n d k p, g.portIndex n d k = some p → g'.portIndex (ρ n) d k = some (π p)
  link : ∀ p, g.containsPort p = true → g'.portLink? (π p) = (g.portLink? p).map (Option.map π)

end Verif.PG
