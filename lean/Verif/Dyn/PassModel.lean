import Verif.Dyn.Model

/-!
# Graph calls that the dynamic convexity checker passes on

Model of the `delegate!` block of `src/algorithms/dynamic.rs` lines 372–382. `clear` is in
`Verif/Dyn/Model.lean`; `reserve` and `shrink_to_fit` only change capacities, which the graph model
leaves out.
-/

namespace Verif.Dyn.Checker

open Verif.PG

/-- `set_num_ports`, `src/algorithms/dynamic.rs` line 376; with the reported port operations. -/
def setNumPorts (c : Checker) (n inputs outputs : Nat) : Option (Checker × List (Nat × PortOp)) :=
  (c.graph.setNumPorts n inputs outputs).map fun x => (⟨c.topo, x.1⟩, x.2)

/-- `swap_nodes`, `src/algorithms/dynamic.rs` line 377. -/
def swapNodes (c : Checker) (a b : Nat) : Option Checker := (c.graph.swapNodes a b).map fun g => ⟨c.topo, g⟩

/-- `compact_nodes`, `src/algorithms/dynamic.rs` line 378; with the reported moves. -/
def compactNodes (c : Checker) : Option (Checker × List (Nat × Nat)) :=
  (c.graph.compactNodes).map fun x => (⟨c.topo, x.1⟩, x.2)

/-- `compact_ports`, `src/algorithms/dynamic.rs` line 379; with the reported moves. -/
def compactPorts (c : Checker) : Option (Checker × List (Nat × Nat)) :=
  (c.graph.compactPorts).map fun x => (⟨c.topo, x.1⟩, x.2)

end Verif.Dyn.Checker
