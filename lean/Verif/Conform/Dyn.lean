import Verif.Conform.Algo
import Verif.Dyn.Model

/-!
# The tests of `src/algorithms/dynamic.rs`, lines 516–end
-/

namespace Verif.Conform

open Verif (Direction)
open Verif.PG Verif.Algo Verif.Dyn

/-- `with_graph`. -/
def dyn (g : PG) : Option TSort := TSort.withGraph (Algo.ofPG g)

/-- `connect_nodes(..).unwrap()`. -/
def connectD (D : TSort) (g : PG) (a b : Nat) : Option TSort := do
  match ← D.connectNodes (Algo.ofPG g) a b with
  | .ok D => some D
  | .error _ => none

/-- `remove_node(..).unwrap()`. -/
def removeD (D : TSort) (n : Nat) : Option TSort := do
  match ← D.removeNode n with
  | .ok D => some D
  | .error _ => none

/-- `disconnect_nodes(..).unwrap()`. -/
def disconnectD (D : TSort) (a b : Nat) : Option TSort :=
  match D.disconnectNodes a b with
  | .ok D => some D
  | .error _ => none

/-- The expected error. -/
def failsD (r : Except Err TSort) (e : Err) : Option Unit :=
  match r with
  | .ok _ => none
  | .error x => same x e

/-- `is_valid_topological_order`. -/
def validD (D : TSort) (g : PG) : Option Unit := do
  for n in D.order do
    let a ← D.pos n
    for m in Convex.neighbours (Algo.ofPG g) n .outgoing do
      let b ← D.pos m
      assert (a < b)

/-- `order.iter().position(..).unwrap()`. -/
def posD (D : TSort) (n : Nat) : Option Nat := D.order.findIdx? (· == n)

/-- `test_convex_with_ports`. -/
def dynConvexWithPorts : Option Unit := do
  let g ← make [(0, 1), (1, 1), (1, 0)] [(0, 0, 1, 0), (1, 0, 2, 0)]
  let c ← Checker.new g
  same (← c.isConvex [1] [← input g 1 0] [← output g 1 0]) true
  same (← c.isConvex [0, 2] [← output g 0 0] [← input g 2 0]) false

example : dynConvexWithPorts = some () := by decide +kernel

/-- `test_basic_linear_order`. -/
def dynLinear : Option Unit := do
  let g ← make [(0, 1), (1, 1), (1, 0)] [(0, 0, 1, 0), (1, 0, 2, 0)]
  let D ← dyn g
  same D.order [0, 1, 2]
  validD D g

example : dynLinear = some () := by decide +kernel

/-- `test_reordering`. -/
def dynReordering : Option Unit := do
  let g ← make [(1, 0), (0, 1), (0, 0)] []
  let D ← dyn g
  same D.order [0, 1, 2]
  let D ← connectD D g 1 0
  let g ← linkN g 1 0 0 0
  same D.order [1, 0, 2]
  validD D g

example : dynReordering = some () := by decide +kernel

/-- `test_indirect_cycle`. -/
def dynIndirectCycle : Option Unit := do
  let g ← make [(0, 1), (1, 1), (1, 1), (1, 0)] [(0, 0, 1, 0), (1, 0, 2, 0), (2, 0, 3, 0)]
  let D ← dyn g
  failsD (← D.connectNodes (Algo.ofPG g) 3 0) (.wouldCreateCycle 3 0)
  same D.order [0, 1, 2, 3]
  validD D g

example : dynIndirectCycle = some () := by decide +kernel

/-- `test_multiple_paths`. -/
def dynMultiplePaths : Option Unit := do
  let g ← make [(0, 2), (1, 1), (1, 1), (2, 0)] [(0, 0, 1, 0), (0, 1, 2, 0), (1, 0, 3, 0), (2, 0, 3, 1)]
  let D ← dyn g
  assert (D.order = [0, 1, 2, 3] || D.order = [0, 2, 1, 3])
  validD D g

example : dynMultiplePaths = some () := by decide +kernel

/-- `test_add_existing_node`. -/
def dynAddExisting : Option Unit := do
  let g ← make [(0, 0)] []
  let D ← dyn g
  same D.order [0]
  let D := D.addNode 0
  same D.order [0]
  validD D g

example : dynAddExisting = some () := by decide +kernel

/-- `test_connect_nodes_nonexistent_node`. -/
def dynConnectNonexistent : Option Unit := do
  let D ← dyn PG.empty
  failsD (← D.connectNodes (Algo.ofPG PG.empty) 0 1) (.invalidNode 0)

example : dynConnectNonexistent = some () := by decide +kernel

/-- `test_no_edges`. -/
def dynNoEdges : Option Unit := do
  let g ← make [(0, 0), (0, 0), (0, 0)] []
  let D ← dyn g
  same (View.toSet D.order) [0, 1, 2]
  validD D g

example : dynNoEdges = some () := by decide +kernel

/-- `test_disconnected_graph`. -/
def dynDisconnected : Option Unit := do
  let g ← make [(0, 1), (1, 0), (0, 1), (1, 0)] [(0, 0, 1, 0), (2, 0, 3, 0)]
  let D ← dyn g
  assert ((← posD D 0) < (← posD D 1))
  assert ((← posD D 2) < (← posD D 3))
  validD D g

example : dynDisconnected = some () := by decide +kernel

/-- `test_connecting_components`. -/
def dynConnecting : Option Unit := do
  let g ← make [(1, 1), (1, 0), (0, 1)] []
  let D ← dyn g
  let D ← connectD D g 0 1
  let g ← linkN g 0 0 1 0
  let D ← connectD D g 2 0
  let g ← linkN g 2 0 0 0
  assert ((← posD D 2) < (← posD D 0))
  assert ((← posD D 0) < (← posD D 1))
  validD D g

example : dynConnecting = some () := by decide +kernel

/-- `test_reorder_middle`. -/
def dynReorderMiddle : Option Unit := do
  let g ← make [(0, 1), (1, 1), (1, 1), (1, 0)] []
  let D ← dyn g
  let D ← connectD D g 0 2
  let g ← linkN g 0 0 2 0
  let D ← connectD D g 1 3
  let g ← linkN g 1 0 3 0
  let D ← connectD D g 2 1
  let g ← linkN g 2 0 1 0
  same D.order [0, 2, 1, 3]
  validD D g

example : dynReorderMiddle = some () := by decide +kernel

/-- `test_remove_node`. -/
def dynRemove : Option Unit := do
  let g ← make [(0, 1), (1, 1), (1, 0)] [(0, 0, 1, 0), (1, 0, 2, 0)]
  let D ← removeD (← dyn g) 1
  let g ← g.removeNode 1
  same D.order [0, 2]
  same (D.pos 1) none
  validD D g
  failsD (← D.removeNode 3) (.invalidNode 3)

example : dynRemove = some () := by decide +kernel

/-- `test_disconnect_nodes`. -/
def dynDisconnect : Option Unit := do
  let g ← make [(0, 1), (1, 1), (1, 0)] [(0, 0, 1, 0), (1, 0, 2, 0)]
  let D ← disconnectD (← dyn g) 0 1
  let (_, g) ← g.unlinkPort (← output g 0 0)
  same (← neighboursL g 0 .outgoing) []
  same (← neighboursL g 1 .outgoing) [2]
  validD D g
  let _ ← disconnectD D 0 2

example : dynDisconnect = some () := by decide +kernel

/-- `test_remove_isolated_node`. -/
def dynRemoveIsolated : Option Unit := do
  let g ← make [(0, 0), (0, 0), (0, 0)] []
  let D ← removeD (← dyn g) 1
  let g ← g.removeNode 1
  same D.order [0, 2]
  same (D.pos 1) none
  validD D g

example : dynRemoveIsolated = some () := by decide +kernel

/-- `test_remove_node_in_chain`. -/
def dynRemoveChain : Option Unit := do
  let g ← make [(0, 1), (1, 1), (1, 0)] [(0, 0, 1, 0), (1, 0, 2, 0)]
  let D ← removeD (← Checker.new g).topo 1
  let g ← g.removeNode 1
  same D.order [0, 2]
  same (D.pos 1) none
  validD D g

example : dynRemoveChain = some () := by decide +kernel

/-- `test_remove_node_with_multiple_edges`. -/
def dynRemoveMany : Option Unit := do
  let g ← make [(0, 1), (1, 2), (1, 1), (1, 0)] [(0, 0, 1, 0), (1, 0, 2, 0), (2, 0, 3, 0)]
  let D ← removeD (← Checker.new g).topo 1
  let g ← g.removeNode 1
  same D.order [0, 2, 3]
  same (D.pos 1) none
  validD D g

example : dynRemoveMany = some () := by decide +kernel

/-- `test_disconnect_edge_in_complex_graph`. -/
def dynDisconnectEdge : Option Unit := do
  let g ← make [(0, 2), (1, 1), (2, 0)] [(0, 0, 1, 0), (0, 1, 2, 0), (1, 0, 2, 1)]
  let D ← disconnectD (← Checker.new g).topo 0 1
  let (_, g) ← g.unlinkPort (← output g 0 0)
  same (← neighboursL g 0 .outgoing) [2]
  same (← neighboursL g 1 .outgoing) [2]
  same D.order [0, 1, 2]
  validD D g

example : dynDisconnectEdge = some () := by decide +kernel

/-- `test_sequence_of_operations`. -/
def dynSequence : Option Unit := do
  let g ← make [(0, 1), (1, 1), (1, 0)] [(0, 0, 1, 0), (1, 0, 2, 0)]
  let D ← removeD (← Checker.new g).topo 1
  let g ← g.removeNode 1
  same D.order [0, 2]
  let (n3, g) ← add g 1 0
  let D := D.addNode n3
  let g ← linkN g 0 0 n3 0
  let D ← connectD D g 0 n3
  same D.order [0, 2, n3]
  validD D g

example : dynSequence = some () := by decide +kernel

/-- `test_operations_on_empty_graph`. -/
def dynEmpty : Option Unit := do
  let D := (← Checker.new PG.empty).topo
  failsD (← D.removeNode 0) (.invalidNode 0)
  failsD (D.disconnectNodes 0 1) (.invalidNode 0)

example : dynEmpty = some () := by decide +kernel

/-- `test_convex_subgraph`. -/
def dynConvex : Option Unit := do
  let g ← make [(0, 2), (1, 1), (1, 1), (2, 0)] [(0, 0, 1, 0), (0, 1, 2, 0), (1, 0, 3, 0), (2, 0, 3, 1)]
  let c ← Checker.new g
  same (← c.isConvex [0, 3] [] []) false
  same (← c.isConvex [1, 2, 3] [] []) true
  same (← c.isConvex [0, 1, 3] [] []) false

example : dynConvex = some () := by decide +kernel

/-- `test_empty_or_invalid_subgraph`. -/
def dynConvexEmpty : Option Unit := do
  same (← (← Checker.new PG.empty).isConvex [] [] []) true
  let g ← make [(0, 0)] []
  same (← (← Checker.new g).isConvex [1] [] []) false

example : dynConvexEmpty = some () := by decide +kernel

end Verif.Conform
