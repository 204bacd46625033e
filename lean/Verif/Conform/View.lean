import Verif.Conform.Multi
import Verif.View.Model
import Verif.View.Props
import Verif.Multi.View
import Verif.Boundary.Model

/-!
# The tests of `src/view/subgraph.rs`, `src/view/region.rs` and `src/view/flat_region.rs`
-/

namespace Verif.Conform

open Verif (Direction)
open Verif.PG Verif.Multi Verif.CopyIn Verif.View Verif.Hier

/-! ## `src/view/subgraph.rs`, lines 412–end -/

/-- `graph`. -/
def subGraph : Option PG := do
  let (n0, g) ← add PG.empty 0 2
  let (n1, g) ← add g 1 2
  let (n2, g) ← add g 1 2
  let (n3, g) ← add g 0 1
  let (n4, g) ← add g 3 0
  let (n5, g) ← add g 2 0
  let g ← linkN g n0 0 n1 0
  let g ← linkN g n0 1 n2 0
  let g ← linkN g n3 0 n4 0
  let g ← linkN g n1 0 n4 1
  let g ← linkN g n2 1 n4 2
  let g ← linkN g n1 1 n5 0
  linkN g n2 0 n5 1

/-- A port graph as a view; the capacities are those the caller likes. -/
def view (g : PG) : GView Nat := ofPG g 20 100

/-- `internal_nodes` as a set, and `nodes_iter` of `new_subgraph`. -/
def inner (g : PG) (ins outs : List Nat) : Option (List Nat) := (view g).newSubgraph ⟨ins, outs⟩

/-- `test_traverse_subgraph_single_node`. -/
def travSingle : Option Unit := do
  let g ← subGraph
  same (← inner g (g.ports 1 .incoming) (g.ports 1 .outgoing)) [1]
  same (Boundary.ports ⟨g.ports 1 .incoming, g.ports 1 .outgoing⟩).length 3

example : travSingle = some () := by decide +kernel

/-- `test_traverse_subgraph_all_but_one_edge`. -/
def travAllButOne : Option Unit := do
  let g ← subGraph
  same (← inner g [← output g 1 0] [← input g 4 1]) (← nodesL g)

example : travAllButOne = some () := by decide +kernel

/-- `test_traverse_subgraph_basic`. -/
def travBasic : Option Unit := do
  let g ← subGraph
  same (← inner g (g.ports 1 .incoming ++ g.ports 2 .incoming) [← output g 1 0, ← output g 2 1]) [1, 2, 5]

example : travBasic = some () := by decide +kernel

/-- `test_traverse_subgraph_almost_complete`. -/
def travAlmost : Option Unit := do
  let g ← subGraph
  same (← inner g [← input g 1 0, ← input g 4 2, ← input g 5 1] [← output g 0 0, ← output g 2 1, ← output g 2 0])
    [0, 1, 2, 3, 4, 5]

example : travAlmost = some () := by decide +kernel

/-- `test_traverse_subgraph_complete`. -/
def travComplete : Option Unit := do
  let g ← subGraph
  same (← inner g [] []) (← nodesL g)

example : travComplete = some () := by decide +kernel

/-- `test_with_nodes`. -/
def subWithNodes : Option Unit := do
  let g ← subGraph
  let B : Boundary := ⟨[← input g 1 0, ← input g 2 0, ← input g 4 0], [← output g 1 1, ← output g 2 0]⟩
  same ((view g).withNodes [1, 2, 4]) (← (view g).newSubgraph B, B)

example : subWithNodes = some () := by decide +kernel

/-- The checks for one node made in all these tests. -/
def checkView {E : Type} (G : GView E) (n i o : Nat) : Option Unit := do
  assert (G.containsNode n)
  same (G.ports n .incoming).length i
  same (G.ports n .outgoing).length o
  same (G.numPorts n .incoming) i
  same (G.numPorts n .outgoing) o
  same (G.allPorts n).length (i + o)
  for d in [Direction.incoming, .outgoing] do
    for x in (G.ports n d).zipIdx do
      same (G.portDirection x.1) (some d)
      same (G.portOffset x.1) (some (d, x.2))
      same (G.portNode x.1) (some n)
      same (G.portIndex n d x.2) (some x.1)

/-- `test_properties`. -/
def subProperties : Option Unit := do
  let g ← subGraph
  let G := view g
  let S := G.subgraph (G.withNodes [1, 2, 4]).1
  let o1 ← S.portIndex 1 .outgoing 0
  let o2 ← S.portIndex 2 .outgoing 1
  let i1 ← S.portIndex 4 .incoming 1
  let i2 ← S.portIndex 4 .incoming 2
  same S.isEmpty false
  same S.nodeCount 3
  same S.nodeCapacity (G.nodeCapacity - 3)
  same S.portCount 9
  same S.portCapacity (G.portCapacity - 5)
  assert (!S.containsNode 0)
  assert (!S.containsPort (← output g 0 0))
  assert (S.containsPort o1)
  checkView S 1 1 2
  same S.nodes [1, 2, 4]
  same S.portsIter.length S.portCount
  same (S.getConnections 1 4) [(o1, i1)]
  same S.linkCount 2
  same (S.neighbours 1 .outgoing) [4]
  same (S.links 1 .outgoing) [(o1, i1)]
  same (S.portLinks o1) [(o1, i1)]
  same (S.allLinks 4) [(i1, o1), (i2, o2)]
  same (S.getConnections 0 1) []
  same (S.allNeighbours 4) [1, 2]
  let M := ofMG (MG.ofGraph g) 20 100
  let S := M.subgraph (M.withNodes [1, 2, 4]).1
  same (S.allSubports 1) (M.allSubports 1)
  same (S.subports 4 .incoming) (M.subports 4 .incoming)
  same (S.subportLink (o1, 0)) (M.subportLink (o1, 0))

example : subProperties = some () := by decide +kernel

/-- `is_convex` of the subgraph within a boundary. -/
def subConvex (g : PG) (ins outs : List Nat) : Option Bool := do
  subgraphIsConvex g (← inner g ins outs) ⟨ins, outs⟩

/-- `test_is_convex`. -/
def subIsConvex : Option Unit := do
  let g ← subGraph
  same (← subConvex g (g.ports 1 .incoming) (g.ports 1 .outgoing)) true
  same (← subConvex g [← input g 4 1] [← output g 1 0]) false
  same (← subgraphIsConvex g [0] ((view g).withNodes [0]).2) true
  same (← subConvex g [← input g 1 0, ← input g 4 2, ← input g 5 1] [← output g 0 0, ← output g 2 1, ← output g 2 0]) false

example : subIsConvex = some () := by decide +kernel

/-- `test_is_convex_line`. -/
def subIsConvexLine : Option Unit := do
  let (n0, g) ← add PG.empty 0 1
  let (n1, g) ← add g 1 1
  let (n2, g) ← add g 1 0
  let g ← linkN g n0 0 n1 0
  let g ← linkN g n1 0 n2 0
  let B ← (view g).fromPorts [← output g n0 0, ← input g n2 0]
  same (← (view g).newSubgraph B) [n0, n2]
  same (← subgraphIsConvex g [n0, n2] B) false

example : subIsConvexLine = some () := by decide +kernel

/-- `test_disconnected_components`. -/
def subDisconnected : Option Unit := do
  let (n0, g) ← add PG.empty 0 1
  let (n1, g) ← add g 1 0
  let g ← linkN g n0 0 n1 0
  let (n2, g) ← add g 0 1
  let (n3, g) ← add g 1 1
  let g ← linkN g n2 0 n3 0
  let G := view g
  let B ← G.fromPorts []
  same (← G.newSubgraph B) [n0, n1, n2, n3]
  same (G.withNodes [n0, n1, n2, n3]).2 B
  let B ← G.fromPorts [← output g n0 0]
  same (← G.newSubgraph B) [n0]
  same (G.withNodes [n0]).2 B
  let B ← G.fromPorts [← output g n0 0, ← input g n3 0]
  same (← G.newSubgraph B) [n0, n3]
  same (G.withNodes [n0, n3]).2 B
  let B ← G.fromPorts [← output g n3 0]
  same (← G.newSubgraph B) [n2, n3]
  same (G.withNodes [n2, n3]).2 (← G.fromPorts [])

example : subDisconnected = some () := by decide +kernel

/-- `assert_same_for_nodes`. -/
def sameForNodes {E F : Type} (G : GView E) (H : GView F) (nodes : List Nat) : Option Unit := do
  for n in nodes do
    same (G.numPorts n .incoming) (H.numPorts n .incoming)
    same (G.numPorts n .outgoing) (H.numPorts n .outgoing)
    same ((G.allLinks n).map fun l => (G.toPort l.1, G.toPort l.2)) ((H.allLinks n).map fun l => (H.toPort l.1, H.toPort l.2))

/-- `test_copy_in_parent`, for an order of the hash map. -/
def copyTest (order undo : List (Nat × Nat) → List (Nat × Nat)) : Option Unit := do
  let (n0, g) ← add PG.empty 0 1
  let (n1, g) ← add g 2 1
  let g ← linkN g n0 0 n1 0
  let g ← linkN g n1 0 n1 1
  let (n2, g) ← add g 0 1
  let (n3, g) ← add g 1 0
  let g ← linkN g n2 0 n3 0
  match ← copyInParent (pgHost maxOff) order undo [n0, n1] g with
  | (.error _, _) => none
  | (.ok M, h) =>
    same h.nodeCount 6
    let c0 ← M.lookup n0
    let c1 ← M.lookup n1
    same M.length 2
    same (← linksL h c1 .incoming) [(← input h c1 0, ← output h c0 0), (← input h c1 1, ← output h c1 0)]
    sameForNodes (view g) (view h) (view g).nodes

example : copyTest id id = some () ∧ copyTest List.reverse id = some () := by decide +kernel

/-- `test_copy_in_parent_bad_boundary`. -/
def copyBad (d : Direction) (order undo : List (Nat × Nat) → List (Nat × Nat)) : Option Unit := do
  let (n0, g) ← add PG.empty 0 1
  let (n1, g) ← add g 1 1
  let (n2, g) ← add g 1 0
  let g ← linkN g n0 0 n1 0
  let g ← linkN g n1 0 n2 0
  let (nodes, i, e) ← if d = .incoming then do pure ([n1, n2], ← input g n1 0, ← output g n0 0)
    else do pure ([n0, n1], ← output g n1 0, ← input g n2 0)
  match ← copyInParent (pgHost maxOff) order undo nodes g with
  | (.ok _, _) => none
  | (.error err, h) =>
    same err (.cantCopyBoundary i e)
    same (← nodesL h) (← nodesL g)
    sameForNodes (view h) (view g) (view g).nodes

example : copyBad .incoming id id = some () ∧ copyBad .incoming List.reverse List.reverse = some () ∧
    copyBad .outgoing id id = some () ∧ copyBad .outgoing List.reverse List.reverse = some () := by decide +kernel

/-- The graph of the next two tests. -/
def copyLine : Option (Nat × Nat × Nat × MG) := do
  let (n0, m) ← addM MG.empty 0 1
  let (n1, m) ← addM m 1 1
  let (n2, m) ← addM m 1 0
  let m ← linkMN m n0 0 n1 0
  let m ← linkMN m n1 0 n2 0
  some (n0, n1, n2, m)

/-- The links as pairs of ports. -/
def pairs (m : MG) (n : Nat) : Option (List (Nat × Nat)) := do return (← mallLinks m n).map fun l => (l.1.1, l.2.1)

/-- `test_copy_in_parent_multi_input`. -/
def copyMultiInput (order undo : List (Nat × Nat) → List (Nat × Nat)) : Option Unit := do
  let (n0, n1, n2, m) ← copyLine
  match ← copyInParent (mgHost maxOff) order undo [n1, n2] m with
  | (.error _, _) => none
  | (.ok M, h) =>
    let inEdge n := h.graph.portIndex n .incoming 0
    let outEdge n := h.graph.portIndex n .outgoing 0
    same h.nodeCount 5
    same M.length 2
    let c1 ← M.lookup n1
    let c2 ← M.lookup n2
    sameForNodes (ofMG h 20 100) (ofMG m 20 100) [n1, n2]
    same (← pairs h c2) [(← inEdge c2, ← outEdge c1)]
    same (← pairs h n0) [(← outEdge n0, ← inEdge n1), (← outEdge n0, ← inEdge c1)]

example : copyMultiInput id id = some () ∧ copyMultiInput List.reverse id = some () := by decide +kernel

/-- `test_copy_in_parent_multi_output`. -/
def copyMultiOutput (order undo : List (Nat × Nat) → List (Nat × Nat)) : Option Unit := do
  let (n0, n1, n2, m) ← copyLine
  match ← copyInParent (mgHost maxOff) order undo [n0, n1] m with
  | (.error _, _) => none
  | (.ok M, h) =>
    let inEdge n := h.graph.portIndex n .incoming 0
    let outEdge n := h.graph.portIndex n .outgoing 0
    same h.nodeCount 5
    same M.length 2
    let c1 ← M.lookup n1
    let c0 ← M.lookup n0
    sameForNodes (ofMG h 20 100) (ofMG m 20 100) [n0, n1]
    same (← pairs h c0) [(← outEdge c0, ← inEdge c1)]
    same (← pairs h n2) [(← inEdge n2, ← outEdge n1), (← inEdge n2, ← outEdge c1)]

example : copyMultiOutput id id = some () ∧ copyMultiOutput List.reverse id = some () := by decide +kernel

/-! ## `src/view/region.rs`, lines 314–end, and `src/view/flat_region.rs`, lines 283–end -/

/-- A `Region`: its nodes, and the answers of `is_descendant` given by a fresh cache. -/
def region {E : Type} (G : GView E) (h : Hierarchy) (root : Nat) : Option (GView E) := do
  let inside n := ((isDescendant h root (Cache.new root) n).map (·.1)).getD false
  return G.region inside (← regionNodes h root 100)

/-- `single_node_region` of both files. -/
def regionSingle : Option Unit := do
  let (root, g) ← add PG.empty 0 0
  let R ← region (view g) Hierarchy.new root
  same [R.nodeCount, R.portCount] [1, 0]
  let R := (view g).flatRegion Hierarchy.new root true
  same [R.nodeCount, R.portCount] [1, 0]

example : regionSingle = some () := by decide +kernel

/-- The graph and the hierarchy of the other tests. -/
def regionGraph : Option (PG × Hierarchy) := do
  let (other, g) ← add PG.empty 42 0
  let (root, g) ← add g 1 0
  let (a, g) ← add g 1 2
  let (b, g) ← add g 0 0
  let (c, g) ← add g 0 0
  let g ← linkN g a 0 other 0
  let g ← linkN g a 1 root 0
  let h ← ok (Hierarchy.new.pushChild root other)
  let h ← ok (h.pushChild a root)
  let h ← ok (h.pushChild b root)
  let h ← ok (h.pushChild c b)
  same [other, root, a, b, c] [0, 1, 2, 3, 4]
  some (g, h)

/-- The checks common to the tests: the nodes and the number of ports. -/
def regionChecks (g : PG) (R : GView Nat) (nodes : List Nat) (ports : Nat) : Option Unit := do
  same R.isEmpty false
  same R.nodeCount nodes.length
  same R.portCount ports
  same R.nodeCapacity ((view g).nodeCapacity - (5 - nodes.length))
  same R.portCapacity ((view g).portCapacity - (46 - ports))
  assert (!R.containsNode 0)
  same (R.containsNode 4) (nodes.contains 4)
  same (R.containsNode 1) (nodes.contains 1)
  assert (!R.containsPort (← input g 0 10))
  assert (R.containsPort (← output g 2 0))
  checkView R 2 1 2
  same R.nodes nodes
  same R.portsIter.length R.portCount

/-- The checks of the links of a region with its root. -/
def regionLinks (R : GView Nat) : Option Unit := do
  let o ← R.portIndex 2 .outgoing 1
  let i ← R.portIndex 1 .incoming 0
  same R.linkCount 1
  same (R.neighbours 2 .outgoing) [1]
  same (R.links 2 .outgoing) [(o, i)]
  same (R.portLinks o) [(o, i)]
  same (R.allLinks 1) [(i, o)]
  same (R.getConnections 2 1) [(o, i)]
  same (R.getConnections 3 2) []
  same (R.allNeighbours 1) [2]

/-- The checks of the subports. -/
def regionSubports (M R : GView Subport) : Option Unit := do
  let o ← M.portIndex 2 .outgoing 1
  same (R.allSubports 2) (M.allSubports 2)
  same (R.subports 2 .incoming) (M.subports 2 .incoming)
  same (R.subportLink (o, 0)) (M.subportLink (o, 0))

/-- `simple_region`. -/
def regionSimple : Option Unit := do
  let (g, h) ← regionGraph
  let R ← region (view g) h 1
  regionChecks g R [1, 2, 3, 4] 4
  regionLinks R
  let M := ofMG (MG.ofGraph g) 20 100
  regionSubports M (← region M h 1)

example : regionSimple = some () := by decide +kernel

/-- `simple_flat_region`. -/
def flatSimple : Option Unit := do
  let (g, h) ← regionGraph
  let R := (view g).flatRegion h 1 true
  regionChecks g R [1, 2, 3] 4
  regionLinks R
  let M := ofMG (MG.ofGraph g) 20 100
  regionSubports M (M.flatRegion h 1 true)

example : flatSimple = some () := by decide +kernel

/-- `simple_flat_region_no_root`. -/
def flatNoRoot : Option Unit := do
  let (g, h) ← regionGraph
  let R := (view g).flatRegion h 1 false
  regionChecks g R [2, 3] 3
  let o ← R.portIndex 2 .outgoing 1
  same R.linkCount 0
  same (R.neighbours 2 .outgoing) []
  same (R.links 2 .outgoing) []
  same (R.portLinks o) []
  same (R.getConnections 2 1) []
  same (R.getConnections 3 2) []
  same (R.allNeighbours 1) [2]
  let M := ofMG (MG.ofGraph g) 20 100
  regionSubports M (M.flatRegion h 1 true)

example : flatNoRoot = some () := by decide +kernel

end Verif.Conform
