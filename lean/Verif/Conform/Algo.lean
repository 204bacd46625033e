import Verif.Conform.View
import Verif.Algo.DomModel
import Verif.Lca.Model
import Verif.Convex.LineProps
import Verif.Convex.LineOps
import Verif.ViewAlgo.LineModel
import Verif.Boundary.AccessModel

/-!
# The tests of `src/algorithms` (without `dynamic.rs`) and `src/boundary.rs`
-/

namespace Verif.Conform

open Verif (Direction)
open Verif.PG Verif.Multi Verif.View Verif.Hier Verif.Algo Verif.Convex

/-- Add nodes with the given numbers of ports. -/
def addAll (g : PG) : List (Nat × Nat) → Option PG
  | [] => some g
  | x :: xs => do addAll (← add g x.1 x.2).2 xs

/-- `link_nodes` for all given links. -/
def linkAll (g : PG) : List (Nat × Nat × Nat × Nat) → Option PG
  | [] => some g
  | (a, i, b, j) :: xs => do linkAll (← linkN g a i b j) xs

/-- A graph with nodes `0, 1, ...` and links. -/
def make (nodes : List (Nat × Nat)) (links : List (Nat × Nat × Nat × Nat)) : Option PG := do linkAll (← addAll PG.empty nodes) links

/-- The same for a multiport graph. -/
def makeM (nodes : List (Nat × Nat)) (links : List (Nat × Nat × Nat × Nat)) : Option MG := do
  let m ← nodes.foldlM (fun m x => (addM m x.1 x.2).map (·.2)) MG.empty
  links.foldlM (fun m x => linkMN m x.1 x.2.1 x.2.2.1 x.2.2.2) m

/-! ## `toposort.rs`, lines 334–end -/

/-- `toposort`, collected. -/
def topo (G : Algo.View) (F : Filter) (sources : List Nat) (d : Direction) : Option (List Nat) :=
  (toposort G F d false sources).map (·.1)

/-- `small_toposort`. -/
def smallToposort : Option Unit := do
  let (a, b, c, d, e) := (0, 1, 2, 3, 4)
  let g ← make [(2, 3), (3, 2), (3, 2), (3, 2), (3, 2)] [(a, 0, b, 0), (a, 1, b, 1), (a, 2, e, 0), (b, 0, c, 0), (c, 0, d, 0)]
  same (← topo (Algo.ofPG g) .all [a, d] .outgoing) [a, d, b, e, c]
  let F : Filter := ⟨fun n => !([d, e].contains n), fun _ p => some p != output g b 0⟩
  same (← topo (Algo.ofPG g) F [a, d] .outgoing) [a, b]

example : smallToposort = some () := by decide +kernel

/-- `test_toposort_multi_port`. -/
def toposortMulti : Option Unit := do
  let m ← makeM [(0, 1), (1, 0), (1, 0)] [(0, 0, 1, 0), (0, 0, 2, 0)]
  same (View.toSet (← topo (ofMG m 20 100).algo .all [0] .outgoing)) [0, 1, 2]

example : toposortMulti = some () := by decide +kernel

/-! ## `post_order.rs`, lines 271–end -/

/-- `postorder`, collected. -/
def post (g : PG) (sources : List Nat) (d : Direction) (F : Filter := .all) : Option (List Nat) :=
  (postorder (Algo.ofPG g) F d 20 sources).map (·.1)

/-- `postorder_tree`. -/
def postTree : Option Unit := do
  let (a, b, c, d, e, f) := (0, 1, 2, 3, 4, 5)
  let g ← make [(0, 1), (1, 4), (1, 1), (1, 1), (2, 0), (1, 0)]
    [(a, 0, b, 0), (b, 0, c, 0), (b, 2, d, 0), (b, 3, f, 0), (d, 0, e, 1)]
  same (← post g [a] .outgoing) [c, e, d, f, b, a]
  same (← post g [b] .outgoing) [c, e, d, f, b]
  same (← post g [d, b] .outgoing) [e, d, c, f, b]
  same (← post g [e] .incoming) [a, b, d, e]

example : postTree = some () := by decide +kernel

/-- `postorder_dag`. -/
def postDag : Option Unit := do
  let (a, b, c, d) := (0, 1, 2, 3)
  let g ← make [(0, 1), (1, 2), (1, 1), (2, 0)] [(a, 0, b, 0), (b, 0, c, 0), (b, 1, d, 0), (c, 0, d, 1)]
  same (← post g [a] .outgoing) [d, c, b, a]
  same (← post g [d] .incoming) [a, b, c, d]

example : postDag = some () := by decide +kernel

/-- `postorder_cycle`. -/
def postCycle : Option Unit := do
  let (a, b, c, d) := (0, 1, 2, 3)
  let g ← make [(0, 1), (3, 2), (1, 1), (1, 1)] [(a, 0, b, 0), (b, 0, c, 0), (c, 0, d, 0), (d, 0, b, 2)]
  same (← post g [a] .outgoing) [d, c, b, a]
  same (← post g [c] .incoming) [a, d, b, c]

example : postCycle = some () := by decide +kernel

/-- `postorder_with_filters`. -/
def postFilters : Option Unit := do
  let (a, b, c, d) := (0, 1, 2, 3)
  let g ← make [(0, 1), (1, 3), (1, 1), (3, 0)] [(a, 0, b, 0), (b, 0, c, 0), (b, 1, d, 0), (c, 0, d, 1), (b, 2, d, 2)]
  same (← post g [a] .outgoing ⟨fun _ => false, fun _ _ => true⟩) []
  same (← post g [a] .outgoing ⟨fun _ => true, fun _ _ => false⟩) [a]
  same (← post g [d] .incoming ⟨fun n => n != c, fun _ p => some p != output g b 2⟩) [a, b, d]

example : postFilters = some () := by decide +kernel

/-! ## `dominators.rs`, lines 238–end -/

/-- The immediate dominators of the nodes below `k`. -/
def doms (g : PG) (d : Direction) (entry k : Nat) (F : Filter := .all) : Option (List (Option Nat)) := do
  let t ← Dom.dominators (Algo.ofPG g) F d 20 entry
  same t.root entry
  return (List.range k).map t.idom

/-- `test_dominators_small`. -/
def domSmall : Option Unit := do
  let (a, b, c, d, e) := (0, 1, 2, 3, 4)
  let g ← make [(0, 2), (1, 1), (2, 1), (1, 1), (1, 0)] [(a, 0, b, 0), (a, 1, d, 0), (b, 0, c, 0), (d, 0, c, 1), (c, 0, e, 0)]
  same (← doms g .outgoing a 5) [none, some a, some a, some a, some c]
  same (← doms g .incoming c 5) [some c, some c, none, some c, none]

example : domSmall = some () := by decide +kernel

/-- `test_dominators_filtered`. -/
def domFiltered : Option Unit := do
  let (a, b, c, d, e, f) := (0, 1, 2, 3, 4, 5)
  let g ← make [(0, 2), (1, 1), (2, 1), (2, 2), (2, 0), (0, 1)]
    [(a, 0, b, 0), (a, 1, d, 0), (b, 0, c, 0), (d, 0, c, 1), (c, 0, e, 0), (d, 1, e, 1), (f, 0, d, 1)]
  same (← doms g .outgoing a 6 ⟨fun n => n != f, fun _ p => some p != input g e 1⟩) [none, some a, some a, some a, some c, none]
  same (← doms g .incoming c 5) [some c, some c, none, some c, none]

example : domFiltered = some () := by decide +kernel

/-- `test_dominators_complex`. -/
def domComplex : Option Unit := do
  let (r, a, b, c, d, e) := (0, 1, 2, 3, 4, 5)
  let g ← make [(0, 2), (1, 1), (1, 2), (2, 1), (3, 2), (2, 1)]
    [(r, 0, a, 0), (r, 1, b, 0), (a, 0, c, 0), (b, 0, d, 0), (b, 1, e, 0), (c, 0, d, 1), (d, 0, c, 1), (d, 1, e, 1), (e, 0, d, 2)]
  same (← doms g .outgoing r 6) [none, some r, some r, some r, some r, some r]

example : domComplex = some () := by decide +kernel

/-! ## `lca.rs`, lines 187–end -/

/-- `test_hierarchy`. -/
def lcaHierarchy : Option Hierarchy :=
  [(0, 1), (0, 2), (1, 3), (3, 4), (4, 5), (5, 6), (1, 7), (2, 8), (8, 9), (8, 10), (11, 12), (11, 13)].foldlM
    (fun h x => ok (h.pushChild x.2 x.1)) Hierarchy.new

/-- `lca`. -/
def lcaTest : Option Unit := do
  let h ← lcaHierarchy
  let s ← Lca.new (List.range 16) h
  for n in List.range 11 do same (← s.root 20 n) 0
  for n in [11, 12, 13] do same (← s.root 20 n) 11
  for n in [14, 15] do same (← s.root 20 n) n
  for x in [(5, 10), (10, 5), (6, 10), (10, 6), (0, 0), (0, 1), (0, 9), (1, 0), (9, 0), (1, 2), (7, 8), (7, 10), (10, 7), (5, 9), (9, 5),
      (6, 9), (9, 6)] do
    same (← s.lca 20 x.1 x.2) (some 0)
  for x in [(0, 11), (0, 12), (0, 14), (11, 0), (12, 0), (14, 0), (14, 15), (9, 12)] do
    same (← s.lca 20 x.1 x.2) none
  same (← s.lca 20 14 14) (some 14)
  same (← s.lca 20 2 10) (some 2)
  same (← s.lca 20 10 2) (some 2)

example : lcaTest = some () := by decide +kernel

/-! ## `convex.rs`, lines 71–end -/

/-- `graph`; the nodes are `i1, i2, i3, n1, n2, o1, o2`. -/
def convexGraph : Option PG :=
  make [(0, 2), (0, 1), (0, 1), (2, 2), (2, 2), (2, 0), (2, 0)]
    [(0, 0, 3, 0), (1, 0, 3, 1), (0, 1, 4, 0), (2, 0, 4, 1), (3, 0, 5, 0), (4, 0, 5, 1), (3, 1, 6, 0), (4, 1, 6, 1)]

/-- `is_node_convex` and `is_convex` of both checkers, which agree. -/
def nodeConvex (g : PG) (S : List Nat) : Option Bool := do
  let r ← (← Convex.Topo.new (Algo.ofPG g)).isNodeConvex S
  same (← (← Line.new (Algo.ofPG g)).isNodeConvex middle S) r
  return r

/-- See `nodeConvex`. -/
def portConvex (g : PG) (S ins outs : List Nat) : Option Bool := do
  let r ← (← Convex.Topo.new (Algo.ofPG g)).isConvex S ins outs
  same (← (← Line.new (Algo.ofPG g)).isConvex middle S ins outs) r
  return r

/-- `induced_convexity_test`. -/
def convexInduced : Option Unit := do
  let g ← convexGraph
  for S in [[0, 1, 2], [0, 4], [0, 4, 5, 3], [0, 4, 6, 3], [0, 2, 4]] do same (← nodeConvex g S) true
  for S in [[0, 4, 6], [0, 4, 5], [0, 2, 6]] do same (← nodeConvex g S) false

example : convexInduced = some () := by decide +kernel

/-- `edge_convexity_test`. -/
def convexEdge : Option Unit := do
  let g ← convexGraph
  same (← portConvex g [0, 4] [← input g 4 1] [← output g 0 0, ← output g 4 0, ← output g 4 1]) true
  same (← portConvex g [1, 3, 6] [← input g 3 0, ← input g 6 1] [← output g 3 0]) true
  same (← portConvex g [1, 3, 6] [← input g 3 0, ← input g 6 1, ← input g 6 0] [← output g 3 0, ← output g 3 1]) false

example : convexEdge = some () := by decide +kernel

/-- `dangling_input` and `disconnected_graph`. -/
def convexDangling : Option Unit := do
  same (← nodeConvex (← make [(1, 1)] []) [0]) true
  same (← nodeConvex (← make [(1, 1), (1, 1)] []) [0]) true

example : convexDangling = some () := by decide +kernel

/-! ## `convex/line_convex_checker.rs`, lines 659–end -/

/-- `two_lines_ish_graph`. -/
def twoLines : Option MG :=
  makeM (List.replicate 11 (1, 1))
    [(0, 0, 1, 0), (1, 0, 2, 0), (2, 0, 3, 0), (1, 0, 4, 0), (4, 0, 5, 0), (1, 0, 6, 0), (6, 0, 7, 0), (8, 0, 9, 0), (9, 0, 10, 0)]

/-- `test_line_partition`. -/
def linePartition : Option Unit := do
  let m ← twoLines
  let c ← Line.new (ofMG m 40 100).algo
  same c.lines [[0, 1, 6, 7], [8, 9, 10], [1, 4, 5], [1, 2, 3]]
  for x in [(0, 0, [0, 1, 6, 7]), (1, 0, [8, 9, 10]), (2, 1, [1, 4, 5]), (3, 1, [1, 2, 3])] do
    for y in x.2.2.zipIdx x.2.1 do
      same (c.getPos y.1) y.2
      assert ((c.getLines y.1).contains x.1)

example : linePartition = some () := by decide +kernel

/-- `test_line_partition_merging`. -/
def linePartitionMerging : Option Unit := do
  let m ← makeM [(1, 1), (1, 1), (1, 1)] [(0, 0, 2, 0), (1, 0, 2, 0)]
  let c ← Line.new (ofMG m 40 100).algo
  same c.lines [[0, 2], [1, 2]]

example : linePartitionMerging = some () := by decide +kernel

/-- `test_try_extend_intervals`; the intervals are compared in the order of their lines. -/
def lineExtend : Option Unit := do
  let m ← twoLines
  let c ← Line.new (ofMG m 40 100).algo
  let I ← (← c.intervals middle [1, 2, 3, 4])
  let J ← [1, 2, 3, 4].foldlM (fun J n => do
    let (b, J) ← c.tryExtend middle J n
    assert b
    return J) []
  same (List.range 4 |>.map (Line.lookup I)) (List.range 4 |>.map (Line.lookup J))

example : lineExtend = some () := by decide +kernel

/-- The convex sets of the next tests. -/
def lineSets : List (List Nat) := [[0, 1, 2], [0, 4], [0, 4, 5, 3], [0, 4, 6, 3], [0, 2, 4]]

/-- `test_get_intervals_convex`. -/
def lineConvex : Option Unit := do
  let g ← convexGraph
  let c ← Line.new (view g).algo
  for S in lineSets do
    let I ← (← c.intervals middle S)
    let J ← (← (view g).lineIntervals c middle ((view g).withNodes S).2)
    same I.length J.length
    same (List.range 9 |>.map (Line.lookup I)) (List.range 9 |>.map (Line.lookup J))

example : lineConvex = some () := by decide +kernel

/-- Insertion into a sorted list. -/
def insertBy {α : Type} (lt : α → α → Bool) (x : α) : List α → List α
  | [] => [x]
  | y :: l => if lt y x then y :: insertBy lt x l else x :: y :: l

/-- `test_nodes_in_intervals`; the merge of the segments is the sorted list of their nodes. -/
def lineNodes : Option Unit := do
  let g ← convexGraph
  let c ← Line.new (view g).algo
  let sort (l : List Nat) := l.foldr (insertBy c.posLt) []
  for S in lineSets do
    let I ← (← c.intervals middle S)
    let ls ← c.segments middle I
    same (Line.dedupAdj (sort ls.flatten)) (sort S)

example : lineNodes = some () := by decide +kernel

/-- `test_lines_at_port`. -/
def linePorts : Option Unit := do
  let g ← convexGraph
  let c ← Line.new (view g).algo
  for n in List.range 7 do
    for d in [Direction.incoming, .outgoing] do
      for x in (g.ports n d).zipIdx do
        same ((← (view g).linesAtPort c x.1).map some) [(c.getLines n)[x.2]?]

example : linePorts = some () := by decide +kernel

/-- `test_lines_at_port_multigraph`. -/
def linePortsMulti : Option Unit := do
  let m ← makeM [(0, 1), (1, 0)] [(0, 0, 1, 0), (0, 0, 1, 0), (0, 0, 1, 0)]
  let c ← Line.new (ofMG m 40 100).algo
  for n in [0, 1] do
    same (c.getLines n).length 3
    for p in m.graph.allPorts n do
      same (← (ofMG m 40 100).linesAtPort c p) (c.getLines n)

example : linePortsMulti = some () := by decide +kernel

/-! ## `src/boundary.rs`, lines 450–end -/

/-- `graph`. -/
def boundaryGraph : Option MG :=
  makeM (List.replicate 8 (4, 4)) [(0, 0, 1, 0), (1, 0, 2, 0), (2, 0, 3, 0), (4, 0, 5, 0), (5, 0, 6, 0), (6, 0, 7, 0), (1, 1, 5, 1),
    (2, 1, 6, 0), (1, 2, 6, 2)]

/-- `graph_kn::<2, 2>`. -/
def graphKn : Option MG :=
  makeM [(1, 2), (1, 2), (2, 1), (2, 1)] [(0, 0, 2, 0), (0, 1, 3, 0), (1, 0, 2, 1), (1, 1, 3, 1)]

/-- `test_boundary_new`. -/
def boundaryNew : Option Unit := do
  let m ← boundaryGraph
  let G := ofMG m 40 200
  let B ← G.fromPorts [← G.portIndex 1 .incoming 0, ← G.portIndex 5 .incoming 0, ← G.portIndex 2 .outgoing 0, ← G.portIndex 6 .outgoing 0]
  same B (G.withNodes [1, 2, 5, 6]).2
  same B.numPorts 4
  same (B.find (← G.portIndex 5 .incoming 0) .incoming) (some ⟨1, .incoming⟩)
  same (B.portsIn .incoming).length 2

example : boundaryNew = some () := by decide +kernel

/-- The sets of an ordering, sorted. -/
def order (O : View.Ordering) : List (List Nat) × List (List Nat) := (O.reachable.map View.toSet, O.reaching.map View.toSet)

/-- `test_port_ordering`. -/
def boundaryOrdering : Option Unit := do
  let m ← boundaryGraph
  let G := ofMG m 40 200
  let (S, B) := G.withNodes [1, 2, 5, 6]
  let O ← (G.subgraph S).portOrdering B
  same (order O) ([[0, 1], [1]], [[0], [0, 1]])

example : boundaryOrdering = some () := by decide +kernel

/-- `test_order_comparison`. -/
def boundaryComparison : Option Unit := do
  let m ← boundaryGraph
  let G := ofMG m 40 200
  let (S, B) := G.withNodes [1, 2, 5, 6]
  let m' ← graphKn
  let G' := ofMG m' 40 200
  let B' ← G'.fromPorts [← G'.portIndex 0 .incoming 0, ← G'.portIndex 1 .incoming 0, ← G'.portIndex 2 .outgoing 0,
    ← G'.portIndex 3 .outgoing 0]
  assert (B.isCompatible B')
  assert (B'.isCompatible B)
  let O ← (G.subgraph S).portOrdering B
  let O' ← G'.portOrdering B'
  same (← O.isStrongerThan O') false
  same (← O'.isStrongerThan O) true
  same (← B.isStrongerThan B' (G.subgraph S) G') false
  same (← B'.isStrongerThan B G' (G.subgraph S)) true
  same (← O.missingPairs O') [(1, 0)]
  same (← O'.missingPairs O) []

example : boundaryComparison = some () := by decide +kernel

/-- `test_dangling_nodes`. -/
def boundaryDangling : Option Unit := do
  let m ← boundaryGraph
  let G := ofMG m 40 200
  let B : Boundary := ⟨[← G.portIndex 5 .incoming 0], [← G.portIndex 6 .outgoing 0]⟩
  let S ← G.newSubgraph B
  same S [0, 1, 2, 3, 5, 6]
  let O ← (G.subgraph S).portOrdering B
  same (order O) ([[0]], [[0]])

example : boundaryDangling = some () := by decide +kernel

/-- `test_external_ordering`. -/
def boundaryExternal : Option Unit := do
  let m ← makeM (List.replicate 5 (4, 4)) [(0, 0, 1, 0), (1, 0, 2, 0), (2, 0, 3, 0), (3, 0, 4, 0)]
  let G := ofMG m 40 200
  let (S, B) := G.withNodes [1, 3]
  let O ← (G.subgraph S).portOrdering B
  same (order O) ([[0], [1]], [[0], [1]])

example : boundaryExternal = some () := by decide +kernel

end Verif.Conform
