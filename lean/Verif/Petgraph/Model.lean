import Verif.View.Model
import Verif.Secondary.Model

/-!
# The traits of `petgraph`

Model of `src/view/petgraph.rs`, for any graph view: the macro `impl_petgraph_traits` (lines 55–168)
is used for `PortGraph`, `MultiPortGraph`, `FilteredGraph`, `Region`, `FlatRegion` and `Subgraph`,
`impl_visit_dense` (lines 173–218) for the first two, `impl_visit_sparse` (lines 223–262) for the
others. Iterators are the lists of their items; `none` is a panic. The `VisitMap` of a `HashSet` is
code of the library `petgraph` and not modelled.
-/

namespace Verif.Pet

open Verif (Direction)
open Verif.View Verif.Secondary

variable {E : Type}

/-- `NodeIndexable::node_bound`, `src/view/petgraph.rs` lines 78–80. -/
def nodeBound (G : GView E) : Nat := G.nodeCount

/-- `EdgeCount::edge_count`, `src/view/petgraph.rs` lines 92–94. -/
def edgeCount (G : GView E) : Nat := G.linkCount

/-- `IntoNodeIdentifiers::node_identifiers`, `src/view/petgraph.rs` lines 105–107, and `node_references`, lines 114–116. -/
def nodeIdentifiers (G : GView E) : List Nat := G.nodes

/-- `IntoNeighbors::neighbors`, `src/view/petgraph.rs` lines 122–124. -/
def neighbors (G : GView E) (n : Nat) : List Nat := G.neighbours n .outgoing

/-- `IntoNeighborsDirected::neighbors_directed`, `src/view/petgraph.rs` lines 130–136. -/
def neighborsDirected (G : GView E) (n : Nat) (d : Direction) : List Nat := G.neighbours n d

/-- `EdgeRef`, `src/view/petgraph.rs` lines 333–337. `source` (lines 347–349) is `fromNode`, `target` (lines 351–353) is
`toNode`, and `id` (lines 359–361) is `edge`. -/
structure EdgeRef (E : Type) where
  fromNode : Nat
  toNode : Nat
  edge : E × E
deriving DecidableEq

/-- The `EdgeRef` of a link, `src/view/petgraph.rs` lines 399–403 and 471–475. -/
def edgeRef (G : GView E) (l : E × E) : Option (EdgeRef E) :=
  match G.portNode (G.toPort l.1), G.portNode (G.toPort l.2) with
  | some a, some b => some ⟨a, b, l⟩
  | _, _ => none

/-- `IntoEdgeReferences::edge_references`, `src/view/petgraph.rs` lines 143–145: the items of `EdgeRefs`, lines 380–409. -/
def edgeReferences (G : GView E) : Option (List (EdgeRef E)) := (G.portsIter.flatMap G.portLinks).mapM (edgeRef G)

/-- `EdgeRefs::count`, `size_hint` and `len`, `src/view/petgraph.rs` lines 412–429. -/
def edgeReferencesLen (G : GView E) : Nat := G.linkCount

/-- `IntoEdges::edges`, `src/view/petgraph.rs` lines 151–153: the items of `NodeEdgeRefs`, lines 447–452 and 469–476. -/
def edges (G : GView E) (n : Nat) : Option (List (EdgeRef E)) := (G.allLinks n).mapM (edgeRef G)

/-- `IntoEdgesDirected::edges_directed`, `src/view/petgraph.rs` lines 159–165 and 455–460. -/
def edgesDirected (G : GView E) (n : Nat) (d : Direction) : Option (List (EdgeRef E)) := (G.links n d).mapM (edgeRef G)

/-! ## Visit maps -/

/-- `Visitable::visit_map`, `src/view/petgraph.rs` lines 180–182. -/
def visitMap : List Bool := []

/-- `Visitable::reset_map`, `src/view/petgraph.rs` lines 184–186. -/
def resetMap (_ : List Bool) : List Bool := []

/-- `VisitMap::is_visited`, `src/view/petgraph.rs` lines 317–319. -/
def isVisited (m : List Bool) (a : Nat) : Bool := Bits.get m a

/-- `VisitMap::visit`, `src/view/petgraph.rs` lines 311–315. -/
def visit (m : List Bool) (a : Nat) : Bool × List Bool := (isVisited m a, Bits.set m a true)

/-- `VisitMap::unvisit`, `src/view/petgraph.rs` lines 321–325. -/
def unvisit (m : List Bool) (a : Nat) : Bool × List Bool := (isVisited m a, Bits.set m a false)

/-! ## Adjacency matrices -/

/-- The pairs over which the loops of `src/view/petgraph.rs` lines 195–200 and 244–247 run. -/
def adjacentPairs (G : GView E) : List (Nat × Nat) := G.nodes.flatMap fun n => (neighbors G n).map fun m => (n, m)

/-- `BitVec::set`, which panics outside the vector. As called in `src/view/petgraph.rs` line 199. -/
def setBit (m : List Bool) (k : Nat) : Option (List Bool) := if k < m.length then some (m.set k true) else none

/-- `adjacency_matrix`, `src/view/petgraph.rs` lines 192–203. -/
def adjacencyMatrix (G : GView E) : Option (List Bool × Nat) :=
  let size := G.nodeCapacity
  ((adjacentPairs G).foldlM (fun m x => setBit m (x.1 * size + x.2)) (List.replicate (size * size) false)).map (·, size)

/-- `is_adjacent`, `src/view/petgraph.rs` lines 205–215. -/
def isAdjacent (m : List Bool × Nat) (a b : Nat) : Option Bool := m.1[a * m.2 + b]?

/-- `adjacency_matrix` with a `HashSet`, `src/view/petgraph.rs` lines 242–250. -/
def adjacencySet (G : GView E) : List (Nat × Nat) := (adjacentPairs G).foldl HSet.insert []

/-- `is_adjacent` with a `HashSet`, `src/view/petgraph.rs` lines 252–259. -/
def isAdjacentSet (m : List (Nat × Nat)) (a b : Nat) : Bool := m.contains (a, b)

end Verif.Pet
