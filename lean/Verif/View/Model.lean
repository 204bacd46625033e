import Verif.PortGraph.PropsIter
import Verif.Hierarchy.Spec
import Verif.Algo.View

/-!
# Graph views

Model of `src/view/filter.rs`, `src/view/flat_region.rs`, `src/view/region.rs` and
`src/view/subgraph.rs`.

A type implementing `PortView`, `LinkView` and `MultiView` (`src/view.rs`) is given by its answers
to the queries, collected in `GView`. An iterator is given by the list of its items. The wrappers
turn a `GView` into another one, so they can be nested as in the code.

`unwrap()` on `port_node` inside the filters is modelled by the answer `false` for a port without
node; `views_no_panic` shows that this case never occurs for well-formed views.
-/

namespace Verif.View

open Verif (Direction)
open Verif.PG Verif.Hier

/-- The answers of a graph to the queries of `PortView`, `LinkView` and `MultiView`
(`src/view.rs` lines 26–206, 300–495 and 630–673). `E` is the type `LinkEndpoint`. -/
structure GView (E : Type) where
  /-- `LinkEndpoint: Into<PortIndex>` -/
  toPort : E → Nat
  /-- `contains_node` -/
  containsNode : Nat → Bool
  /-- `contains_port` -/
  containsPort : Nat → Bool
  /-- `is_empty` -/
  isEmpty : Bool
  /-- `node_count` -/
  nodeCount : Nat
  /-- `port_count` -/
  portCount : Nat
  /-- `link_count` -/
  linkCount : Nat
  /-- `nodes_iter` -/
  nodes : List Nat
  /-- `ports_iter` -/
  portsIter : List Nat
  /-- `node_capacity` -/
  nodeCapacity : Nat
  /-- `port_capacity` -/
  portCapacity : Nat
  /-- `port_direction` -/
  portDirection : Nat → Option Direction
  /-- `port_node` -/
  portNode : Nat → Option Nat
  /-- `port_offset` -/
  portOffset : Nat → Option (Direction × Nat)
  /-- `port_index` (also `input` and `output`) -/
  portIndex : Nat → Direction → Nat → Option Nat
  /-- `ports` -/
  ports : Nat → Direction → List Nat
  /-- `all_ports` -/
  allPorts : Nat → List Nat
  /-- `num_ports` -/
  numPorts : Nat → Direction → Nat
  /-- `get_connections` -/
  getConnections : Nat → Nat → List (E × E)
  /-- `port_links` -/
  portLinks : Nat → List (E × E)
  /-- `links` -/
  links : Nat → Direction → List (E × E)
  /-- `all_links` -/
  allLinks : Nat → List (E × E)
  /-- `neighbours` -/
  neighbours : Nat → Direction → List Nat
  /-- `all_neighbours` -/
  allNeighbours : Nat → List Nat
  /-- `subports` -/
  subports : Nat → Direction → List E
  /-- `all_subports` -/
  allSubports : Nat → List E
  /-- `subport_link` -/
  subportLink : E → Option E

variable {E : Type}

/-- The view of a port graph, `src/portgraph.rs` lines 333–445 and 723–790. The lists are the
items of the iterators of `IterModel`, see the theorems `C06_nodes_iter`, `C06_ports_iter` and
`C19_*`. `capN` and `capP` are the capacities of the vectors. A `PortGraph` has no subports: each
port stands for its only subport. -/
def ofPG (g : PG) (capN capP : Nat) : GView Nat where
  toPort := id
  containsNode := g.containsNode
  containsPort := g.containsPort
  isEmpty := g.nodeCount = 0
  nodeCount := g.nodeCount
  portCount := g.portCount
  linkCount := g.linkCount
  nodes := (List.range g.nodeMeta.length).filter g.containsNode
  portsIter := (List.range g.portMeta.length).filter g.containsPort
  nodeCapacity := capN
  portCapacity := capP
  portDirection := g.portDirection
  portNode := g.portNode
  portOffset p := (g.portOffset p).join
  portIndex := g.portIndex
  ports := g.ports
  allPorts := g.allPorts
  numPorts := g.numPorts
  getConnections a b := (linkedPairs g (g.ports a .outgoing)).filter fun x => decide (g.portNode x.2 = some b)
  portLinks p := linkedPairs g [p]
  links n d := linkedPairs g (g.ports n d)
  allLinks n := (linkedPairs g (g.allPorts n)).filter fun x =>
    !decide (g.portNode x.2 = some n ∧ g.portDirection x.2 = some .outgoing)
  neighbours n d := (linkedPairs g (g.ports n d)).filterMap fun x => g.portNode x.2
  allNeighbours n := ((linkedPairs g (g.allPorts n)).filter fun x =>
    !decide (g.portNode x.2 = some n ∧ g.portDirection x.2 = some .outgoing)).filterMap fun x => g.portNode x.2
  subports := g.ports
  allSubports := g.allPorts
  subportLink p := (g.portLink? p).join

/-! ## `FilteredGraph` -/

/-- `FilteredGraph::port_filter`, `src/view/filter.rs` lines 83–89. -/
def GView.portFilter (G : GView E) (nf : Nat → Bool) (p : Nat) : Bool :=
  match G.portNode p with
  | some n => nf n
  | none => false

/-- `FilteredGraph::link_filter`, `src/view/filter.rs` lines 94–103. -/
def GView.linkFilter (G : GView E) (nf lf : Nat → Bool) (l : E × E) : Bool :=
  G.portFilter nf (G.toPort l.1) && G.portFilter nf (G.toPort l.2) && lf (G.toPort l.1) && lf (G.toPort l.2)

/-- `FilteredGraph`, `src/view/filter.rs` lines 27–32; the filters are applied to their context. The queries are the
lines 106–263. -/
def GView.filtered (G : GView E) (nf lf : Nat → Bool) : GView E where
  toPort := G.toPort
  containsNode n := G.containsNode n && nf n
  containsPort p :=
    if G.containsPort p then
      match G.portNode p with
      | some n => G.containsNode n && nf n
      | none => false
    else false
  isEmpty := (G.nodes.filter nf).length = 0
  nodeCount := (G.nodes.filter nf).length
  portCount := (G.portsIter.filter (G.portFilter nf)).length
  linkCount := ((G.nodes.filter nf).flatMap fun n => (G.allLinks n).filter (G.linkFilter nf lf)).length
  nodes := G.nodes.filter nf
  portsIter := G.portsIter.filter (G.portFilter nf)
  nodeCapacity := G.nodeCapacity
  portCapacity := G.portCapacity
  portDirection := G.portDirection
  portNode := G.portNode
  portOffset := G.portOffset
  portIndex := G.portIndex
  ports := G.ports
  allPorts := G.allPorts
  numPorts := G.numPorts
  getConnections a b := (G.getConnections a b).filter (G.linkFilter nf lf)
  portLinks p := (G.portLinks p).filter (G.linkFilter nf lf)
  links n d := (G.links n d).filter (G.linkFilter nf lf)
  allLinks n := (G.allLinks n).filter (G.linkFilter nf lf)
  neighbours n d := ((G.links n d).filter (G.linkFilter nf lf)).filterMap fun l => G.portNode (G.toPort l.2)
  allNeighbours n := ((G.allLinks n).filter (G.linkFilter nf lf)).filterMap fun l => G.portNode (G.toPort l.2)
  subports n d := (G.subports n d).filter fun e => G.portFilter nf (G.toPort e)
  allSubports n := (G.allSubports n).filter fun e => G.portFilter nf (G.toPort e)
  subportLink e :=
    if !lf (G.toPort e) then none
    else
      match G.subportLink e with
      | none => none
      | some f => if !lf (G.toPort f) then none else some f

/-- `NodeFiltered::new_node_filtered`, `src/view/filter.rs` lines 62–64. -/
def GView.nodeFiltered (G : GView E) (nf : Nat → Bool) : GView E := G.filtered nf fun _ => true

/-! ## The part shared by the regions and the subgraph -/

/-- `contains_port`, `src/view/flat_region.rs` lines 123–128, `src/view/region.rs` lines 157–162,
`src/view/subgraph.rs` lines 181–186. -/
def GView.insidePort (G : GView E) (inside : Nat → Bool) (p : Nat) : Bool :=
  match G.portNode p with
  | some n => inside n
  | none => false

/-- `contains_link`, `src/view/flat_region.rs` lines 99–101, `src/view/region.rs` lines 109–111,
`src/view/subgraph.rs` lines 131–133. -/
def GView.insideLink (G : GView E) (inside : Nat → Bool) (l : E × E) : Bool :=
  G.insidePort inside (G.toPort l.1) && G.insidePort inside (G.toPort l.2)

/-- The queries of `FlatRegion` (`src/view/flat_region.rs` lines 110–280), `Region`
(`src/view/region.rs` lines 145–311) and `Subgraph` (`src/view/subgraph.rs` lines 172–320) have
the same text up to the answers of `contains_node`, `nodes_iter`, `node_count` and `is_empty`,
which are arguments here, and up to `subports` and `all_subports`. The subtraction in the
capacities is that of `usize`; the capacity is never smaller than the count. -/
def GView.restrict (G : GView E) (inside : Nat → Bool) (nodes : List Nat) (count : Nat) (empty : Bool) : GView E where
  toPort := G.toPort
  containsNode := inside
  containsPort := G.insidePort inside
  isEmpty := empty
  nodeCount := count
  portCount := (nodes.flatMap G.allPorts).length
  linkCount := (nodes.flatMap fun n => (G.links n .outgoing).filter (G.insideLink inside)).length
  nodes := nodes
  portsIter := nodes.flatMap G.allPorts
  nodeCapacity := G.nodeCapacity - G.nodeCount + count
  portCapacity := G.portCapacity - G.portCount + (nodes.flatMap G.allPorts).length
  portDirection := G.portDirection
  portNode := G.portNode
  portOffset := G.portOffset
  portIndex := G.portIndex
  ports := G.ports
  allPorts := G.allPorts
  numPorts := G.numPorts
  getConnections a b := if inside a && inside b then G.getConnections a b else []
  portLinks p := (G.portLinks p).filter (G.insideLink inside)
  links n d := (G.links n d).filter (G.insideLink inside)
  allLinks n := (G.allLinks n).filter (G.insideLink inside)
  neighbours n d := (G.neighbours n d).filter inside
  allNeighbours n := (G.allNeighbours n).filter inside
  subports n d := (G.subports n d).filter fun e => G.insidePort inside (G.toPort e)
  allSubports n := (G.allSubports n).filter fun e => G.insidePort inside (G.toPort e)
  subportLink e := (G.subportLink e).filter fun f => G.insidePort inside (G.toPort f)

/-! ## `FlatRegion` -/

/-- `FlatRegion::contains_node`, `src/view/flat_region.rs` lines 117–120. -/
def flatInside (h : Hierarchy) (root : Nat) (withRoot : Bool) (n : Nat) : Bool :=
  withRoot && n == root || h.parent n == some root

/-- `FlatRegion`, `src/view/flat_region.rs` lines 18–27 with 48–77; `nodes_iter` lines 147–151, `node_count` lines 137–139,
`is_empty` lines 131–134. -/
def GView.flatRegion (G : GView E) (h : Hierarchy) (root : Nat) (withRoot : Bool) : GView E :=
  G.restrict (flatInside h root withRoot) ((if withRoot then [root] else []) ++ h.kids root)
    (h.childCount root + withRoot.toNat) false

/-! ## `Region` -/

/-- The cache of a `Region`, the field `is_descendant` of `src/view/region.rs` line 26: the map
from nodes to answers. -/
abbrev Cache := List (Nat × Bool)

/-- The cache made by `Region::new`, `src/view/region.rs` lines 35–44. -/
def Cache.new (root : Nat) : Cache := [(root, false)]

/-- The iterator of `successors` in `src/view/region.rs` lines 68–75: the node and its ancestors up to the first one
whose parent is in the cache or which has no parent. `none` is an endless loop. -/
def climbCache (h : Hierarchy) (c : Cache) : Nat → Nat → Option (List Nat)
  | 0, _ => none
  | f + 1, n =>
    match h.parent n with
    | none => some [n]
    | some p => if (c.lookup p).isSome then some [n] else (climbCache h c f p).map (n :: ·)

/-- The part of `Region::is_descendant` under the read lock, `src/view/region.rs` lines 57–84. -/
inductive Looked where
  /-- the answer is known, `src/view/region.rs` line 63 -/
  | hit (b : Bool)
  /-- the nodes to be stored and the answer, `src/view/region.rs` line 84 -/
  | computed (ancestors : List Nat) (b : Bool)
deriving DecidableEq, Repr

/-- `Region::is_descendant`, the part up to `src/view/region.rs` line 84: what is read and computed under the read
lock. `none` is a panic or an endless loop. -/
def lookDescendant (h : Hierarchy) (root : Nat) (c : Cache) (n : Nat) : Option Looked :=
  if n = root then some (.hit true)
  else
    match c.lookup n with
    | some b => some (.hit b)
    | none =>
      match climbCache h c h.fuel n with
      | none => none
      | some ancestors =>
        match ancestors.getLast? with
        | none => none
        | some last =>
          let first := h.parent last
          let answer : Option Bool :=
            if first = some root then some true
            else
              match first with
              | none => some false
              | some a => c.lookup a
          answer.map (.computed ancestors)

/-- The part under the write lock, `src/view/region.rs` lines 87–94. -/
def storeDescendant (ancestors : List Nat) (b : Bool) (c : Cache) : Cache :=
  ancestors.foldl (fun c x => (x, b) :: c) c

/-- `Region::is_descendant`, `src/view/region.rs` lines 49–95, when no other thread uses the region: the answer and the
new cache. -/
def isDescendant (h : Hierarchy) (root : Nat) (c : Cache) (n : Nat) : Option (Bool × Cache) :=
  match lookDescendant h root c n with
  | none => none
  | some (.hit b) => some (b, c)
  | some (.computed ancestors b) => some (b, storeDescendant ancestors b c)

/-- `Region::clone`, `src/view/region.rs` lines 128–143: when the cache is locked for writing by another thread the new
one is empty. -/
def Cache.clone (c : Cache) (locked : Bool) : Cache := if locked then [] else c

/-- The nodes of a region, `nodes_iter` `src/view/region.rs` lines 181–183. `none` is an endless loop. -/
def regionNodes (h : Hierarchy) (root : Nat) (fuel : Nat) : Option (List Nat) :=
  (h.descendants root).collect h fuel

/-- `Region`, `src/view/region.rs` lines 18–27; the function `inside` gives the answers of `is_descendant` and `nodes`
the items of `descendants`. -/
def GView.region (G : GView E) (inside : Nat → Bool) (nodes : List Nat) : GView E :=
  G.restrict inside nodes nodes.length false

/-! ## `Subgraph` -/

/-- Insert into a `BTreeSet`, given by the increasing list of its items.
Not in the code: standard library, used for the field `nodes` of `src/view/subgraph.rs` line 58. -/
def insertSet (x : Nat) : List Nat → List Nat
  | [] => [x]
  | y :: l => if x < y then x :: y :: l else if x = y then y :: l else y :: insertSet x l

/-- `collect` into a `BTreeSet`.
Not in the code: standard library, used for the field `nodes` of `src/view/subgraph.rs` line 58. -/
def toSet (l : List Nat) : List Nat := l.foldl (fun s x => insertSet x s) []

/-- `Boundary`, `src/boundary.rs` lines 15–20. -/
structure Boundary where
  inputs : List Nat
  outputs : List Nat
deriving DecidableEq, Repr

/-- `port_indices`, `src/boundary.rs` lines 293–298. -/
def Boundary.ports (B : Boundary) : List Nat := B.inputs ++ B.outputs

/-- `port_link`, `src/view.rs` lines 383–385: the first link of a port. -/
def GView.portLink (G : GView E) (p : Nat) : Option E := ((G.portLinks p).head?).map (·.2)

/-- The loop over the ports of a node in `internal_nodes`, `src/boundary.rs` lines 331–341: the
state is the set of visited ports and the set of nodes to process. `none` is a panic of `unwrap`. -/
def GView.scanPorts (G : GView E) : List Nat → List Nat × List Nat → Option (List Nat × List Nat)
  | [], s => some s
  | p :: ps, (visited, todo) =>
    if visited.contains p then G.scanPorts ps (visited, todo)
    else
      match G.portLink p with
      | none => G.scanPorts ps (p :: visited, todo)
      | some e =>
        match G.portNode (G.toPort e) with
        | none => none
        | some m => G.scanPorts ps (G.toPort e :: p :: visited, insertSet m todo)

/-- The iterator of `internal_nodes`, `src/boundary.rs` lines 329–343: the nodes in the order they are yielded.
`none` is a panic or running out of fuel. -/
def GView.explore (G : GView E) : Nat → List Nat × List Nat → Option (List Nat)
  | _, (_, []) => some []
  | 0, _ => none
  | f + 1, (visited, n :: todo) =>
    match G.scanPorts (G.allPorts n) (visited, todo) with
    | none => none
    | some s => (G.explore f s).map (n :: ·)

/-- The first part of `internal_nodes`, `src/boundary.rs` lines 308–327: the visited ports and the nodes to process.
`none` is the panic of `unwrap`. -/
def GView.exploreStart (G : GView E) (B : Boundary) : Option (List Nat × List Nat) :=
  match B.ports.mapM G.portNode with
  | none => none
  | some ns =>
    some (B.ports.flatMap fun p => p :: ((G.portLink p).map G.toPort).toList,
      toSet (if B.ports = [] then G.nodes else ns))

/-- `internal_nodes`, `src/boundary.rs` lines 304–344. -/
def GView.internalNodes (G : GView E) (B : Boundary) : Option (List Nat) :=
  match G.exploreStart B with
  | none => none
  | some s => G.explore (2 * G.portsIter.length + s.2.length) s

/-- `Subgraph::new_subgraph`, `src/view/subgraph.rs` lines 80–87: the nodes. -/
def GView.newSubgraph (G : GView E) (B : Boundary) : Option (List Nat) := (G.internalNodes B).map toSet

/-- The closure `has_external_link`, `src/view/subgraph.rs` lines 153–158. -/
def GView.hasExternalLink (G : GView E) (set : List Nat) (p : Nat) : Bool :=
  (G.portLinks p).any fun l =>
    match G.portNode (G.toPort l.2) with
    | some n => !set.contains n
    | none => false

/-- `collect_boundary_ports`, `src/view/subgraph.rs` lines 145–170. -/
def GView.collectBoundary (G : GView E) (order set : List Nat) : Boundary where
  inputs := order.flatMap fun n => (G.ports n .incoming).filter (G.hasExternalLink set)
  outputs := order.flatMap fun n => (G.ports n .outgoing).filter (G.hasExternalLink set)

/-- `Subgraph`, `src/view/subgraph.rs` lines 54–61. `nodes_iter` lines 204–206, `node_count` lines 194–196, `is_empty`
lines 189–191; `subports` and `all_subports` are delegated, lines 314–319. -/
def GView.subgraph (G : GView E) (nodes : List Nat) : GView E :=
  { G.restrict (nodes.contains ·) nodes nodes.length nodes.isEmpty with
      subports := G.subports
      allSubports := G.allSubports }

/-- `Subgraph::with_nodes`, `src/view/subgraph.rs` lines 95–104: the nodes and the boundary. -/
def GView.withNodes (G : GView E) (order : List Nat) : List Nat × Boundary :=
  (toSet order, G.collectBoundary order (toSet order))

end Verif.View
