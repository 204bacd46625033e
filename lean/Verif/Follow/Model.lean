import Verif.Hierarchy.Spec
import Verif.PortGraph.Spec

/-!
# A hierarchy kept alongside a port graph

The documentation of `src/hierarchy.rs`, lines 1–50: a hierarchy "is intended to be used alongside
`PortGraph`", and "modifications to the graph must be manually propagated to the hierarchy". The
example in lines 15–49 shows how: `remove` after `remove_node`, the callback `rekey` of
`compact_nodes`, and `shrink_to(graph.node_count())`. Here are the callbacks and the calls on the
pair; `none` is a panic. The callbacks run while `compact_nodes` is at work; as they change only the
hierarchy, they are applied to the reported calls in order.
-/

namespace Verif.Follow

open Verif.Hier Verif.PG

/-- The callback `|old, new| hierarchy.rekey(old, new)`, `src/hierarchy.rs` lines 45–47, applied to
the calls reported by `compact_nodes` (`src/portgraph.rs` line 606) in order. -/
def rekeyAll : Hierarchy → List (Nat × Nat) → Option Hierarchy
  | h, [] => some h
  | h, x :: tr =>
    match h.rekey x.1 x.2 with
    | none => none
    | some h => rekeyAll h tr

/-- The same with the callback `|old, new| hierarchy.swap_nodes(old, new)`, `src/hierarchy.rs` lines
425–463. -/
def swapAll : Hierarchy → List (Nat × Nat) → Option Hierarchy
  | h, [] => some h
  | h, x :: tr =>
    match h.swapNodes x.1 x.2 with
    | none => none
    | some h => swapAll h tr

/-- The two variables of the example, `src/hierarchy.rs` lines 17–18. -/
structure Both where
  graph : PG
  tree : Hierarchy

/-- Changes of the graph with the propagation to the hierarchy, `src/hierarchy.rs` lines 15–49. -/
inductive Call where
  /-- `graph.add_node(i, o)` -/
  | addNode (i o : Nat)
  /-- `graph.remove_node(n); hierarchy.remove(n)`, `src/hierarchy.rs` lines 38–39 -/
  | removeNode (n : Nat)
  /-- `graph.swap_nodes(a, b); hierarchy.swap_nodes(a, b)` -/
  | swapNodes (a b : Nat)
  /-- `graph.compact_nodes(..); hierarchy.shrink_to(graph.node_count())`, lines 45–48; with the
  callback `swap_nodes` or, as in the documentation, with `rekey` -/
  | compact (swap : Bool) (extra : Nat)
  /-- a call of the graph that does not concern the nodes -/
  | ports (op : PG.Op)
  /-- a call of the hierarchy -/
  | tree (op : Hier.Op)

/-- `src/hierarchy.rs` lines 45–48. -/
def compact (s : Both) (swap : Bool) (extra : Nat) : Option Both :=
  match s.graph.compactNodes with
  | none => none
  | some (g, tr) =>
    match if swap then swapAll s.tree tr else rekeyAll s.tree tr with
    | none => none
    | some h => (h.shrinkTo (h.data.data.length + extra) g.nodeCount).map fun h => ⟨g, h⟩

/-- One step, as in the example of `src/hierarchy.rs` lines 15–49; `none` is a panic. -/
def step (maxOff : Nat) (s : Both) : Call → Option Both
  | .addNode i o => (s.graph.addNode maxOff i o).map fun r => ⟨r.2, s.tree⟩
  | .removeNode n =>
    match s.graph.removeNode n, s.tree.remove n with
    | some g, some h => some ⟨g, h⟩
    | _, _ => none
  | .swapNodes a b =>
    match s.graph.swapNodes a b, s.tree.swapNodes a b with
    | some g, some h => some ⟨g, h⟩
    | _, _ => none
  | .compact swap extra => compact s swap extra
  | .ports op => (s.graph.step maxOff op).map fun g => ⟨g, s.tree⟩
  | .tree op => (s.tree.step op).map fun r => ⟨s.graph, r.2⟩

end Verif.Follow
