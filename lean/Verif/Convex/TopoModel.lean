import Verif.Algo.TopoModel

/-!
# Convexity checking with a topological order

Model of `src/algorithms/convex/topo_convex_checker.rs`. A `BTreeSet` of indices is a list in
increasing order. The map from nodes to positions is a function with default 0.
-/

namespace Verif.Convex

open Verif (Direction)
open Verif.Algo

/-- `neighbours(node, direction)` of a view: `src/portgraph.rs` lines 747–748 with
`src/portgraph/iter.rs` lines 447–477: the nodes at the other ends of the links, in port order. -/
def neighbours (G : View) (n : Nat) (d : Direction) : List Nat :=
  (G.ports n d).flatMap fun p => (G.links p).filterMap G.portNode

/-- `BTreeSet::insert`. Used in `src/algorithms/convex/topo_convex_checker.rs` line 82 and below. -/
def ins (x : Nat) : List Nat → List Nat
  | [] => [x]
  | y :: l => if x < y then x :: y :: l else if x = y then y :: l else y :: ins x l

/-- Collecting into a `BTreeSet`.
As in `src/algorithms/convex/topo_convex_checker.rs` lines 67 and 130. -/
def toSet (l : List Nat) : List Nat := l.foldl (fun s x => ins x s) []

/-- `TopoConvexChecker`, `src/algorithms/convex/topo_convex_checker.rs` lines 9–15. -/
structure Topo where
  graph : View
  order : List Nat
  ind : Nat → Nat

namespace Topo

/-- `TopoConvexChecker::new`, `src/algorithms/convex/topo_convex_checker.rs` lines 19–34. -/
def new (G : View) : Option Topo :=
  match toposort G .all .outgoing false (G.nodes.filter fun n => (neighbours G n .incoming).isEmpty) with
  | none => none
  | some (order, _) => some ⟨G, order, fun n => if n ∈ order then order.idxOf n else 0⟩

/-- The `for` loop of `src/algorithms/convex/topo_convex_checker.rs` lines 91–100. -/
def insertOut (nodes : List Nat) (lo hi : Nat) : List Nat → List Nat → List Nat
  | [], other => other
  | x :: xs, other =>
    if decide (lo ≤ x) && decide (x ≤ hi) && !nodes.contains x then insertOut nodes lo hi xs (ins x other)
    else insertOut nodes lo hi xs other

/-- The `for` loop of `src/algorithms/convex/topo_convex_checker.rs` lines 104–116; `none` when it returns `false`. -/
def insertIn (nodes : List Nat) (lo hi : Nat) : List Nat → List Nat → Option (List Nat)
  | [], other => some other
  | x :: xs, other =>
    if decide (lo ≤ x) && decide (x ≤ hi) then
      if nodes.contains x then none else insertIn nodes lo hi xs (ins x other)
    else insertIn nodes lo hi xs other

/-- The `loop` of `src/algorithms/convex/topo_convex_checker.rs` lines 84–119; the lists are what is left of `node_iter` and `other_nodes`. -/
def loop (c : Topo) (nodes : List Nat) (lo hi : Nat) : Nat → List Nat → List Nat → Option Bool
  | 0, _, _ => none
  | _ + 1, [], _ => some true
  | f + 1, x :: xs, other =>
    match other with
    | [] =>
      match c.order[x]? with
      | none => none
      | some n => loop c nodes lo hi f xs (insertOut nodes lo hi ((neighbours c.graph n .outgoing).map c.ind) [])
    | y :: ys =>
      if x < y then
        match c.order[x]? with
        | none => none
        | some n => loop c nodes lo hi f xs (insertOut nodes lo hi ((neighbours c.graph n .outgoing).map c.ind) (y :: ys))
      else
        match c.order[y]? with
        | none => none
        | some n =>
          match insertIn nodes lo hi ((neighbours c.graph n .outgoing).map c.ind) ys with
          | none => some false
          | some other => loop c nodes lo hi f (x :: xs) other

/-- `is_node_convex`, `src/algorithms/convex/topo_convex_checker.rs` lines 65–120. -/
def isNodeConvex (c : Topo) (nodes : List Nat) : Option Bool :=
  let nodes := toSet (nodes.map c.ind)
  if nodes.length ≤ 1 then some true
  else loop c nodes (nodes.headD 0) (nodes.getLastD 0) (c.order.length + 1) nodes []

/-- `is_convex`, `src/algorithms/convex/topo_convex_checker.rs` lines 124–138. -/
def isConvex (c : Topo) (nodes inputs outputs : List Nat) : Option Bool :=
  let pre := outputs.filterMap fun p => (c.graph.links p).head?
  if inputs.any fun p => pre.contains p then some false else c.isNodeConvex nodes

end Topo

end Verif.Convex
