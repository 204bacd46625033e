import Verif.Convex.TopoModel
import Mathlib.Data.List.Dedup

/-!
# Dynamic topological sort

Model of `src/algorithms/dynamic.rs`. The `HashMap` from nodes to positions is a function into
`Option`. A `HashSet` of nodes is a list without repetition, in some order. Loops and recursive
functions get a number of rounds; `none` is a panic or that the rounds ran out (it is proved that
they do not).
-/

namespace Verif.Dyn

open Verif (Direction)
open Verif.PG
open Verif.Algo
open Verif.Convex

/-- `DynamicTopoSortError`, `src/algorithms/dynamic.rs` lines 14–29. -/
inductive Err where
  | invalidNode (node : Nat)
  | wouldCreateCycle (source target : Nat)
deriving DecidableEq, Repr

/-- `DynamicTopoSort`, `src/algorithms/dynamic.rs` lines 32–37. -/
structure TSort where
  order : List Nat
  pos : Nat → Option Nat

namespace TSort

/-- The loops which insert the position of each node, `src/algorithms/dynamic.rs` lines 52–54 and 96–98. -/
def reindex : List Nat → Nat → (Nat → Option Nat) → (Nat → Option Nat)
  | [], _, f => f
  | n :: ns, i, f => reindex ns (i + 1) fun x => if x = n then some i else f x

/-- `with_graph`, `src/algorithms/dynamic.rs` lines 41–56. -/
def withGraph (G : View) : Option TSort :=
  match toposort G .all .outgoing false (G.nodes.filter fun n => (neighbours G n .incoming).isEmpty) with
  | none => none
  | some (order, _) => some ⟨order, reindex order 0 fun _ => none⟩

/-- `add_node`, `src/algorithms/dynamic.rs` lines 59–66. -/
def addNode (D : TSort) (n : Nat) : TSort :=
  if (D.pos n).isSome then D
  else ⟨D.order ++ [n], fun x => if x = n then some D.order.length else D.pos x⟩

/-- `remove_node`, `src/algorithms/dynamic.rs` lines 93–103; `Vec::remove` panics when the position is out of range. -/
def removeNode (D : TSort) (n : Nat) : Option (Except Err TSort) :=
  match D.pos n with
  | none => some (.error (.invalidNode n))
  | some p =>
    if p < D.order.length then
      let order := D.order.eraseIdx p
      some (.ok ⟨order, reindex order 0 fun x => if x = n then none else D.pos x⟩)
    else none

/-- `disconnect_nodes`, `src/algorithms/dynamic.rs` lines 106–119. -/
def disconnectNodes (D : TSort) (a b : Nat) : Except Err TSort :=
  if (D.pos a).isNone then .error (.invalidNode a)
  else if (D.pos b).isNone then .error (.invalidNode b)
  else .ok D

/-- A breadth first search with a queue and a set of visited nodes: the `while` loops of lines
127–141 and 231–246. It returns `true` at a node with `stop`, and does not go on from a node with
`skip`. File `src/algorithms/dynamic.rs`. -/
def bfs (next : Nat → List Nat) (stop skip : Nat → Bool) : Nat → List Nat → List Nat → Option Bool
  | _, [], _ => some false
  | 0, _ :: _, _ => none
  | f + 1, n :: queue, visited =>
    if stop n then some true
    else if skip n then bfs next stop skip f queue visited
    else if visited.contains n then bfs next stop skip f queue visited
    else bfs next stop skip f (queue ++ next n) (n :: visited)

/-- Enough rounds: one for the start and one for each link.
Not in the code: bounds the loops of `src/algorithms/dynamic.rs`. -/
def fuel (G : View) : Nat := (G.nodes.map fun n => (neighbours G n .outgoing).length).sum + 1

/-- `a ≤ b` for positions, where an absent node has position `usize::MAX`.
As in `src/algorithms/dynamic.rs` lines 123 and 134. -/
def leMax (a b : Option Nat) : Bool :=
  match a, b with
  | _, none => true
  | none, some _ => false
  | some a, some b => decide (a ≤ b)

/-- `would_create_cycle`, `src/algorithms/dynamic.rs` lines 122–143. -/
def wouldCreateCycle (D : TSort) (G : View) (a b : Nat) : Option Bool :=
  bfs (fun n => (neighbours G n .outgoing).filter fun x => leMax (D.pos x) (D.pos a)) (fun n => n == a) (fun _ => false)
    (fuel G) [b] []

/-- `dfs`, `src/algorithms/dynamic.rs` lines 178–211. The nodes of `visited` are those of `cone`; the result, which is always
`false`, is left out. -/
def dfs (D : TSort) (G : View) (dir : Direction) (bound : Nat) : Nat → Nat → List Nat → Option (List Nat)
  | 0, _, _ => none
  | f + 1, n, cone =>
    match D.pos n with
    | none => none
    | some pos =>
      let out := match dir with
        | .outgoing => decide (bound ≤ pos)
        | .incoming => decide (pos ≤ bound)
      if cone.contains n || out then some cone
      else (neighbours G n dir).foldlM (fun cone m => dfs D G dir bound f m cone) (cone ++ [n])

/-- `cone`, `src/algorithms/dynamic.rs` lines 165–176. -/
def cone (D : TSort) (G : View) (start bound : Nat) (dir : Direction) : Option (List Nat) :=
  D.dfs G dir bound (D.order.length + 1) start []

/-- The `for` loop of `src/algorithms/dynamic.rs` lines 157–161. -/
def write : List Nat → Nat → TSort → Option TSort
  | [], _, D => some D
  | w :: ws, i, D =>
    if i < D.order.length then write ws (i + 1) ⟨D.order.set i w, fun x => if x = w then some i else D.pos x⟩
    else none

/-- `update_order`, `src/algorithms/dynamic.rs` lines 146–162. -/
def updateOrder (D : TSort) (G : View) (a b : Nat) : Option TSort :=
  match D.pos a, D.pos b with
  | some pa, some pb =>
    if pa < pb then some D
    else
      match D.cone G b pa .outgoing, D.cone G a pb .incoming with
      | some f, some b => write (b ++ f) pb D
      | _, _ => none
  | _, _ => none

/-- `connect_nodes`, `src/algorithms/dynamic.rs` lines 69–90. -/
def connectNodes (D : TSort) (G : View) (a b : Nat) : Option (Except Err TSort) :=
  match D.pos a with
  | none => some (.error (.invalidNode a))
  | some pa =>
    match D.pos b with
    | none => some (.error (.invalidNode b))
    | some pb =>
      match D.wouldCreateCycle G a b with
      | none => none
      | some true => some (.error (.wouldCreateCycle a b))
      | some false => if pb ≤ pa then (D.updateOrder G a b).map .ok else some (.ok D)

/-- `has_path_outside_subgraph`, `src/algorithms/dynamic.rs` lines 219–248. -/
def hasPathOutside (D : TSort) (G : View) (start stop lo hi : Nat) (S : List Nat) : Option Bool :=
  bfs (fun n => (neighbours G n .outgoing).filter fun x => match D.pos x with
      | none => false
      | some p => decide (lo ≤ p) && decide (p ≤ hi))
    (fun n => !S.contains n && n != start) (fun n => n == stop) (fuel G) [start] []

/-- The `while` loop of `can_reach_inputs`, `src/algorithms/dynamic.rs` lines 263–287. The nodes of `inputs` are given. -/
def reachLoop (D : TSort) (G : View) (start lo hi : Nat) (S inputNodes : List Nat) :
    Nat → List (Nat × Bool) → List Nat → Option Bool
  | _, [], _ => some false
  | 0, _ :: _, _ => none
  | f + 1, (n, exited) :: queue, visited =>
    if visited.contains n then reachLoop D G start lo hi S inputNodes f queue visited
    else
      let inRange (x : Nat) : Bool := match D.pos x with
        | none => false
        | some p => decide (lo ≤ p) && decide (p ≤ hi)
      if !inRange n then reachLoop D G start lo hi S inputNodes f queue (n :: visited)
      else
        let exited := exited || (!S.contains n && n != start)
        if exited && inputNodes.contains n then some true
        else
          reachLoop D G start lo hi S inputNodes f
            (queue ++ ((neighbours G n .incoming).filter inRange).map fun x => (x, exited)) (n :: visited)

/-- `can_reach_inputs`, `src/algorithms/dynamic.rs` lines 251–289. -/
def canReachInputs (D : TSort) (G : View) (start lo hi : Nat) (S inputs : List Nat) : Option Bool :=
  D.reachLoop G start lo hi S (inputs.filterMap G.portNode)
    ((G.nodes.map fun n => (neighbours G n .incoming).length).sum + 1) [(start, false)] []

end TSort

/-- `DynamicTopoConvexChecker` of a port graph, `src/algorithms/dynamic.rs` lines 293–296. -/
structure Checker where
  topo : TSort
  graph : PG

namespace Checker

/-- `new`, `src/algorithms/dynamic.rs` lines 303–308. -/
def new (g : PG) : Option Checker := (TSort.withGraph (ofPG g)).map fun D => ⟨D, g⟩

/-- `add_node`, `src/algorithms/dynamic.rs` lines 361–365. -/
def addNode (maxOff : Nat) (c : Checker) (inputs outputs : Nat) : Option (Nat × Checker) :=
  match c.graph.addNode maxOff inputs outputs with
  | none => none
  | some (n, g) => some (n, ⟨c.topo.addNode n, g⟩)

/-- `remove_node`, `src/algorithms/dynamic.rs` lines 367–370. -/
def removeNode (c : Checker) (n : Nat) : Option Checker :=
  match c.graph.removeNode n with
  | none => none
  | some g =>
    match c.topo.removeNode n with
    | some (.ok D) => some ⟨D, g⟩
    | _ => none

/-- `link_ports`, `src/algorithms/dynamic.rs` lines 387–416; `none` is one of the panics. -/
def linkPorts (c : Checker) (p q : Nat) : Option (Except LinkError (Nat × Nat) × Checker) :=
  match c.graph.portNode p with
  | none => some (.error (.unknownPort p), c)
  | some a =>
    match c.graph.portNode q with
    | none => some (.error (.unknownPort q), c)
    | some b =>
      match c.topo.wouldCreateCycle (ofPG c.graph) b a with
      | none => none
      | some true => none
      | some false =>
        match c.graph.linkPorts p q with
        | none => none
        | some (.error e, g) => some (.error e, ⟨c.topo, g⟩)
        | some (.ok r, g) =>
          match c.topo.connectNodes (ofPG g) a b with
          | none => none
          | some (.error (.invalidNode _)) => some (.error (.unknownPort p), ⟨c.topo, g⟩)
          | some (.error (.wouldCreateCycle _ _)) => none
          | some (.ok D) => some (.ok r, ⟨D, g⟩)

/-- The `for` loop of `src/algorithms/dynamic.rs` lines 424–432. -/
def disconnectAll (a : Nat) : List Nat → TSort → Option TSort
  | [], D => some D
  | b :: bs, D =>
    match D.disconnectNodes a b with
    | .ok D => disconnectAll a bs D
    | .error _ => none

/-- `unlink_port`, `src/algorithms/dynamic.rs` lines 418–435. -/
def unlinkPort (c : Checker) (p : Nat) : Option (Option Nat × Checker) :=
  match c.graph.unlinkPort p with
  | none => none
  | some (r, g) =>
    if r.isSome then
      match g.portNode p with
      | none => none
      | some a =>
        match disconnectAll a (neighbours (ofPG g) a .outgoing) c.topo with
        | none => none
        | some D => some (r, ⟨D, g⟩)
    else some (r, ⟨c.topo, g⟩)

/-- `clear`, `src/algorithms/dynamic.rs` line 374. -/
def clear (c : Checker) : Checker := ⟨c.topo, c.graph.clear⟩

/-- `any` with a function that may panic.
Not in the code: the early return of the loops of `src/algorithms/dynamic.rs` lines 441–513. -/
def anyM (f : Nat → Option Bool) : List Nat → Option Bool
  | [] => some false
  | x :: xs =>
    match f x with
    | none => none
    | some true => some true
    | some false => anyM f xs

/-- `is_convex`, `src/algorithms/dynamic.rs` lines 441–513. -/
def isConvex (c : Checker) (S inputs outputs : List Nat) : Option Bool :=
  let nodes := S.dedup
  if nodes.any fun n => (c.topo.pos n).isNone then some false
  else if nodes.length < 2 then some true
  else
    let ps := nodes.filterMap c.topo.pos
    let lo := ps.foldl min (ps.headD 0)
    let hi := ps.foldl max 0
    let G := ofPG c.graph
    if inputs.isEmpty && outputs.isEmpty then
      (anyM (fun s => anyM (fun e =>
        if s = e then some false
        else match c.topo.pos s, c.topo.pos e with
          | some ps, some pe => if ps < pe then c.topo.hasPathOutside G s e lo hi nodes else some false
          | _, _ => none) nodes) nodes).map (!·)
    else
      (anyM (fun p => match c.graph.portNode p with
        | none => some false
        | some n => if nodes.contains n then c.topo.canReachInputs G n lo hi nodes inputs else some false) outputs).map (!·)

end Checker

end Verif.Dyn
