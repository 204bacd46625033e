import Verif.PortGraph.Model

/-!
# Specification of port graphs

An abstract port graph knows, for each live node, its numbers of incoming and outgoing
ports, and a partner for each endpoint `(node, direction, offset)`. Nothing here mentions
slots, slabs or free lists. `PG.abs` reads an abstract graph off the query functions of the
library.
-/

namespace Verif.PG

open Verif (Direction)

/-- A port named by node, direction and offset. -/
abbrev Endpoint := Nat × Direction × Nat

/-- An abstract port graph. -/
structure AGraph where
  counts : Nat → Option (Nat × Nat)
  link : Endpoint → Option Endpoint

namespace AGraph

/-- Number of ports in one direction. -/
def arity (A : AGraph) (n : Nat) (d : Direction) : Nat :=
  match A.counts n, d with
  | none, _ => 0
  | some (i, _), .incoming => i
  | some (_, o), .outgoing => o

/-- The endpoint exists. -/
def Has (A : AGraph) (e : Endpoint) : Prop := e.2.2 < A.arity e.1 e.2.1

/-- Links join existing endpoints of opposite directions and are mutual. -/
structure WF (A : AGraph) : Prop where
  ends : ∀ e f, A.link e = some f → A.Has e ∧ A.Has f
  sym : ∀ e f, A.link e = some f → A.link f = some e
  dir : ∀ e f, A.link e = some f → f.2.1 = e.2.1.reverse

/-- The graph without nodes. -/
def empty : AGraph := ⟨fun _ => none, fun _ => none⟩

/-- A new node without links. -/
def add (A : AGraph) (n i o : Nat) : AGraph :=
  { A with counts := fun n' => if n' = n then some (i, o) else A.counts n' }

/-- Delete the endpoints in `S` from the links. -/
def cutEnds (A : AGraph) (S : Endpoint → Bool) : AGraph :=
  { A with
    link := fun e => if S e then none else
      match A.link e with
      | none => none
      | some f => if S f then none else some f }

/-- Remove a node. -/
def remove (A : AGraph) (n : Nat) : AGraph :=
  { A.cutEnds (fun e => decide (e.1 = n)) with
    counts := fun n' => if n' = n then none else A.counts n' }

/-- Join two endpoints. -/
def join (A : AGraph) (e f : Endpoint) : AGraph :=
  { A with link := fun x => if x = e then some f else if x = f then some e else A.link x }

/-- Clear the link at an endpoint. -/
def unlink (A : AGraph) (e : Endpoint) : AGraph := A.cutEnds (fun x => decide (x = e))

/-- Change the port counts of a node: offsets past the new counts disappear. -/
def resize (A : AGraph) (n i o : Nat) : AGraph :=
  { A.cutEnds (fun e => decide (e.1 = n ∧ (match e.2.1 with | .incoming => i | .outgoing => o) ≤ e.2.2)) with
    counts := fun n' => if n' = n then some (i, o) else A.counts n' }

/-- Rename the node of an endpoint. -/
def mapNode (ρ : Nat → Nat) (e : Endpoint) : Endpoint := (ρ e.1, e.2)

/-- `B` is `A` with live nodes renamed by `ρ`. -/
structure Renamed (ρ : Nat → Nat) (A B : AGraph) : Prop where
  inj : ∀ a b, (A.counts a).isSome → (A.counts b).isSome → ρ a = ρ b → a = b
  counts : ∀ n c, B.counts n = some c ↔ ∃ a, ρ a = n ∧ A.counts a = some c
  link : ∀ e f, B.link e = some f ↔ ∃ e' f', mapNode ρ e' = e ∧ mapNode ρ f' = f ∧ A.link e' = some f'

end AGraph

namespace PG

/-- The endpoint of a port, by the queries `port_node` and `port_offset`. -/
def endpoint (g : PG) (p : Nat) : Option Endpoint :=
  match g.portNode p, g.portOffset p with
  | some n, some (some (d, k)) => some (n, d, k)
  | _, _ => none

/-- The abstract graph seen through `contains_node`, `num_ports`, `port_index`, `port_link`,
`port_node` and `port_offset`. -/
def abs (g : PG) : AGraph where
  counts n := if g.containsNode n then some (g.numPorts n .incoming, g.numPorts n .outgoing) else none
  link e :=
    match g.portIndex e.1 e.2.1 e.2.2 with
    | none => none
    | some p =>
      match g.portLink? p with
      | some (some q) => g.endpoint q
      | _ => none

/-- Where a port ends up when the reported port operations are followed in order; `none` once
it was reported removed. -/
def track : List (Nat × PortOp) → Nat → Option Nat
  | [], p => some p
  | (q, .moved r) :: tr, p => if p = q then track tr r else track tr p
  | (q, .removed _) :: tr, p => if p = q then none else track tr p

/-- The ports reported removed, in order. -/
def removedPorts : List (Nat × PortOp) → List Nat
  | [] => []
  | (q, .removed _) :: tr => q :: removedPorts tr
  | (_, .moved _) :: tr => removedPorts tr

/-! ## Histories -/

/-- The mutating calls. -/
inductive Op where
  | addNode (incoming outgoing : Nat)
  | removeNode (n : Nat)
  | linkPorts (a b : Nat)
  | unlinkPort (p : Nat)
  | setNumPorts (n incoming outgoing : Nat)
  | compactNodes
  | compactPorts
  | swapNodes (a b : Nat)
  | clear
deriving DecidableEq, Repr

/-- One call; `none` is a panic. -/
def step (maxOff : Nat) (g : PG) : Op → Option PG
  | .addNode i o => (g.addNode maxOff i o).map (·.2)
  | .removeNode n => g.removeNode n
  | .linkPorts a b => (g.linkPorts a b).map (·.2)
  | .unlinkPort p => (g.unlinkPort p).map (·.2)
  | .setNumPorts n i o => (g.setNumPorts n i o).map (·.1)
  | .compactNodes => (g.compactNodes).map (·.1)
  | .compactPorts => (g.compactPorts).map (·.1)
  | .swapNodes a b => g.swapNodes a b
  | .clear => some g.clear

/-- A whole history. -/
def run (maxOff : Nat) (g : PG) : List Op → Option PG
  | [] => some g
  | op :: ops =>
    match g.step maxOff op with
    | none => none
    | some g => run maxOff g ops

/-- The slot of a removed node that is not the first in the list of free slots: not the one that the
next `add_node` takes. -/
def spare (g : PG) (n : Nat) : Bool :=
  decide (n < g.nodeMeta.length) && !g.containsNode n && decide (g.nodeFree ≠ some n)

/-- Two live nodes, or a live node and a spare slot. -/
def swappable (g : PG) (a b : Nat) : Bool :=
  (g.containsNode a || g.spare a) && (g.containsNode b || g.spare b) && (g.containsNode a || g.containsNode b)

/-- What is asked of a call's arguments, in terms of queries. For `set_num_ports` the total
must not exceed 32768 (or fit the allocated capacity); for `compact_ports` no live node
without ports may own port slots; `swap_nodes` needs two live nodes, or a live node and a slot that the
next `add_node` does not take. -/
def Op.ok (maxOff : Nat) (g : PG) : Op → Prop
  | .addNode i o => i ≤ maxOff ∧ o ≤ maxOff
  | .setNumPorts n i o => i ≤ 65534 ∧ o ≤ 65535 ∧ (i + o ≤ 32768 ∨ i + o < g.nodePortCapacity n ∨
      g.containsNode n = false ∨ (g.numPorts n .incoming = i ∧ g.numPorts n .outgoing = o))
  | .compactPorts => ∀ n, g.numPorts n .incoming + g.numPorts n .outgoing = 0 → g.nodePortCapacity n = 0
  | .swapNodes a b => g.swappable a b = true
  | _ => True

/-- Graphs obtained from `PortGraph::new()` by such calls. -/
inductive Reach (maxOff : Nat) : PG → Prop where
  | init : Reach maxOff PG.empty
  | step {g g' op} : Reach maxOff g → Op.ok maxOff g op → g.step maxOff op = some g' → Reach maxOff g'

end PG

end Verif.PG
