import Verif.PortGraph.InsertModel

/-!
# The project's own tests, run on the model

The files in `Verif/Conform` transcribe the unit tests of the project (`/repo/src`) and run them on the
model: evidence that the model does what the code does, as these tests pass on the code. They are tests, no
proofs, and no theorem depends on them.

A test is a program in `Option`: `none` stands for a panic, a failed `unwrap` or a failed assertion.
-/

namespace Verif.Conform

open Verif (Direction)
open Verif.PG

/-- `assert!`. -/
def assert (b : Bool) : Option Unit := if b then some () else none

/-- `assert_eq!`. -/
def same {α : Type} [DecidableEq α] (a b : α) : Option Unit := assert (decide (a = b))

/-- The greatest offset of `u16`, the default type of port offsets. -/
abbrev maxOff : Nat := 32767

/-- `add_node`. -/
def add (g : PG) (i o : Nat) : Option (Nat × PG) := g.addNode maxOff i o

/-- `link_nodes(..).unwrap()`. -/
def linkN (g : PG) (a i b j : Nat) : Option PG := do
  match ← g.linkNodes a i b j with
  | (.ok _, g) => some g
  | (.error _, _) => none

/-- `link_ports(..).unwrap()`. -/
def linkP (g : PG) (a b : Nat) : Option PG := do
  match ← g.linkPorts a b with
  | (.ok _, g) => some g
  | (.error _, _) => none

/-- `link_ports(..).is_err()`. -/
def linkErr (g : PG) (a b : Nat) : Option Unit := do
  match ← g.linkPorts a b with
  | (.ok _, _) => none
  | (.error _, h) => same g h

/-- `input(node, offset)` and `output(node, offset)`. -/
def input (g : PG) (n k : Nat) : Option Nat := g.portIndex n .incoming k
def output (g : PG) (n k : Nat) : Option Nat := g.portIndex n .outgoing k

/-- All items of `links`, `all_links`, `neighbours` and `all_neighbours`. -/
def linksL (g : PG) (n : Nat) (d : Direction) : Option (List (Nat × Nat)) := do
  collect (fun s => some (NodeLinks.next s)) (g.portMeta.length + 1) (← g.links n d)
def allLinksL (g : PG) (n : Nat) : Option (List (Nat × Nat)) := do
  collect (fun s => some (NodeLinks.next s)) (g.portMeta.length + 1) (← g.allLinks n)
def neighboursL (g : PG) (n : Nat) (d : Direction) : Option (List Nat) := do
  collect g.neighbourNext (g.portMeta.length + 1) (← g.links n d)
def allNeighboursL (g : PG) (n : Nat) : Option (List Nat) := do
  collect g.neighbourNext (g.portMeta.length + 1) (← g.allLinks n)

/-- All items of `get_connections`, forwards and backwards. -/
def connL (g : PG) (a b : Nat) : Option (List (Nat × Nat)) := do
  collect (fun s => some (g.connNext b (g.portMeta.length + 1) s)) (g.portMeta.length + 1) (← g.links a .outgoing)
def connRevL (g : PG) (a b : Nat) : Option (List (Nat × Nat)) := do
  collect (fun s => some (g.connNextBack b (g.portMeta.length + 1) s)) (g.portMeta.length + 1) (← g.links a .outgoing)

/-- `nodes_iter` and `ports_iter`. -/
def nodesL (g : PG) : Option (List Nat) := collect Nodes.next (g.nodeMeta.length + 1) g.nodesIter
def portsL (g : PG) : Option (List Nat) := collect Ports.next (g.portMeta.length + 1) g.portsIter

/-- `connected(a, b)` is asserted to be `v`. -/
def conn (g : PG) (a b : Nat) (v : Bool) : Option Unit := do same (← g.connected a b) v

/-- The counts are asserted. -/
def counts (g : PG) (links nodes ports : Nat) : Option Unit := do
  same g.linkCount links
  same g.nodeCount nodes
  same g.portCount ports

end Verif.Conform
