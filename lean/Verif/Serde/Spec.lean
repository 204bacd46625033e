import Verif.Serde.Model

/-!
# What serialisation should do

A pair of a writer and a reader is right on a value when the value is read back.
-/

namespace Verif.Serde

open Verif.PG Verif.Hier

/-- `x` survives being written and read. -/
def Survives {α : Type} (w : α → Data) (r : Data → Outcome α) (x : α) : Prop := r (w x) = .ok x

/-- An optional index is below `k`. -/
def Below (k : Nat) (o : Option Nat) : Prop := ∀ i, o = some i → i < k

/-- The numbers in a node entry fit into the fields of the code. -/
def EntryFits : NodeEntry → Prop
  | .free p n => Below (2 ^ 31) p ∧ Below (2 ^ 31) n
  | .node m => m.first < 2 ^ 31 ∧ m.incoming ≤ 65534 ∧ m.outgoing ≤ 65535 ∧ m.capacity ≤ 65535

/-- The node in a port entry fits into the packed field of the code. -/
def PortFits : PortEntry → Prop
  | .free => True
  | .port n _ => n < 2 ^ 31 - 1

/-- All the numbers in a graph fit into the fields of the code. -/
structure Fits (g : PG) : Prop where
  nodeMeta : ∀ e ∈ g.nodeMeta, EntryFits e
  portLink : ∀ o ∈ g.portLink, Below (2 ^ 31) o
  portMeta : ∀ e ∈ g.portMeta, PortFits e
  nodeFree : Below (2 ^ 31) g.nodeFree
  portFree : ∀ o ∈ g.portFree, Below (2 ^ 31) o
  nodeCount : g.nodeCount < 2 ^ 64
  portCount : g.portCount < 2 ^ 64
  linkCount : g.linkCount < 2 ^ 64

/-- The numbers in the data of a node of a hierarchy fit. -/
structure DataFits (x : NodeData) : Prop where
  first : Below (2 ^ 31) x.first
  last : Below (2 ^ 31) x.last
  count : x.count < 2 ^ 32
  parent : Below (2 ^ 31) x.parent
  prev : Below (2 ^ 31) x.prev
  next : Below (2 ^ 31) x.next

end Verif.Serde
