import Verif.PortGraph.History

/-!
# The port slots of a port graph: who owns them

The port tables (`port_meta`, `port_link`) are cut into slabs. A slab is either reserved for a live node
(`NodeMeta`: first slot and capacity) or it is on the list of free slabs of its size. This file lists the slots
of all slabs by reading the tables alone.
-/

namespace Verif.Slots

open Verif.PG

/-- The slabs met when following a list of free slabs from `h`, at most `k` of them. The next pointer of a free
slab is kept in the link entry of its first slot (`src/portgraph.rs` lines 60–66 and 220–222). -/
def walk (g : PG) : Nat → Option Nat → List Nat
  | 0, _ => []
  | _ + 1, none => []
  | k + 1, some f => f :: walk g k (g.portLink[f]?).join

/-- The free slabs of size `s`, in the order in which they will be used. -/
def freeSlabs (g : PG) (s : Nat) : List Nat := walk g g.portMeta.length (g.portFree[s - 1]?).join

/-- The slots reserved for node `n`, with ports or not. -/
def nodeSlots (g : PG) (n : Nat) : List Nat :=
  match g.nodeMeta[n]? with
  | some (.node m) => List.range' m.first m.capacity
  | _ => []

/-- The slots of the free slabs of size `s`. -/
def freeSlots (g : PG) (s : Nat) : List Nat := (freeSlabs g s).flatMap fun f => List.range' f s

/-- The slots of all slabs: those of the nodes, then those of the free slabs of size 1, 2, and so on. -/
def slots (g : PG) : List Nat :=
  (List.range g.nodeMeta.length).flatMap (nodeSlots g) ++
    (List.range g.portFree.length).flatMap fun k => freeSlots g (k + 1)

/-- The number of live nodes with capacity `s`. -/
def liveSlabs (g : PG) (s : Nat) : Nat := (List.range g.nodeMeta.length).countP fun n => (nodeSlots g n).length == s

end Verif.Slots
