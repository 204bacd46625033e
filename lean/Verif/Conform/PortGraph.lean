import Verif.Conform.Basic

/-!
# The tests of `src/portgraph.rs`, lines 1186–1600, and the examples of `src/view.rs`
-/

namespace Verif.Conform

open Verif (Direction)
open Verif.PG

/-- `create_graph`. -/
def createGraph : Option Unit := do
  let g := PG.empty
  counts g 0 0 0
  same (← nodesL g) []
  same (← portsL g) []

example : createGraph = some () := by decide +kernel

/-- The checks of `add_nodes` for one node. -/
def checkNode (g : PG) (n i o : Nat) : Option Unit := do
  assert (g.containsNode n)
  same (g.ports n .incoming).length i
  same (g.ports n .outgoing).length o
  same (g.numPorts n .incoming) i
  same (g.numPorts n .outgoing) o
  same (g.allPorts n).length (i + o)
  same (← collect Offsets.next (i + o + 1) (g.allPortOffsets n)).length (i + o)
  for d in [Direction.incoming, .outgoing] do
    for x in (g.ports n d).zipIdx do
      same (g.portDirection x.1) (some d)
      same (← g.portOffset x.1) (some (d, x.2))
      same (g.portNode x.1) (some n)
      same (g.portIndex n d x.2) (some x.1)
      same (← g.portLink? x.1) none

/-- `add_nodes`, without the capacities of the vectors, which are not modelled. -/
def addNodes : Option Unit := do
  let mut g := PG.empty
  for x in [(0, 1), (0, 0), (1, 0), (2, 1), (1, 6)] do
    let (n, h) ← add g x.1 x.2
    g := h
    checkNode g n x.1 x.2
  same (← nodesL g) (List.range 5)
  same (← portsL g) (List.range 12)

example : addNodes = some () := by decide +kernel

/-- `link_ports`. -/
def linkPortsTest : Option Unit := do
  let g := PG.empty
  let (n0, g) ← add g 2 1
  let (n1, g) ← add g 1 2
  let i0 ← input g n0 0
  let i02 ← input g n0 1
  let o0 ← output g n0 0
  let i1 ← input g n1 0
  let o1 ← output g n1 0
  let o12 ← output g n1 1
  same g.linkCount 0
  conn g n0 n1 false
  conn g n1 n0 false
  let g ← linkP g o0 i1
  same g.linkCount 1
  same (← connL g n0 n1) [(o0, i1)]
  conn g n1 n0 false
  let g ← linkN g n1 0 n0 0
  same g.linkCount 2
  same (← connL g n0 n1) [(o0, i1)]
  same (← connL g n1 n0) [(o1, i0)]
  let (_, g) ← g.unlinkPort o0
  same g.linkCount 1
  conn g n0 n1 false
  same (← connL g n1 n0) [(o1, i0)]
  let g ← linkN g n1 1 n0 1
  same g.linkCount 2
  conn g n0 n1 false
  same (← connL g n1 n0) [(o1, i0), (o12, i02)]
  same (← connRevL g n1 n0) [(o12, i02), (o1, i0)]

example : linkPortsTest = some () := by decide +kernel

/-- `link_ports_errors`. -/
def linkPortsErrors : Option Unit := do
  let g := PG.empty
  let (n0, g) ← add g 1 1
  let (n1, g) ← add g 1 1
  let i0 ← input g n0 0
  let o0 ← output g n0 0
  let i1 ← input g n1 0
  let o1 ← output g n1 0
  linkErr g i0 i1
  linkErr g o0 o1
  let g ← linkP g o0 i0
  linkErr g o0 i1
  let (_, g) ← g.unlinkPort o0
  let g ← g.removeNode n1
  linkErr g o1 i0

example : linkPortsErrors = some () := by decide +kernel

/-- The checks of `link_iterators`. -/
def iterators (g : PG) (n : Nat) (inL outL allL : List (Nat × Nat)) (inN outN allN : List Nat) : Option Unit := do
  same (← linksL g n .incoming) inL
  same (← linksL g n .outgoing) outL
  same (← allLinksL g n) allL
  same (← neighboursL g n .incoming) inN
  same (← neighboursL g n .outgoing) outN
  same (← allNeighboursL g n) allN

/-- `link_iterators`. -/
def linkIterators : Option Unit := do
  let g := PG.empty
  let (n0, g) ← add g 1 3
  let (n1, g) ← add g 2 1
  let i0 ← input g n0 0
  let o0 ← output g n0 0
  let o1 ← output g n0 1
  let o2 ← output g n0 2
  let j0 ← input g n1 0
  let j1 ← input g n1 1
  iterators g n0 [] [] [] [] [] []
  let g ← linkN g n0 0 n1 0
  iterators g n0 [] [(o0, j0)] [(o0, j0)] [] [n1] [n1]
  let g ← linkN g n0 1 n1 1
  iterators g n0 [] [(o0, j0), (o1, j1)] [(o0, j0), (o1, j1)] [] [n1, n1] [n1, n1]
  let g ← linkN g n0 2 n0 0
  iterators g n0 [(i0, o2)] [(o0, j0), (o1, j1), (o2, i0)] [(o0, j0), (o1, j1), (o2, i0)] [n0] [n1, n1, n0] [n1, n1, n0]

example : linkIterators = some () := by decide +kernel

/-- The ring `a`, `b`, `c` stays connected. -/
def ring (g : PG) (a b c : Nat) : Option Unit := do
  conn g a b true
  conn g b b true
  conn g b c true
  conn g c a true

/-- The graph of `compact_operations` and `resize_ports`. -/
def ringGraph : Option (Nat × Nat × Nat × Nat × PG) := do
  let g := PG.empty
  let (x, g) ← add g 3 2
  let (a, g) ← add g 1 1
  let (b, g) ← add g 2 2
  let (c, g) ← add g 1 1
  let g ← linkN g a 0 b 0
  let g ← linkN g b 0 b 1
  let g ← linkN g b 1 c 0
  let g ← linkN g c 0 a 0
  counts g 4 4 13
  some (x, a, b, c, g)

/-- `compact_operations`. -/
def compactOperations : Option Unit := do
  let (x, a, b, c, g) ← ringGraph
  let ai ← input g a 0
  let ao ← input g a 0
  let g ← g.removeNode x
  counts g 4 3 8
  ring g a b c
  let (g, new) ← g.compactNodes
  same (← nodesL g) (List.range 3)
  same new.length 3
  let a ← new.lookup a
  let b ← new.lookup b
  let c ← new.lookup c
  same (g.portNode ai) (some a)
  same (g.portNode ao) (some a)
  counts g 4 3 8
  ring g a b c
  let (g, newP) ← g.compactPorts
  same (← portsL g) (List.range 8)
  same newP.length 8
  same (g.portNode (← newP.lookup ai)) (some a)
  same (g.portNode (← newP.lookup ao)) (some a)
  counts g 4 3 8
  ring g a b c

example : compactOperations = some () := by decide +kernel

/-- `resize_ports`. -/
def resizePorts : Option Unit := do
  let (x, a, b, c, g) ← ringGraph
  let (g, _) ← g.setNumPorts x 0 3
  counts g 4 4 11
  ring g a b c
  let (g, _) ← g.setNumPorts x 0 0
  counts g 4 4 8
  ring g a b c
  let (g, _) ← g.setNumPorts a 2 3
  counts g 4 4 11
  ring g a b c
  let (g, _) ← g.setNumPorts b 2 3
  counts g 4 4 12
  ring g a b c
  let (g, _) ← g.setNumPorts b 3 2
  counts g 4 4 12
  ring g a b c
  let (g, _) ← g.setNumPorts b 2 3
  counts g 4 4 12
  ring g a b c
  let (d, g) ← add g 0 0
  let (g, _) ← g.setNumPorts d 2 3
  same g.portCount 17
  let (g, _) ← g.setNumPorts d 0 0
  same g.portCount 12
  let g := g.clear
  let (n0, g) ← add g 0 2
  let (n1, g) ← add g 2 1
  let g ← linkN g n0 0 n1 0
  let (g, _) ← g.setNumPorts n1 1 1
  let o ← output g n0 0
  let i ← (← g.portLink? o)
  assert (g.portNode i).isSome

example : resizePorts = some () := by decide +kernel

/-- `insert_graph`. -/
def insertGraphTest : Option Unit := do
  let g := PG.empty
  let (_, g) ← add g 0 0
  let (_, g) ← add g 0 0
  let (n0, g) ← add g 1 1
  let (n1, g) ← add g 1 1
  let g ← linkN g n0 0 n1 0
  let h := PG.empty
  let (m0, h) ← add h 2 2
  let (m1, h) ← add h 1 1
  let h ← linkN h m0 0 m1 0
  let h ← linkN h m0 1 m0 0
  let h ← linkN h m1 0 m0 1
  match ← g.insertGraph maxOff h with
  | (.error _, _) => none
  | (.ok map, g) =>
    same map.length 2
    same g.nodeCount 6
    same g.linkCount 4
    let k0 ← map.lookup m0
    let k1 ← map.lookup m1
    assert (g.containsNode k0)
    assert (g.containsNode k1)
    same (← neighboursL g k0 .incoming) [k0, k1]
    same (← neighboursL g k0 .outgoing) [k1, k0]
    same (← allNeighboursL g k0) [k1, k1, k0]

example : insertGraphTest = some () := by decide +kernel

/-! ## The examples in the documentation of `src/view.rs` -/

/-- `port_offsets`, lines 118–125. -/
def docPortOffsets : Option Unit := do
  let (n, g) ← add PG.empty 0 2
  same (← linksL g n .incoming) []
  same (← collect Offsets.next 5 (g.portOffsets n .outgoing)) [(.outgoing, 0), (.outgoing, 1)]

example : docPortOffsets = some () := by decide +kernel

/-- `remove_node`, lines 233–248. -/
def docRemoveNode : Option Unit := do
  let (n0, g) ← add PG.empty 1 1
  let (n1, g) ← add g 1 1
  let g ← linkP g (← output g n0 0) (← input g n1 0)
  let g ← linkP g (← output g n1 0) (← input g n0 0)
  let g ← g.removeNode n0
  assert (!g.containsNode n0)
  same (← g.portLink? (← output g n1 0)) none
  same (← g.portLink? (← input g n1 0)) none

example : docRemoveNode = some () := by decide +kernel

/-- `get_connections`, `get_connection` and `connected`, lines 308–365. -/
def docConnections : Option Unit := do
  let (a, g) ← add PG.empty 0 2
  let (b, g) ← add g 2 0
  let g ← linkN g a 0 b 0
  conn g a b true
  let g ← linkN g a 1 b 1
  same (← connL g a b) [(← output g a 0, ← input g b 0), (← output g a 1, ← input g b 1)]
  same (← g.getConnection a b) (some (← output g a 0, ← input g b 0))

example : docConnections = some () := by decide +kernel

/-- `links`, lines 392–407, and `neighbours`, lines 449–462. -/
def docLinks : Option Unit := do
  let (a, g) ← add PG.empty 0 2
  let (b, g) ← add g 1 0
  let p ← output g a 0
  let q ← input g b 0
  let g ← linkP g p q
  same (← linksL g a .outgoing) [(p, q)]
  same (← linksL g b .incoming) [(q, p)]
  same (← g.portLink? p) (some q)
  same (← g.portLink? q) (some p)
  let (a, g) ← add PG.empty 0 1
  let (b, g) ← add g 2 1
  let g ← linkN g a 0 b 0
  let g ← linkN g b 0 b 1
  same (← neighboursL g a .outgoing) [b]
  same (← neighboursL g b .incoming) [a, b]

example : docLinks = some () := by decide +kernel

end Verif.Conform
