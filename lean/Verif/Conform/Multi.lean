import Verif.Conform.Hierarchy
import Verif.Insert.Model
import Verif.Multi.IterModel

/-!
# The tests of `src/multiportgraph.rs`, lines 671–end
-/

namespace Verif.Conform

open Verif (Direction)
open Verif.PG Verif.Multi Verif.CopyIn Verif.View

/-- `add_node`. -/
def addM (m : MG) (i o : Nat) : Option (Nat × MG) := m.addNode maxOff i o

/-- `link_ports(..).unwrap()`. -/
def linkMP (m : MG) (a b : Nat) : Option ((Subport × Subport) × MG) := do
  match ← m.linkPorts maxOff a b with
  | (.ok x, m) => some (x, m)
  | (.error _, _) => none

/-- `link_nodes(..).unwrap()`. -/
def linkMN (m : MG) (a i b j : Nat) : Option MG := do
  let (_, m) ← linkMP m (← m.graph.portIndex a .outgoing i) (← m.graph.portIndex b .incoming j)
  some m

/-- The iterators of `src/multiportgraph/iter.rs`, collected. -/
def mlinks (m : MG) (n : Nat) (d : Direction) : Option (List (Subport × Subport)) := items (MLinks.next m 100) 100 (m.linksIter n d)
def mallLinks (m : MG) (n : Nat) : Option (List (Subport × Subport)) := items (MLinks.next m 100) 100 (m.allLinksIter n)
def mconns (m : MG) (a b : Nat) : Option (List (Subport × Subport)) :=
  items (connsNext m b 100 100) 100 (m.linksIter a .outgoing)
def msubs (m : MG) (n : Nat) (d : Direction) : Option (List Subport) := items (MSubs.next m 100) 100 (.new (m.graph.ports n d))
def mneigh (m : MG) (n : Nat) (d : Direction) : Option (List Nat) :=
  items (MNeigh.next m 100 100) 100 (.new (m.graph.ports n d) n false)
def mallNeigh (m : MG) (n : Nat) : Option (List Nat) :=
  items (MNeigh.next m 100 100) 100 (.new (m.graph.allPorts n) n true)
def mportLinks (m : MG) (p : Nat) : Option (List (Subport × Subport)) := do items (PLinks.next m) 100 (← m.plinks p)

/-- `create_graph`. -/
def multiCreate : Option Unit := do
  let m := MG.empty
  same [m.nodeCount, m.portCount, m.linkCount] [0, 0, 0]
  same (← items (MNodes.next m) 100 m.nodesIter) []
  same (← items (mportsNext m) 100 m.graph.portsIter) []

example : multiCreate = some () := by decide +kernel

/-- `link_ports`. -/
def multiLink : Option Unit := do
  let (n0, m) ← addM MG.empty 2 1
  let (n1, m) ← addM m 1 2
  let p ← m.graph.portIndex n0 .outgoing 0
  let q ← m.graph.portIndex n1 .incoming 0
  same m.linkCount 0
  same (← mconns m n0 n1) []
  same (← mconns m n1 n0) []
  let ((f0, t0), m) ← linkMP m p q
  let ((f1, t1), m) ← linkMP m p q
  let ((f2, t2), m) ← linkMP m p q
  same [f0, f1, f2] [(p, 0), (p, 1), (p, 2)]
  same [t0, t1, t2] [(q, 0), (q, 1), (q, 2)]
  same m.linkCount 3
  same (← m.subportLink? f0) (some t0)
  same (← m.subportLink? t1) (some f1)
  same (← mportLinks m p) [(f0, t0), (f1, t1), (f2, t2)]
  same (← mconns m n0 n1) [(f0, t0), (f1, t1), (f2, t2)]
  same (← m.connections? n0 n1) [(f0, t0), (f1, t1), (f2, t2)]
  same (← mconns m n1 n0) []
  let (r, m) ← m.unlinkSubport f0
  same r (some t0)
  same m.linkCount 2
  same (← mconns m n0 n1) [(f1, t1), (f2, t2)]

example : multiLink = some () := by decide +kernel

/-- The checks of `link_iterators`, for the iterators and for their lists. -/
def multiIters (m : MG) (n : Nat) (inL outL allL : List (Subport × Subport)) (inN outN allN : List Nat) : Option Unit := do
  same (← mlinks m n .incoming) inL
  same (← mlinks m n .outgoing) outL
  same (← mallLinks m n) allL
  same (← mneigh m n .incoming) inN
  same (← mneigh m n .outgoing) outN
  same (← mallNeigh m n) allN
  same (← m.links? n .incoming) inL
  same (← m.links? n .outgoing) outL
  same (← m.allLinks? n) allL
  same (← m.neighbours? n .incoming) inN
  same (← m.neighbours? n .outgoing) outN
  same (← m.allNeighbours? n) allN

/-- `link_iterators`. -/
def multiIterators : Option Unit := do
  let (n0, m) ← addM MG.empty 1 2
  let (n1, m) ← addM m 2 1
  let i ← m.graph.portIndex n0 .incoming 0
  let o0 ← m.graph.portIndex n0 .outgoing 0
  let o1 ← m.graph.portIndex n0 .outgoing 1
  let j0 ← m.graph.portIndex n1 .incoming 0
  let j1 ← m.graph.portIndex n1 .incoming 1
  multiIters m n0 [] [] [] [] [] []
  let m ← linkMN m n0 0 n1 0
  let m ← linkMN m n0 0 n1 1
  let m ← linkMN m n0 1 n1 1
  same (← msubs m n0 .outgoing) [(o0, 0), (o0, 1), (o1, 0)]
  same (← msubs m n1 .incoming) [(j0, 0), (j1, 0), (j1, 1)]
  let links := [((o0, 0), (j0, 0)), ((o0, 1), (j1, 0)), ((o1, 0), (j1, 1))]
  multiIters m n0 [] links links [] [n1, n1, n1] [n1, n1, n1]
  same (← mportLinks m o0) (links.take 2)
  let m ← linkMN m n0 0 n0 0
  same (← msubs m n0 .outgoing) [(o0, 0), (o0, 1), (o0, 2), (o1, 0)]
  same (← msubs m n0 .incoming) [(i, 0)]
  let links := [((o0, 0), (j0, 0)), ((o0, 1), (j1, 0)), ((o0, 2), (i, 0)), ((o1, 0), (j1, 1))]
  multiIters m n0 [((i, 0), (o0, 2))] links links [n0] [n1, n1, n0, n1] [n1, n1, n0, n1]
  same (← mportLinks m o0) (links.take 3)

example : multiIterators = some () := by decide +kernel

/-- `insert_graph`. -/
def multiInsert : Option Unit := do
  let (_, m) ← addM MG.empty 0 0
  let (_, m) ← addM m 0 0
  let (n0, m) ← addM m 1 1
  let (n1, m) ← addM m 1 1
  let m ← linkMN m n0 0 n1 0
  let (m0, h) ← add PG.empty 2 2
  let (m1, h) ← add h 1 1
  let h ← linkN h m0 0 m1 0
  let h ← linkN h m0 1 m0 0
  let h ← linkN h m1 0 m0 1
  match ← Insert.insertGraph (mgHost maxOff) (ofPG h 0 0) m with
  | (.error _, _) => none
  | (.ok map, m) =>
    same map.length 2
    same m.nodeCount 6
    same m.linkCount 4
    let k0 ← map.lookup m0
    let k1 ← map.lookup m1
    assert (m.containsNode k0)
    assert (m.containsNode k1)
    same (← mneigh m k0 .incoming) [k0, k1]
    same (← mneigh m k0 .outgoing) [k1, k0]
    same (← mallNeigh m k0) [k1, k1, k0]

example : multiInsert = some () := by decide +kernel

/-- `remove_ports`: no panic. -/
def multiRemove : Option Unit := do
  let (n, m) ← addM MG.empty 2 2
  let (i1, m) ← addM m 0 1
  let m ← linkMN m i1 0 n 0
  let (o0, m) ← addM m 1 0
  let (o1, m) ← addM m 1 0
  let m ← linkMN m n 0 o0 0
  let m ← linkMN m n 0 o1 0
  let m ← linkMN m n 1 o0 0
  let _ ← m.setNumPorts n 1 2
  some ()

example : multiRemove = some () := by decide +kernel

end Verif.Conform
