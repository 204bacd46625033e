import Verif.View.Props

/-!
# Model of `src/multiportgraph.rs` and `src/multiportgraph/iter.rs`

A `MultiPortGraph` is a `PortGraph` with two bit vectors. A port with more than one link is linked
to a *copy node*, whose ports in the direction of the port (the *subports*) carry the links.

The bit vectors are total functions with default `false`; `C81` proves that this makes no difference.
Indices are natural numbers. The outer `Option` of a result is `none` when the Rust code panics
(failed `unwrap`, `expect`, `assert!`, or arithmetic underflow and failed `debug_assert!` in a debug
build).
-/

namespace Verif.Multi

open Verif (Direction)
open Verif.PG Verif.View

/-- `MultiPortGraph`, `src/multiportgraph.rs` lines 33–45. -/
structure MG where
  graph : PG
  /-- the flags `multiport` -/
  multi : Nat → Bool
  /-- the flags `copy_node` -/
  copy : Nat → Bool
  copyCount : Nat
  subCount : Nat

/-- `SubportIndex`, `src/multiportgraph.rs` lines 64–69: the port and the offset. -/
abbrev Subport := Nat × Nat

/-- `SubportIndex::new_multi`, `src/multiportgraph.rs` lines 630–641; the assertion fails from 65535 on. -/
def newMulti (p k : Nat) : Option Subport := if k < 65535 then some (p, k) else none

/-- A flag is changed. `set` of `BitVec`, `src/secondary.rs` lines 138–148. -/
def setFlag (f : Nat → Bool) (i : Nat) (b : Bool) : Nat → Bool := fun j => if j = i then b else f j

/-- `SecondaryMap::swap` of `BitVec`, `src/secondary.rs` lines 169–178: two flags are exchanged. -/
def swapFlag (f : Nat → Bool) (i j : Nat) : Nat → Bool :=
  fun k => if k = i then f j else if k = j then f i else f k

namespace MG

/-- `MultiPortGraph::new`, `src/multiportgraph.rs` lines 73–81. -/
def empty : MG := ⟨PG.empty, fun _ => false, fun _ => false, 0, 0⟩

/-- `From<PortGraph>`, `src/multiportgraph.rs` lines 595–607. -/
def ofGraph (g : PG) : MG := ⟨g, fun _ => false, fun _ => false, 0, 0⟩

/-! ## Helpers that read -/

/-- `copy_node_main_port`, `src/multiportgraph.rs` lines 509–543. The inner `Option` is the Rust result. -/
def mainPort (m : MG) (c : Nat) : Option (Option Nat) :=
  if m.copy c then
    match m.graph.ports c .incoming, m.graph.ports c .outgoing with
    | [i], [o] => m.graph.portLink? (if m.multi i then i else o)
    | [i], _ => m.graph.portLink? i
    | _, [o] => m.graph.portLink? o
    | _, _ => none
  else none

/-- `get_subport_from_index`, `src/multiportgraph.rs` lines 583–592. -/
def fromIndex (m : MG) (i : Nat) : Option (Option Subport) :=
  match m.graph.portNode i with
  | none => none
  | some c =>
    if m.copy c then
      match m.mainPort c with
      | none => none
      | some none => some none
      | some (some p) =>
        match m.graph.portOffset i with
        | none => none
        | some none => some none
        | some (some (_, k)) => (newMulti p k).map some
    else some (some (i, 0))

/-- `get_copy_node`, `src/multiportgraph.rs` lines 561–564. -/
def copyNode (m : MG) (p : Nat) : Option (Option Nat) :=
  match m.graph.portLink? p with
  | none => none
  | some none => some none
  | some (some l) => some (m.graph.portNode l)

/-- `get_subport_index`, `src/multiportgraph.rs` lines 569–579. -/
def index (m : MG) (e : Subport) : Option (Option Nat) :=
  if m.multi e.1 then
    match m.copyNode e.1 with
    | none => none
    | some none => some none
    | some (some c) =>
      match m.graph.portDirection e.1 with
      | none => some none
      | some d => some (m.graph.portIndex c d e.2)
  else some (some e.1)

/-! ## Queries -/

/-- `contains_node`, `src/multiportgraph.rs` lines 118–120. -/
def containsNode (m : MG) (n : Nat) : Bool := m.graph.containsNode n && !m.copy n

/-- `contains_port`, `src/multiportgraph.rs` lines 123–127. -/
def containsPort (m : MG) (p : Nat) : Bool :=
  match m.graph.portNode p with
  | none => false
  | some n => !m.copy n

/-- `node_count`, `src/multiportgraph.rs` lines 135–137. The subtractions of the counts are those of `usize`, in a debug
build; `C40_counts_partial` shows that they do not underflow. -/
def nodeCount (m : MG) : Nat := m.graph.nodeCount - m.copyCount

/-- `port_count`, `src/multiportgraph.rs` lines 140–145. -/
def portCount (m : MG) : Nat := m.graph.portCount - m.subCount - m.copyCount

/-- `link_count`, `src/multiportgraph.rs` lines 280–283. -/
def linkCount (m : MG) : Nat := m.graph.linkCount - m.copyCount

/-- `nodes_iter`, `src/multiportgraph.rs` lines 148–154 with `src/multiportgraph/iter.rs` lines 93–100: the items. -/
def nodes (m : MG) : List Nat :=
  ((List.range m.graph.nodeMeta.length).filter m.graph.containsNode).filter fun n => !m.copy n

/-- `ports_iter`, `src/multiportgraph.rs` lines 157–159 with `src/multiportgraph/iter.rs` lines 523–528: the items. -/
def portsIter (m : MG) : List Nat :=
  ((List.range m.graph.portMeta.length).filter m.graph.containsPort).filter fun p =>
    match m.graph.portNode p with
    | some n => !m.copy n
    | none => false

/-- `port_links_single` and `port_links_multiport`, `src/multiportgraph/iter.rs` lines 411–431: `e` is the endpoint
to be shown and `i` the port of the flat graph that carries the link. -/
def linkFrom (m : MG) (e : Option Subport) (i : Nat) : Option (Option (Subport × Subport)) :=
  match m.graph.portLink? i with
  | none => none
  | some none => some none
  | some (some l) =>
    match m.fromIndex l with
    | none => none
    | some none => some none
    | some (some f) => e.map fun e => some (e, f)

/-- `PortLinks`, `src/multiportgraph/iter.rs` lines 373–455: all items. -/
def portLinks? (m : MG) (p : Nat) : Option (List (Subport × Subport)) :=
  if m.multi p then
    match m.copyNode p with
    | some (some c) =>
      match m.graph.portDirection p with
      | none => none
      | some d =>
        ((m.graph.ports c d).zipIdx.mapM fun x => m.linkFrom (newMulti p x.2) x.1).map fun l => l.filterMap id
    | _ => none
  else (m.linkFrom (some (p, 0)) p).map Option.toList

/-- The items of a `NodeLinks` iterator over the ports, `src/multiportgraph/iter.rs` lines 304–326. -/
def linksOf? (m : MG) (ps : List Nat) : Option (List (Subport × Subport)) := (ps.mapM m.portLinks?).map List.flatten

/-- `_links`, `src/multiportgraph/iter.rs` lines 36–38: no target is ignored. -/
def links? (m : MG) (n : Nat) (d : Direction) : Option (List (Subport × Subport)) := m.linksOf? (m.graph.ports n d)

/-- `_all_links`, `src/multiportgraph/iter.rs` lines 42–45: targets among the outgoing ports of the node are ignored
(lines 320–322). -/
def allLinks? (m : MG) (n : Nat) : Option (List (Subport × Subport)) :=
  (m.linksOf? (m.graph.allPorts n)).map fun l =>
    l.filter fun x => !(m.graph.ports n .outgoing).contains x.2.1

/-- `_get_connections`, `src/multiportgraph/iter.rs` lines 19–25 and 357–365. The `?` of line 360 ends the iteration at
a target without node. -/
def connections? (m : MG) (a b : Nat) : Option (List (Subport × Subport)) :=
  (m.links? a .outgoing).map fun l =>
    (l.takeWhile fun x => (m.graph.portNode x.2.1).isSome).filter fun x =>
      decide (m.graph.portNode x.2.1 = some b)

/-- `NodeSubports` for one port, `src/multiportgraph/iter.rs` lines 170–187 and 161–167. -/
def subportsAt? (m : MG) (p : Nat) : Option (List Subport) :=
  if m.multi p then
    match m.graph.portDirection p, m.copyNode p with
    | some d, some (some c) => (List.range (m.graph.numPorts c d)).mapM fun k => newMulti p k
    | _, _ => none
  else some [(p, 0)]

/-- The items of a `NodeSubports` iterator over the ports.
`src/multiportgraph/iter.rs` lines 161–187. -/
def subportsOf? (m : MG) (ps : List Nat) : Option (List Subport) := (ps.mapM m.subportsAt?).map List.flatten

/-- The closure of `Neighbours::next`, `src/multiportgraph/iter.rs` lines 234–252: the flat port at the other end of a
subport. The cached `current_copy_node` is the copy node of the port, as the subports of a port are
visited one after the other starting with offset 0. -/
def subportTarget? (m : MG) (e : Subport) : Option (Option Nat) :=
  if !m.multi e.1 then m.graph.portLink? e.1
  else
    match m.copyNode e.1, m.graph.portDirection e.1 with
    | some (some c), some d =>
      match m.graph.portIndex c d e.2 with
      | none => none
      | some i => m.graph.portLink? i
    | _, _ => none

/-- `Neighbours::next`, `src/multiportgraph/iter.rs` lines 232–269, for one subport: the node to be yielded, if any. -/
def neighbourAt? (m : MG) (n : Nat) (ignore : Bool) (e : Subport) : Option (Option Nat) :=
  match m.subportTarget? e with
  | none => none
  | some none => some none
  | some (some l) =>
    match m.fromIndex l with
    | some (some f) =>
      match m.graph.portNode f.1, m.graph.portDirection f.1 with
      | some k, some d => if ignore && k == n && d == .outgoing then some none else some (some k)
      | _, _ => none
    | _ => none

/-- `_neighbours`, `src/multiportgraph/iter.rs` lines 58–60. -/
def neighbours? (m : MG) (n : Nat) (d : Direction) : Option (List Nat) :=
  match m.subportsOf? (m.graph.ports n d) with
  | none => none
  | some l => (l.mapM (m.neighbourAt? n false)).map fun l => l.filterMap id

/-- `_all_neighbours`, `src/multiportgraph/iter.rs` lines 64–66. -/
def allNeighbours? (m : MG) (n : Nat) : Option (List Nat) :=
  match m.subportsOf? (m.graph.allPorts n) with
  | none => none
  | some l => (l.mapM (m.neighbourAt? n true)).map fun l => l.filterMap id

/-- `subport_link`, `src/multiportgraph.rs` lines 329–333. -/
def subportLink? (m : MG) (e : Subport) : Option (Option Subport) :=
  match m.index e with
  | none => none
  | some none => some none
  | some (some i) =>
    match m.graph.portLink? i with
    | none => none
    | some none => some none
    | some (some l) => m.fromIndex l

/-- `pg_main_node`, `src/multiportgraph.rs` lines 105–111. -/
def mainNode? (m : MG) (n : Nat) : Option Nat :=
  if !m.copy n then some n
  else
    match m.mainPort n with
    | some (some p) => m.graph.portNode p
    | _ => none

/-! ## Mutation -/

/-- `add_node`, `src/multiportgraph.rs` lines 192–194. -/
def addNode (maxOff : Nat) (m : MG) (i o : Nat) : Option (Nat × MG) :=
  (m.graph.addNode maxOff i o).map fun x => (x.1, { m with graph := x.2 })

/-- `clear`, `src/multiportgraph.rs` lines 206–212. -/
def clear (m : MG) : MG := ⟨m.graph.clear, fun _ => false, fun _ => false, 0, 0⟩

/-- `remove_copy_node`, `src/multiportgraph.rs` lines 375–397. `link` is the first link of the port that connects the copy
node to its main port. -/
def removeCopyNode (m : MG) (p cp : Nat) : Option (Option Subport × MG) :=
  match m.graph.port? cp with
  | none => none
  | some (c, d) =>
    if m.copy c then
      match (m.graph.ports c d).mapM m.graph.portLink? with
      | none => none
      | some ls =>
        match (match (ls.filterMap id).head? with
          | none => some none
          | some t => (m.fromIndex t).bind fun r => r.map some) with
        | none => none
        | some link =>
          let subs := m.graph.ports c d.reverse
          match m.graph.removeNode c with
          | none => none
          | some g =>
            let multi := setFlag (setFlag m.multi cp false) p false
            if 1 ≤ m.copyCount ∧ subs.length ≤ m.subCount ∧ subs.all fun q => !multi q then
              some (link, ⟨g, multi, setFlag m.copy c false, m.copyCount - 1, m.subCount - subs.length⟩)
            else none
    else none

/-- `unlink_port`, `src/multiportgraph.rs` lines 315–325. -/
def unlinkPort (m : MG) (p : Nat) : Option (Option Subport × MG) :=
  if m.multi p then
    match m.graph.portLink? p with
    | some (some l) => m.removeCopyNode p l
    | _ => none
  else
    (m.graph.unlinkPort p).map fun x => (x.1.map fun q => (q, 0), { m with graph := x.2 })

/-- The loop of `remove_node`, `src/multiportgraph.rs` lines 198–202. -/
def unlinkMultis (m : MG) : List Nat → Option MG
  | [] => some m
  | p :: ps =>
    if m.multi p then
      match m.unlinkPort p with
      | none => none
      | some (_, m) => unlinkMultis m ps
    else unlinkMultis m ps

/-- `remove_node`, `src/multiportgraph.rs` lines 196–204. -/
def removeNode (m : MG) (n : Nat) : Option MG :=
  if m.copy n then none
  else
    match m.unlinkMultis (m.graph.allPorts n) with
    | none => none
    | some m => (m.graph.removeNode n).map fun g => { m with graph := g }

/-- `rekey_wrapper` of `set_num_ports`, `src/multiportgraph.rs` lines 226–236, over all the calls: the flags and the
dropped multiports with their links. The calls happen while the port graph is changed, which does
not touch the flags. -/
def rekeyFlags : (Nat → Bool) → List (Nat × PortOp) → Option ((Nat → Bool) × List (Nat × Nat))
  | f, [] => some (f, [])
  | f, (p, .removed old) :: tr =>
    if f p then
      match old with
      | none => none
      | some l => (rekeyFlags f tr).map fun x => (x.1, (p, l) :: x.2)
    else rekeyFlags f tr
  | f, (p, .moved q) :: tr => rekeyFlags (swapFlag f p q) tr

/-- The loop of `set_num_ports`, `src/multiportgraph.rs` lines 239–241. -/
def removeCopies (m : MG) : List (Nat × Nat) → Option MG
  | [] => some m
  | (p, l) :: ps =>
    match m.removeCopyNode p l with
    | none => none
    | some (_, m) => removeCopies m ps

/-- `set_num_ports`, `src/multiportgraph.rs` lines 221–242, with the calls of `rekey`. -/
def setNumPorts (m : MG) (n i o : Nat) : Option (MG × List (Nat × PortOp)) :=
  match m.graph.setNumPorts n i o with
  | none => none
  | some (g, tr) =>
    match rekeyFlags m.multi tr with
    | none => none
    | some (f, dropped) => (removeCopies { m with graph := g, multi := f } dropped).map fun m => (m, tr)

/-- `compact_nodes`, `src/multiportgraph.rs` lines 244–252, with the calls of `rekey`. -/
def compactNodes (m : MG) : Option (MG × List (Nat × Nat)) :=
  (m.graph.compactNodes).map fun x =>
    ({ m with graph := x.1, copy := x.2.foldl (fun f y => swapFlag f y.1 y.2) m.copy }, x.2)

/-- `swap_nodes`, `src/multiportgraph.rs` lines 254–257. -/
def swapNodes (m : MG) (a b : Nat) : Option MG :=
  (m.graph.swapNodes a b).map fun g => { m with graph := g, copy := swapFlag m.copy a b }

/-- `compact_ports`, `src/multiportgraph.rs` lines 259–267, with the calls of `rekey`. -/
def compactPorts (m : MG) : Option (MG × List (Nat × Nat)) :=
  (m.graph.compactPorts).map fun x =>
    ({ m with graph := x.1, multi := x.2.foldl (fun f y => swapFlag f y.1 y.2) m.multi }, x.2)

/-- `link_ports_directed`, `src/multiportgraph.rs` lines 495–506, on the port graph. -/
def linkDirected (g : PG) (p q : Nat) : Direction → Option (Except LinkError (Nat × Nat) × PG)
  | .incoming => g.linkPorts q p
  | .outgoing => g.linkPorts p q

/-- `add_port`, `src/multiportgraph.rs` lines 472–489. -/
def addPort (m : MG) (n : Nat) (d : Direction) : Option (Nat × MG) :=
  let i := m.graph.numPorts n .incoming
  let o := m.graph.numPorts n .outgoing
  let x := match d with
    | .incoming => (i + 1, o, i)
    | .outgoing => (i, o + 1, o)
  match m.setNumPorts n x.1 x.2.1 with
  | none => none
  | some (m, _) => (m.graph.portIndex n d x.2.2).map fun p => (p, m)

/-- The branch of `get_free_multiport` for a linked port without copy node, `src/multiportgraph.rs` lines 416–446. -/
def makeCopy (maxOff : Nat) (m : MG) (p l : Nat) (d : Direction) :
    Option (Except LinkError (Subport × Nat) × MG) :=
  match m.graph.addNode maxOff (if d = .incoming then 2 else 1) (if d = .incoming then 1 else 2) with
  | none => none
  | some (c, g) =>
    let m : MG := ⟨g, m.multi, setFlag m.copy c true, m.copyCount + 1, m.subCount + 2⟩
    match (g.ports c d.reverse).head?, g.portIndex c d 0, g.portIndex c d 1 with
    | some cp, some s0, some s1 =>
      match g.unlinkPort p with
      | none => none
      | some (_, g) =>
        match linkDirected g p cp d with
        | none => none
        | some (.error er, g) => some (.error er, { m with graph := g })
        | some (.ok _, g) =>
          match linkDirected g s0 l d with
          | none => none
          | some (.error er, g) => some (.error er, { m with graph := g })
          | some (.ok _, g) =>
            some (.ok ((p, 1), s1), { m with graph := g, multi := setFlag (setFlag m.multi cp true) p true })
    | _, _, _ => none

/-- `get_free_multiport`, `src/multiportgraph.rs` lines 402–468. -/
def getFree (maxOff : Nat) (m : MG) (p : Nat) : Option (Except LinkError (Subport × Nat) × MG) :=
  match m.graph.portDirection p with
  | none => some (.error (.unknownPort p), m)
  | some d =>
    match m.multi p, m.graph.portLink? p with
    | _, none => none
    | false, some none => some (.ok ((p, 0), p), m)
    | false, some (some l) => m.makeCopy maxOff p l d
    | true, some (some l) =>
      match m.graph.portNode l with
      | none => none
      | some c =>
        match (m.graph.ports c d).zipIdx.find? fun x => m.graph.portLink? x.1 == some none with
        | some (s, k) => (newMulti p k).map fun e => (.ok (e, s), m)
        | none =>
          let k := m.graph.numPorts c d
          match m.addPort c d with
          | none => none
          | some (s, m) => (newMulti p k).map fun e => (.ok (e, s), { m with subCount := m.subCount + 1 })
    | true, some none => none

/-- `link_ports`, `src/multiportgraph.rs` lines 304–313. After an error the changes made so far stay. -/
def linkPorts (maxOff : Nat) (m : MG) (a b : Nat) : Option (Except LinkError (Subport × Subport) × MG) :=
  match m.getFree maxOff a with
  | none => none
  | some (.error er, m) => some (.error er, m)
  | some (.ok (e, i), m) =>
    match m.getFree maxOff b with
    | none => none
    | some (.error er, m) => some (.error er, m)
    | some (.ok (f, j), m) =>
      match m.graph.linkPorts i j with
      | none => none
      | some (.error er, g) => some (.error er, { m with graph := g })
      | some (.ok _, g) => some (.ok (e, f), { m with graph := g })

/-- `link_subports`, `src/multiportgraph.rs` lines 346–360. -/
def linkSubports (m : MG) (e f : Subport) : Option (Except LinkError Unit × MG) :=
  match m.index e, m.index f with
  | some (some i), some (some j) =>
    (m.graph.linkPorts i j).map fun x => (x.1.map fun _ => (), { m with graph := x.2 })
  | _, _ => none

/-- `unlink_subport`, `src/multiportgraph.rs` lines 362–367. -/
def unlinkSubport (m : MG) (e : Subport) : Option (Option Subport × MG) :=
  match m.index e with
  | none => none
  | some none => some (none, m)
  | some (some i) =>
    match m.graph.unlinkPort i with
    | none => none
    | some (none, g) => some (none, { m with graph := g })
    | some (some l, g) => ({ m with graph := g } : MG).fromIndex l |>.map fun r => (r, { m with graph := g })

end MG

end Verif.Multi
