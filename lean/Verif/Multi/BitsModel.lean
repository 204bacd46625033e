import Verif.Multi.Spec
import Verif.Secondary.Model

/-!
# `MultiPortGraph` with its bit vectors

`Verif/Multi/Model.lean` has total functions for the two `BitVec` fields. Here the fields are the bit vectors
themselves, with the calls of `src/secondary.rs` (`Bits.get`, `Bits.set`, `Bits.swap` of
`Verif/Secondary/Model.lean`), which grow when a flag is set and never shrink. All lines are of
`src/multiportgraph.rs`.
-/

namespace Verif.Multi

open Verif (Direction)
open Verif.PG Verif.Secondary

/-- `MultiPortGraph`, `src/multiportgraph.rs` lines 33–45. `derive(PartialEq)` on line 32 compares all fields; `BitVec`s are equal if they
have the same length and the same bits. -/
structure BMG where
  graph : PG
  multi : List Bool
  copy : List Bool
  copyCount : Nat
  subCount : Nat
deriving DecidableEq

namespace BMG

/-- What the flags say, by `SecondaryMap::get`; every method that does not write is a function of this.
Not in the code: the calls of `get`, `src/secondary.rs` lines 127–135. -/
def flags (b : BMG) : MG := ⟨b.graph, Bits.get b.multi, Bits.get b.copy, b.copyCount, b.subCount⟩

/-- `From<PortGraph>`, `src/multiportgraph.rs` lines 595–607: two vectors without bits. -/
def ofGraph (g : PG) : BMG := ⟨g, [], [], 0, 0⟩

/-- `add_node`, `src/multiportgraph.rs` lines 192–194. -/
def addNode (maxOff : Nat) (m : BMG) (i o : Nat) : Option (Nat × BMG) :=
  (m.graph.addNode maxOff i o).map fun x => (x.1, { m with graph := x.2 })

/-- `clear`, `src/multiportgraph.rs` lines 206–212; `BitVec::clear` removes all bits. -/
def clear (m : BMG) : BMG := ⟨m.graph.clear, [], [], 0, 0⟩

/-- `remove_copy_node`, `src/multiportgraph.rs` lines 375–397. -/
def removeCopyNode (m : BMG) (p cp : Nat) : Option (Option Subport × BMG) :=
  match m.graph.port? cp with
  | none => none
  | some (c, d) =>
    if Bits.get m.copy c then
      match (m.graph.ports c d).mapM m.graph.portLink? with
      | none => none
      | some ls =>
        match (match (ls.filterMap id).head? with
          | none => some none
          | some t => (m.flags.fromIndex t).bind fun r => r.map some) with
        | none => none
        | some link =>
          let subs := m.graph.ports c d.reverse
          let multi := Bits.set (Bits.set m.multi cp false) p false
          match m.graph.removeNode c with
          | none => none
          | some g =>
            if 1 ≤ m.copyCount ∧ subs.length ≤ m.subCount ∧ subs.all fun q => !Bits.get multi q then
              some (link, ⟨g, multi, Bits.set m.copy c false, m.copyCount - 1, m.subCount - subs.length⟩)
            else none
    else none

/-- `unlink_port`, `src/multiportgraph.rs` lines 315–325. -/
def unlinkPort (m : BMG) (p : Nat) : Option (Option Subport × BMG) :=
  if Bits.get m.multi p then
    match m.graph.portLink? p with
    | some (some l) => m.removeCopyNode p l
    | _ => none
  else
    (m.graph.unlinkPort p).map fun x => (x.1.map fun q => (q, 0), { m with graph := x.2 })

/-- The loop of `remove_node`, `src/multiportgraph.rs` lines 198–202. -/
def unlinkMultis (m : BMG) : List Nat → Option BMG
  | [] => some m
  | p :: ps =>
    if Bits.get m.multi p then
      match m.unlinkPort p with
      | none => none
      | some (_, m) => unlinkMultis m ps
    else unlinkMultis m ps

/-- `remove_node`, `src/multiportgraph.rs` lines 196–204. -/
def removeNode (m : BMG) (n : Nat) : Option BMG :=
  if Bits.get m.copy n then none
  else
    match m.unlinkMultis (m.graph.allPorts n) with
    | none => none
    | some m => (m.graph.removeNode n).map fun g => { m with graph := g }

/-- `rekey_wrapper` of `set_num_ports`, `src/multiportgraph.rs` lines 226–236, over all the calls. -/
def rekeyFlags : List Bool → List (Nat × PortOp) → Option (List Bool × List (Nat × Nat))
  | f, [] => some (f, [])
  | f, (p, .removed old) :: tr =>
    if Bits.get f p then
      match old with
      | none => none
      | some l => (rekeyFlags f tr).map fun x => (x.1, (p, l) :: x.2)
    else rekeyFlags f tr
  | f, (p, .moved q) :: tr => rekeyFlags (Bits.swap f p q) tr

/-- The loop of `set_num_ports`, `src/multiportgraph.rs` lines 239–241. -/
def removeCopies (m : BMG) : List (Nat × Nat) → Option BMG
  | [] => some m
  | (p, l) :: ps =>
    match m.removeCopyNode p l with
    | none => none
    | some (_, m) => removeCopies m ps

/-- `set_num_ports`, `src/multiportgraph.rs` lines 221–242, with the calls of `rekey`. -/
def setNumPorts (m : BMG) (n i o : Nat) : Option (BMG × List (Nat × PortOp)) :=
  match m.graph.setNumPorts n i o with
  | none => none
  | some (g, tr) =>
    match rekeyFlags m.multi tr with
    | none => none
    | some (f, dropped) => (removeCopies { m with graph := g, multi := f } dropped).map fun m => (m, tr)

/-- `compact_nodes`, `src/multiportgraph.rs` lines 244–252, with the calls of `rekey`. -/
def compactNodes (m : BMG) : Option (BMG × List (Nat × Nat)) :=
  (m.graph.compactNodes).map fun x =>
    ({ m with graph := x.1, copy := x.2.foldl (fun f y => Bits.swap f y.1 y.2) m.copy }, x.2)

/-- `swap_nodes`, `src/multiportgraph.rs` lines 254–257. -/
def swapNodes (m : BMG) (a b : Nat) : Option BMG :=
  (m.graph.swapNodes a b).map fun g => { m with graph := g, copy := Bits.swap m.copy a b }

/-- `compact_ports`, `src/multiportgraph.rs` lines 259–267, with the calls of `rekey`. -/
def compactPorts (m : BMG) : Option (BMG × List (Nat × Nat)) :=
  (m.graph.compactPorts).map fun x =>
    ({ m with graph := x.1, multi := x.2.foldl (fun f y => Bits.swap f y.1 y.2) m.multi }, x.2)

/-- `add_port`, `src/multiportgraph.rs` lines 472–489. -/
def addPort (m : BMG) (n : Nat) (d : Direction) : Option (Nat × BMG) :=
  let i := m.graph.numPorts n .incoming
  let o := m.graph.numPorts n .outgoing
  let x := match d with
    | .incoming => (i + 1, o, i)
    | .outgoing => (i, o + 1, o)
  match m.setNumPorts n x.1 x.2.1 with
  | none => none
  | some (m, _) => (m.graph.portIndex n d x.2.2).map fun p => (p, m)

/-- The branch of `get_free_multiport` for a linked port without copy node, `src/multiportgraph.rs` lines 416–446. -/
def makeCopy (maxOff : Nat) (m : BMG) (p l : Nat) (d : Direction) :
    Option (Except LinkError (Subport × Nat) × BMG) :=
  match m.graph.addNode maxOff (if d = .incoming then 2 else 1) (if d = .incoming then 1 else 2) with
  | none => none
  | some (c, g) =>
    let m : BMG := ⟨g, m.multi, Bits.set m.copy c true, m.copyCount + 1, m.subCount + 2⟩
    match (g.ports c d.reverse).head?, g.portIndex c d 0, g.portIndex c d 1 with
    | some cp, some s0, some s1 =>
      match g.unlinkPort p with
      | none => none
      | some (_, g) =>
        match MG.linkDirected g p cp d with
        | none => none
        | some (.error er, g) => some (.error er, { m with graph := g })
        | some (.ok _, g) =>
          match MG.linkDirected g s0 l d with
          | none => none
          | some (.error er, g) => some (.error er, { m with graph := g })
          | some (.ok _, g) =>
            some (.ok ((p, 1), s1), { m with graph := g, multi := Bits.set (Bits.set m.multi cp true) p true })
    | _, _, _ => none

/-- `get_free_multiport`, `src/multiportgraph.rs` lines 402–468. -/
def getFree (maxOff : Nat) (m : BMG) (p : Nat) : Option (Except LinkError (Subport × Nat) × BMG) :=
  match m.graph.portDirection p with
  | none => some (.error (.unknownPort p), m)
  | some d =>
    match Bits.get m.multi p, m.graph.portLink? p with
    | _, none => none
    | false, some none => some (.ok ((p, 0), p), m)
    | false, some (some l) => m.makeCopy maxOff p l d
    | true, some (some l) =>
      match m.graph.portNode l with
      | none => none
      | some c =>
        match (m.graph.ports c d).zipIdx.find? fun x => m.graph.portLink? x.1 == some none with
        | some (s, k) => (newMulti p k).map fun e => (.ok (e, s), m)
        | none =>
          let k := m.graph.numPorts c d
          match m.addPort c d with
          | none => none
          | some (s, m) => (newMulti p k).map fun e => (.ok (e, s), { m with subCount := m.subCount + 1 })
    | true, some none => none

/-- `link_ports`, `src/multiportgraph.rs` lines 304–313. After an error the changes made so far stay. -/
def linkPorts (maxOff : Nat) (m : BMG) (a b : Nat) : Option (Except LinkError (Subport × Subport) × BMG) :=
  match m.getFree maxOff a with
  | none => none
  | some (.error er, m) => some (.error er, m)
  | some (.ok (e, i), m) =>
    match m.getFree maxOff b with
    | none => none
    | some (.error er, m) => some (.error er, m)
    | some (.ok (f, j), m) =>
      match m.graph.linkPorts i j with
      | none => none
      | some (.error er, g) => some (.error er, { m with graph := g })
      | some (.ok _, g) => some (.ok (e, f), { m with graph := g })

/-- `link_subports`, `src/multiportgraph.rs` lines 346–360. -/
def linkSubports (m : BMG) (e f : Subport) : Option (Except LinkError Unit × BMG) :=
  match m.flags.index e, m.flags.index f with
  | some (some i), some (some j) =>
    (m.graph.linkPorts i j).map fun x => (x.1.map fun _ => (), { m with graph := x.2 })
  | _, _ => none

/-- `unlink_subport`, `src/multiportgraph.rs` lines 362–367. -/
def unlinkSubport (m : BMG) (e : Subport) : Option (Option Subport × BMG) :=
  match m.flags.index e with
  | none => none
  | some none => some (none, m)
  | some (some i) =>
    match m.graph.unlinkPort i with
    | none => none
    | some (none, g) => some (none, { m with graph := g })
    | some (some l, g) => ({ m with graph := g } : BMG).flags.fromIndex l |>.map fun r => (r, { m with graph := g })

/-- One call. Not in the code: applies the methods of `src/multiportgraph.rs`. -/
def step (maxOff : Nat) (m : BMG) : MOp → Option (MRes × BMG)
  | .addNode i o => (m.addNode maxOff i o).map fun x => (.node x.1, x.2)
  | .removeNode n => (m.removeNode n).map fun m => (.none, m)
  | .linkPorts a b => (m.linkPorts maxOff a b).map fun x => (.link x.1, x.2)
  | .unlinkPort p => (m.unlinkPort p).map fun x => (.sub x.1, x.2)
  | .setNumPorts n i o => (m.setNumPorts n i o).map fun x => (.ports x.2, x.1)
  | .compactNodes => (m.compactNodes).map fun x => (.moves x.2, x.1)
  | .compactPorts => (m.compactPorts).map fun x => (.moves x.2, x.1)
  | .swapNodes a b => (m.swapNodes a b).map fun m => (.none, m)
  | .clear => some (.none, m.clear)
  | .linkSubports e f => (m.linkSubports e f).map fun x => (.done x.1, x.2)
  | .unlinkSubport e => (m.unlinkSubport e).map fun x => (.sub x.1, x.2)

end BMG

end Verif.Multi
