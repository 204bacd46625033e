import Verif.Index.Model
import Verif.PortGraph.Model

/-!
# `PortGraph` with its machine words, `src/portgraph.rs`

`Verif/PortGraph/Model.lean` has natural numbers for all indices. Here the vectors hold what the Rust
structs hold: `NodeIndex` and `PortIndex` are words of 32 bits (`src/index.rs`), an optional index is
a word where all ones stand for `None`, a `PortMeta` is a word with the node plus one and the
direction in the top bit, and the counts of ports are words of 16 bits, the incoming ones plus one.
Only `PortGraph<u32, u32, PO>` has methods, so these widths are the only ones.

`none` is a panic. `usize` (64 bits) is `Nat`: it holds positions in vectors and numbers of entries.
`NodeIndex::new` is `indexNew 32`, which panics from `2^32` on and does not check the top bit.
-/

namespace Verif.Words

open Verif (Direction)
open Verif.Index
open Verif.PG (NodeMeta)

/-- `NodeIndex<u32>` and `PortIndex<u32>`, `src/index.rs` lines 21 and 31. -/
abbrev Ix := BitVec 32

/-- `MaybeNodeIndex<u32>` and `MaybePortIndex<u32>`, `src/index.rs` lines 125 and 132. -/
abbrev MaybeIx := BitVec 32

/-- `None.into()`. -/
abbrev noIx : MaybeIx := newNone 32

/-- `n as u16`. As in `src/portgraph.rs` lines 160, 183 and 267–269. -/
def u16 (n : Nat) : BitVec 16 := BitVec.ofNat 16 n

/-- `NodeMeta`, `src/portgraph.rs` lines 807–819. -/
structure WMeta where
  first : Ix
  incoming : BitVec 16
  outgoing : BitVec 16
  capacity : BitVec 16
deriving DecidableEq, Repr

/-- `NodeMeta::new`, `src/portgraph.rs` lines 829–841. -/
def WMeta.new? (first : Ix) (incoming outgoing capacity : BitVec 16) : Option WMeta :=
  if incoming.toNat ≤ 65534 ∧ outgoing.toNat ≤ 65535 ∧ min (incoming.toNat + outgoing.toNat) 65535 ≤ capacity.toNat ∧
      (0 < capacity.toNat ∨ indexOf first = 0) then
    some ⟨first, incoming + 1#16, outgoing, capacity⟩
  else none

/-- The values of the accessors `first_port().index()`, `incoming()`, `outgoing()` and `capacity()`,
`src/portgraph.rs` lines 844–877. The ranges of ports (lines 882–918) are computed from them in
`usize`, as in `Verif/PortGraph/Model.lean`. -/
def WMeta.view (m : WMeta) : NodeMeta :=
  ⟨indexOf m.first, (m.incoming - 1#16).toNat, m.outgoing.toNat, m.capacity.toNat⟩

/-- `NodeMeta::default`, `src/portgraph.rs` lines 922–926. -/
def WMeta.default : WMeta := ⟨0#32, 1#16, 0#16, 0#16⟩

/-- `NodeEntry`, `src/portgraph.rs` lines 931–942 and 981–986. -/
inductive WEntry where
  | free (prev next : MaybeIx)
  | node (m : WMeta)
deriving DecidableEq, Repr

/-- `PortEntry`, `src/portgraph.rs` lines 1120–1126. -/
inductive WPort where
  | free
  | port (m : BitVec 32)
deriving DecidableEq, Repr

/-- `PortGraph`, `src/portgraph.rs` lines 46–70. -/
structure WG where
  nodeMeta : List WEntry
  portLink : List MaybeIx
  portMeta : List WPort
  nodeFree : MaybeIx
  portFree : List MaybeIx
  nodeCount : Nat
  portCount : Nat
  linkCount : Nat
deriving DecidableEq, Repr

/-- `PortGraph::new`, `src/portgraph.rs` lines 78–90. -/
def WG.empty : WG := ⟨[], [], [], noIx, [], 0, 0, 0⟩

/-- `LinkError`, `src/portgraph.rs` lines 1131–1151; the offset is the index of the `PortOffset`. -/
inductive WLinkError where
  | alreadyLinked (port : Ix)
  | unknownPort (port : Ix)
  | unknownOffset (node : Ix) (dir : Direction) (offset : Nat)
  | incompatibleDirections (portA portB : Ix) (dir : Direction)
deriving DecidableEq, Repr

/-- `PortOperation`, `src/portgraph.rs` lines 1162–1173. -/
inductive WPortOp where
  | moved (newIndex : Ix)
  | removed (oldLink : Option Ix)
deriving DecidableEq, Repr

/-- `PortEntry::Port(PortMeta::new(node, dir))`.
As in `src/portgraph.rs` lines 144, 145, 308, 602 and 627. -/
def portOf (node : Ix) (d : Direction) : WPort := .port (portMetaNew (indexOf node) d)

namespace WG

/-- `node_meta_valid`, `src/portgraph.rs` lines 226–231. -/
def node? (g : WG) (n : Ix) : Option WMeta :=
  match g.nodeMeta[indexOf n]? with
  | some (.node m) => some m
  | _ => none

/-- `port_meta_valid`, `src/portgraph.rs` lines 235–240. -/
def port? (g : WG) (p : Ix) : Option (BitVec 32) :=
  match g.portMeta[indexOf p]? with
  | some (.port m) => some m
  | _ => none

/-! ## Queries -/

/-- `port_direction`, `src/portgraph.rs` lines 337–339. -/
def portDirection (g : WG) (p : Ix) : Option Direction := (g.port? p).map portMetaDirection

/-- `port_node`, `src/portgraph.rs` lines 342–344; outer `Option`: panic in `PortMeta::node`. -/
def portNode (g : WG) (p : Ix) : Option (Option Ix) :=
  match g.port? p with
  | none => some none
  | some m =>
    match portMetaNode m with
    | none => none
    | some n => (indexNew 32 n).map some

/-- `port_index`, `src/portgraph.rs` lines 366–371; outer `Option`: panic in `PortIndex::new`. -/
def portIndex (g : WG) (n : Ix) (d : Direction) (k : Nat) : Option (Option Ix) :=
  match g.node? n with
  | none => some none
  | some m =>
    match (m.view.ports d)[k]? with
    | none => some none
    | some p => (indexNew 32 p).map some

/-- `port_offset`, `src/portgraph.rs` lines 346–364, for `PO` of `w` bits; outer `Option`: panic. The
subtractions are `wrapping_sub` in `usize`: a wrapped value is too large for `PortOffset::new`. -/
def portOffset (w : Nat) (g : WG) (p : Ix) : Option (Option (BitVec w)) :=
  match g.port? p with
  | none => some none
  | some m =>
    match portMetaNode m with
    | none => none
    | some n =>
      match indexNew 32 n with
      | none => none
      | some n =>
        match g.node? n with
        | none => none
        | some nm =>
          if nm.view.first ≤ indexOf p then
            match portMetaDirection m with
            | .incoming => (offsetNew w .incoming (indexOf p - nm.view.first)).map some
            | .outgoing =>
              if nm.view.first + nm.view.incoming ≤ indexOf p then
                (offsetNew w .outgoing (indexOf p - nm.view.first - nm.view.incoming)).map some
              else none
          else none

/-- `num_ports`, `src/portgraph.rs` lines 383–392. -/
def numPorts (g : WG) (n : Ix) (d : Direction) : Nat :=
  match g.node? n with
  | none => 0
  | some m => m.view.numPorts d

/-- `contains_node`, `src/portgraph.rs` lines 395–397. -/
def containsNode (g : WG) (n : Ix) : Bool := (g.node? n).isSome

/-- `contains_port`, `src/portgraph.rs` lines 400–402. -/
def containsPort (g : WG) (p : Ix) : Bool := (g.port? p).isSome

/-- `node_port_capacity`, `src/portgraph.rs` lines 430–433. -/
def nodePortCapacity (g : WG) (n : Ix) : Nat := (g.node? n).elim 0 (·.view.capacity)

/-- `port_link`: `port_links`, `src/portgraph.rs` lines 726–732, and its first item. Outer `Option`:
panic on an unknown port. -/
def portLink? (g : WG) (p : Ix) : Option (Option Ix) :=
  match g.port? p with
  | none => none
  | some _ => (g.portLink[indexOf p]?).map maybeToOption

/-! ## Mutation -/

/-- `alloc_node`, `src/portgraph.rs` lines 110–127. -/
def allocNode (g : WG) : Option (Ix × WG) :=
  match maybeToOption g.nodeFree with
  | some node =>
    match g.nodeMeta[indexOf node]? with
    | some (.free _ next) =>
      match maybeToOption next with
      | none => some (node, { g with nodeFree := next })
      | some nx =>
        match g.nodeMeta[indexOf nx]? with
        | some (.free _ nn) =>
          some (node, { g with nodeFree := next, nodeMeta := g.nodeMeta.set (indexOf nx) (.free noIx nn) })
        | _ => none
    | _ => none
  | none =>
    match indexNew 32 g.nodeMeta.length with
    | none => none
    | some i => some (i, { g with nodeMeta := g.nodeMeta ++ [.free noIx noIx] })

/-- `alloc_ports`, `src/portgraph.rs` lines 132–186. -/
def allocPorts (g : WG) (node : Ix) (incoming outgoing extra : Nat) : Option (WMeta × WG) :=
  let requested := incoming + outgoing + extra
  if requested = 0 then some (.default, g)
  else
    match (g.portFree[requested - 1]?).bind maybeToOption with
    | some port =>
      match g.portLink[indexOf port]? with
      | none => none
      | some freeNext =>
        match WMeta.new? port (u16 incoming) (u16 outgoing) (u16 requested) with
        | none => none
        | some m =>
          if indexOf port + requested ≤ g.portMeta.length ∧ indexOf port + requested ≤ g.portLink.length then
            some (m, { g with
              portFree := g.portFree.set (requested - 1) freeNext
              portMeta := fill (fill (fill g.portMeta m.view.first m.view.incoming (portOf node .incoming))
                (m.view.first + m.view.incoming) m.view.outgoing (portOf node .outgoing))
                (m.view.first + m.view.portCount) (m.view.capacity - m.view.portCount) .free
              portLink := fill g.portLink (indexOf port) requested noIx })
          else none
    | none =>
      let oldLen := g.portMeta.length
      match indexNew 32 oldLen with
      | none => none
      | some port =>
        match WMeta.new? port (u16 incoming) (u16 outgoing) (u16 requested) with
        | none => none
        | some m =>
          some (m, { g with
            portMeta := g.portMeta ++ List.replicate incoming (portOf node .incoming)
              ++ List.replicate outgoing (portOf node .outgoing) ++ List.replicate extra .free
            portLink := g.portLink ++ List.replicate (oldLen + requested - g.portLink.length) noIx })

/-- `free_node`, `src/portgraph.rs` lines 189–196. -/
def freeNode (g : WG) (node : Ix) : Option WG :=
  if indexOf node < g.nodeMeta.length then
    match maybeToOption g.nodeFree with
    | none =>
      some { g with nodeMeta := g.nodeMeta.set (indexOf node) (.free noIx g.nodeFree), nodeFree := node }
    | some h =>
      match g.nodeMeta[indexOf h]? with
      | some (.free _ next) =>
        some { g with
          nodeMeta := (g.nodeMeta.set (indexOf h) (.free node next)).set (indexOf node) (.free noIx g.nodeFree)
          nodeFree := node }
      | _ => none
  else none

/-- The body of the loop in `free_ports`, `src/portgraph.rs` lines 212–219. -/
def freePortStep (g : WG) (i : Nat) : Option WG :=
  if i < g.portMeta.length then
    match g.portLink[i]? with
    | none => none
    | some l =>
      match maybeToOption l with
      | none => some { g with portMeta := g.portMeta.set i .free, portLink := g.portLink.set i noIx }
      | some l =>
        if indexOf l < g.portLink.length ∧ 0 < g.linkCount then
          some { g with
            portMeta := g.portMeta.set i .free
            portLink := (g.portLink.set i noIx).set (indexOf l) noIx
            linkCount := g.linkCount - 1 }
        else none
  else none

/-- The loop in `free_ports` over `i .. i + k`, `src/portgraph.rs` lines 212–219. -/
def freePortsLoop (g : WG) (i : Nat) : Nat → Option WG
  | 0 => some g
  | k + 1 =>
    match freePortStep g i with
    | none => none
    | some g' => freePortsLoop g' (i + 1) k

/-- `free_ports`, `src/portgraph.rs` lines 202–223. -/
def freePorts (g : WG) (first : Ix) (size : Nat) : Option WG :=
  let g := { g with portFree := g.portFree ++ List.replicate (size - g.portFree.length) noIx }
  if size = 0 then some g
  else
    match freePortsLoop g (indexOf first) size with
    | none => none
    | some g =>
      match g.portFree[size - 1]? with
      | none => none
      | some head =>
        if indexOf first < g.portLink.length then
          some { g with
            portLink := g.portLink.set (indexOf first) head
            portFree := g.portFree.set (size - 1) first }
        else none

/-- `add_node`, `src/portgraph.rs` lines 453–471. -/
def addNode (maxOff : Nat) (g : WG) (incoming outgoing : Nat) : Option (Ix × WG) :=
  if incoming ≤ maxOff ∧ outgoing ≤ maxOff then
    match g.allocNode with
    | none => none
    | some (node, g) =>
      match g.allocPorts node incoming outgoing 0 with
      | none => none
      | some (m, g) =>
        if indexOf node < g.nodeMeta.length then
          some (node, { g with
            nodeMeta := g.nodeMeta.set (indexOf node) (.node m)
            nodeCount := g.nodeCount + 1
            portCount := g.portCount + (incoming + outgoing) })
        else none
  else none

/-- `remove_node`, `src/portgraph.rs` lines 473–496. -/
def removeNode (g : WG) (node : Ix) : Option WG :=
  match g.node? node with
  | none => some g
  | some m =>
    match g.freeNode node with
    | none => none
    | some g =>
      if g.nodeCount = 0 then none
      else
        let g := { g with nodeCount := g.nodeCount - 1 }
        if 0 < m.view.capacity then
          if m.view.portCount ≤ g.portCount ∧ m.view.first + m.view.capacity ≤ g.portLink.length ∧
              m.view.first + m.view.capacity ≤ g.portMeta.length then
            freePorts { g with portCount := g.portCount - m.view.portCount } m.first m.view.capacity
          else none
        else some g

/-- `clear`, `src/portgraph.rs` lines 498–507. -/
def clear (g : WG) : WG :=
  { g with
    nodeMeta := [], portLink := [], portMeta := [], nodeFree := noIx, portFree := []
    nodeCount := 0, portCount := 0, linkCount := 0 }

/-- `link_ports`, `src/portgraph.rs` lines 756–787. -/
def linkPorts (g : WG) (a b : Ix) : Option (Except WLinkError (Ix × Ix) × WG) :=
  match g.port? a with
  | none => some (.error (.unknownPort a), g)
  | some ma =>
    match g.port? b with
    | none => some (.error (.unknownPort a), g)
    | some mb =>
      if portMetaDirection ma = portMetaDirection mb then
        some (.error (.incompatibleDirections a b (portMetaDirection ma)), g)
      else
        match g.portLink[indexOf a]? with
        | none => none
        | some la =>
          if (maybeToOption la).isSome then some (.error (.alreadyLinked a), g)
          else
            match g.portLink[indexOf b]? with
            | none => none
            | some lb =>
              if (maybeToOption lb).isSome then some (.error (.alreadyLinked b), g)
              else
                some (.ok (a, b), { g with
                  portLink := (g.portLink.set (indexOf a) b).set (indexOf b) a
                  linkCount := g.linkCount + 1 })

/-- `unlink_port`, `src/portgraph.rs` lines 789–795. -/
def unlinkPort (g : WG) (p : Ix) : Option (Option Ix × WG) :=
  match g.port? p with
  | none => some (none, g)
  | some _ =>
    match g.portLink[indexOf p]? with
    | none => none
    | some l =>
      match maybeToOption l with
      | none => some (none, { g with portLink := g.portLink.set (indexOf p) noIx })
      | some q =>
        if indexOf q < g.portLink.length ∧ 0 < g.linkCount then
          some (some q, { g with
            portLink := (g.portLink.set (indexOf p) noIx).set (indexOf q) noIx
            linkCount := g.linkCount - 1 })
        else none

/-- The loop over the dropped ports in `set_num_ports` (`src/portgraph.rs` lines 549–556) and
`resize_ports_inplace` (lines 273–280); the iterators make a `PortIndex` of each number
(`src/portgraph/iter.rs`, `NodePorts`). -/
def dropPorts (g : WG) : List Nat → Option (WG × List (Ix × WPortOp))
  | [] => some (g, [])
  | p :: ps =>
    match indexNew 32 p with
    | none => none
    | some b =>
      match g.unlinkPort b with
      | none => none
      | some (old, g) =>
        match dropPorts g ps with
        | none => none
        | some (g, tr) => some (g, (b, .removed old) :: tr)

/-- `move_port` of `resize_ports_inplace`, `src/portgraph.rs` lines 282–291; `bnew` is `new_index`. -/
def movePort (g : WG) (old new : Nat) (bnew : Ix) : Option WG :=
  match g.portLink[old]?, g.portMeta[old]? with
  | some l, some pm =>
    if new < g.portLink.length ∧ new < g.portMeta.length then
      let g := { g with portLink := g.portLink.set new l, portMeta := g.portMeta.set new pm }
      match maybeToOption l with
      | none => some g
      | some q =>
        if indexOf q < g.portLink.length then some { g with portLink := g.portLink.set (indexOf q) bnew }
        else none
    else none
  | _, _ => none

/-- `pairs.for_each(move_port)`, `src/portgraph.rs` lines 296–301, with its callbacks. -/
def movePorts (g : WG) : List (Nat × Nat) → Option (WG × List (Ix × WPortOp))
  | [] => some (g, [])
  | (old, new) :: ps =>
    match indexNew 32 old, indexNew 32 new with
    | some bold, some bnew =>
      match g.movePort old new bnew with
      | none => none
      | some g =>
        match movePorts g ps with
        | none => none
        | some (g, tr) => some (g, (bold, .moved bnew) :: tr)
    | _, _ => none

/-- `resize_ports_inplace`, `src/portgraph.rs` lines 255–322. -/
def resizeInplace (g : WG) (node : Ix) (incoming outgoing : Nat) : Option (WG × List (Ix × WPortOp)) :=
  match g.node? node with
  | none => none
  | some m =>
    match WMeta.new? m.first (u16 incoming) (u16 outgoing) (u16 m.view.capacity) with
    | none => none
    | some nm =>
      match g.dropPorts (PG.PG.droppedPorts m.view incoming outgoing) with
      | none => none
      | some (g, tr1) =>
        let pairs := (m.view.ports .outgoing).zip (nm.view.ports .outgoing)
        match g.movePorts (if incoming < m.view.incoming then pairs else pairs.reverse) with
        | none => none
        | some (g, tr2) =>
          -- bounds of all the writes below
          if nm.view.first + nm.view.portCount ≤ g.portLink.length ∧
              nm.view.first + nm.view.portCount ≤ g.portMeta.length ∧
              nm.view.first + m.view.portCount ≤ g.portLink.length ∧
              nm.view.first + m.view.portCount ≤ g.portMeta.length ∧
              indexOf node < g.nodeMeta.length ∧ m.view.incoming + m.view.outgoing ≤ g.portCount then
            -- initialize the new ports
            let g := { g with
              portLink := fill g.portLink (nm.view.start .incoming + m.view.incoming)
                (nm.view.incoming - m.view.incoming) noIx
              portMeta := fill g.portMeta (nm.view.start .incoming + m.view.incoming)
                (nm.view.incoming - m.view.incoming) (portOf node .incoming) }
            let g := { g with
              portLink := fill g.portLink (nm.view.start .outgoing + m.view.outgoing)
                (nm.view.outgoing - m.view.outgoing) noIx
              portMeta := fill g.portMeta (nm.view.start .outgoing + m.view.outgoing)
                (nm.view.outgoing - m.view.outgoing) (portOf node .outgoing) }
            -- empty the ports that are no longer used
            let g := { g with
              portLink := fill g.portLink (nm.view.first + nm.view.portCount)
                (m.view.portCount - nm.view.portCount) noIx
              portMeta := fill g.portMeta (nm.view.first + nm.view.portCount)
                (m.view.portCount - nm.view.portCount) .free }
            some ({ g with
              nodeMeta := g.nodeMeta.set (indexOf node) (.node nm)
              portCount := g.portCount - (m.view.incoming + m.view.outgoing) + (incoming + outgoing) },
              tr1 ++ tr2)
          else none

/-- The body of the move loop of `set_num_ports`, `src/portgraph.rs` lines 567–571; `bnew` is
`PortIndex::new(new)`. -/
def relocPort (g : WG) (old new : Nat) (bnew : Ix) : Option WG :=
  match g.portLink[old]? with
  | none => none
  | some l =>
    match (match maybeToOption l with
      | none => some g.portLink
      | some q => vset g.portLink (indexOf q) bnew) with
    | none => none
    | some pl =>
      match pl[old]?, g.portMeta[old]? with
      | some l', some pm =>
        if new < pl.length ∧ new < g.portMeta.length then
          some { g with portLink := (pl.set old noIx).set new l', portMeta := g.portMeta.set new pm }
        else none
      | _, _ => none

/-- The loop over `rekeys` of `set_num_ports`, `src/portgraph.rs` lines 564–576. -/
def relocPorts (g : WG) : List (Nat × Nat) → Option (WG × List (Ix × WPortOp))
  | [] => some (g, [])
  | (old, new) :: ps =>
    match indexNew 32 old, indexNew 32 new with
    | some bold, some bnew =>
      match g.relocPort old new bnew with
      | none => none
      | some g =>
        match relocPorts g ps with
        | none => none
        | some (g, tr) => some (g, (bold, .moved bnew) :: tr)
    | _, _ => none

/-- `set_num_ports`, `src/portgraph.rs` lines 515–583. The returned list is the sequence of calls of
`rekey`. -/
def setNumPorts (g : WG) (node : Ix) (incoming outgoing : Nat) : Option (WG × List (Ix × WPortOp)) :=
  if incoming ≤ 65534 ∧ outgoing ≤ 65535 then
    let newTotal := incoming + outgoing
    match g.node? node with
    | none => some (g, [])
    | some m =>
      if m.view.incoming = incoming ∧ m.view.outgoing = outgoing then some (g, [])
      else if 1 ≤ newTotal ∧ newTotal < m.view.capacity then g.resizeInplace node incoming outgoing
      else
        match g.dropPorts (PG.PG.droppedPorts m.view incoming outgoing) with
        | none => none
        | some (g, tr1) =>
          match g.allocPorts node incoming outgoing (PG.PG.nextPow2 newTotal - newTotal) with
          | none => none
          | some (nm, g) =>
            match g.relocPorts ((m.view.ports .incoming).zip (nm.view.ports .incoming)
                ++ (m.view.ports .outgoing).zip (nm.view.ports .outgoing)) with
            | none => none
            | some (g, tr2) =>
              if indexOf node < g.nodeMeta.length then
                match freePorts { g with nodeMeta := g.nodeMeta.set (indexOf node) (.node nm) }
                    m.first m.view.capacity with
                | none => none
                | some g =>
                  if m.view.incoming + m.view.outgoing ≤ g.portCount then
                    some ({ g with
                      portCount := g.portCount - (m.view.incoming + m.view.outgoing) + newTotal },
                      tr1 ++ tr2)
                  else none
              else none
  else none

/-- The writes `port_meta[port] = Port(node, dir)` for all ports of a node, in `compact_nodes`
(`src/portgraph.rs` lines 600–604) and `swap_nodes` (lines 626–630). -/
def claimPorts (g : WG) (node : Ix) (m : WMeta) : Option WG :=
  if m.view.first + m.view.incoming + m.view.outgoing ≤ g.portMeta.length then
    some { g with
      portMeta := fill (fill g.portMeta m.view.first m.view.incoming (portOf node .incoming))
        (m.view.first + m.view.incoming) m.view.outgoing (portOf node .outgoing) }
  else none

/-- The `retain` loop of `compact_nodes`, `src/portgraph.rs` lines 589–611. -/
def compactNodesLoop (g : WG) (old new : Nat) : List WEntry → Option (List WEntry × WG × List (Ix × Ix))
  | [] => some ([], g, [])
  | e :: es =>
    match indexNew 32 old, indexNew 32 new with
    | some bold, some bnew =>
      match e with
      | .free _ _ => compactNodesLoop g (old + 1) new es
      | .node m =>
        match g.claimPorts bnew m with
        | none => none
        | some g =>
          match compactNodesLoop g (old + 1) (new + 1) es with
          | none => none
          | some (kept, g, tr) => some (.node m :: kept, g, (bold, bnew) :: tr)
    | _, _ => none

/-- `compact_nodes`, `src/portgraph.rs` lines 585–614. -/
def compactNodes (g : WG) : Option (WG × List (Ix × Ix)) :=
  match g.compactNodesLoop 0 0 g.nodeMeta with
  | none => none
  | some (kept, g, tr) => some ({ g with nodeMeta := kept, nodeFree := noIx }, tr)

/-- `update_ports` of `swap_nodes`, `src/portgraph.rs` lines 621–631. -/
def swapClaim (g : WG) (newNode : Ix) : WEntry → Option WG
  | .free _ _ => some g
  | .node m => g.claimPorts newNode m

/-- `free_entry_mut().unwrap().next = …`, `src/portgraph.rs` line 638. -/
def setFreeNext (l : List WEntry) (i : Nat) (v : MaybeIx) : Option (List WEntry) :=
  match l[i]? with
  | some (.free prev _) => some (l.set i (.free prev v))
  | _ => none

/-- `free_entry_mut().unwrap().prev = …`, `src/portgraph.rs` line 641. -/
def setFreePrev (l : List WEntry) (i : Nat) (v : MaybeIx) : Option (List WEntry) :=
  match l[i]? with
  | some (.free _ next) => some (l.set i (.free v next))
  | _ => none

/-- `update_free_list` of `swap_nodes`, `src/portgraph.rs` lines 636–643. -/
def swapFreeList (l : List WEntry) (newNode : Ix) (prev next : MaybeIx) : Option (List WEntry) :=
  match (match maybeToOption prev with
    | none => some l
    | some p => setFreeNext l (indexOf p) newNode) with
  | none => none
  | some l =>
    match maybeToOption next with
    | none => some l
    | some n => setFreePrev l (indexOf n) newNode

/-- `swap_nodes`, `src/portgraph.rs` lines 616–648. -/
def swapNodes (g : WG) (a b : Ix) : Option WG :=
  match g.nodeMeta[indexOf a]?, g.nodeMeta[indexOf b]? with
  | some ea, some eb =>
    let g := { g with nodeMeta := (g.nodeMeta.set (indexOf a) eb).set (indexOf b) ea }
    match g.swapClaim a eb with
    | none => none
    | some g =>
      match g.swapClaim b ea with
      | none => none
      | some g =>
        match ea, eb with
        | .free p n, .node _ =>
          (swapFreeList g.nodeMeta b p n).map fun l => { g with nodeMeta := l }
        | .node _, .free p n =>
          (swapFreeList g.nodeMeta a p n).map fun l => { g with nodeMeta := l }
        | _, _ => some g
  | _, _ => none

/-- The link loop of `compact_ports`, `src/portgraph.rs` lines 655–673. -/
def compactLinksLoop (pm : List WPort) (pl : List MaybeIx) (old new : Nat) : Nat → Option (List MaybeIx × Nat)
  | 0 => some (pl, new)
  | k + 1 =>
    match pm[old]? with
    | none => none
    | some .free => compactLinksLoop pm pl (old + 1) new k
    | some (.port _) =>
      if new = old then compactLinksLoop pm pl (old + 1) (new + 1) k
      else
        match pl[old]? with
        | none => none
        | some l =>
          match (match maybeToOption l with
            | none => some pl
            | some q => (indexNew 32 new).bind fun b => vset pl (indexOf q) b) with
          | none => none
          | some pl =>
            match pl[new]?, pl[old]? with
            | some x, some y => compactLinksLoop pm ((pl.set new y).set old x) (old + 1) (new + 1) k
            | _, _ => none

/-- The `retain` loop of `compact_ports`, `src/portgraph.rs` lines 677–709. Line 694 compares words. -/
def compactPortsLoop (nm : List WEntry) (old new : Nat) :
    List WPort → Option (List WPort × List WEntry × List (Ix × Ix))
  | [] => some ([], nm, [])
  | e :: es =>
    match indexNew 32 old, indexNew 32 new with
    | some bold, some bnew =>
      match e with
      | .free => compactPortsLoop nm (old + 1) new es
      | .port w =>
        match (portMetaNode w).bind (indexNew 32) with
        | none => none
        | some n =>
          match nm[indexOf n]? with
          | some (.node m) =>
            match (if m.first = bold then
                match WMeta.new? bnew (m.incoming - 1#16) m.outgoing (u16 m.view.portCount) with
                | none => none
                | some m' => some (nm.set (indexOf n) (.node m'))
              else some nm) with
            | none => none
            | some nm =>
              match compactPortsLoop nm (old + 1) (new + 1) es with
              | none => none
              | some (kept, nm, tr) => some (.port w :: kept, nm, (bold, bnew) :: tr)
          | _ => none
    | _, _ => none

/-- `compact_ports`, `src/portgraph.rs` lines 650–713. -/
def compactPorts (g : WG) : Option (WG × List (Ix × Ix)) :=
  match compactLinksLoop g.portMeta g.portLink 0 0 g.portLink.length with
  | none => none
  | some (pl, new) =>
    match compactPortsLoop g.nodeMeta 0 0 g.portMeta with
    | none => none
    | some (kept, nm, tr) =>
      some ({ g with portLink := pl.take new, portMeta := kept, nodeMeta := nm, portFree := [] }, tr)

end WG

/-! ## Calls -/

/-- The calls that change the graph, with the words they are given.
Not in the code: names for the methods of `src/portgraph.rs`. -/
inductive WOp where
  | addNode (incoming outgoing : Nat)
  | removeNode (n : Ix)
  | linkPorts (a b : Ix)
  | unlinkPort (p : Ix)
  | setNumPorts (n : Ix) (incoming outgoing : Nat)
  | compactNodes
  | compactPorts
  | swapNodes (a b : Ix)
  | clear
deriving DecidableEq, Repr

/-- What they return, or report to their callbacks. Not in the code: their answers. -/
inductive WAnswer where
  | unit
  | node (n : Ix)
  | link (r : Except WLinkError (Ix × Ix))
  | unlink (r : Option Ix)
  | ports (tr : List (Ix × WPortOp))
  | moves (tr : List (Ix × Ix))

/-- A call with its answer; `none` is a panic.
Not in the code: applies the methods of `src/portgraph.rs`. -/
def WG.ask (maxOff : Nat) (g : WG) : WOp → Option (WAnswer × WG)
  | .addNode i o => (g.addNode maxOff i o).map fun x => (.node x.1, x.2)
  | .removeNode n => (g.removeNode n).map fun x => (.unit, x)
  | .linkPorts a b => (g.linkPorts a b).map fun x => (.link x.1, x.2)
  | .unlinkPort p => (g.unlinkPort p).map fun x => (.unlink x.1, x.2)
  | .setNumPorts n i o => (g.setNumPorts n i o).map fun x => (.ports x.2, x.1)
  | .compactNodes => (g.compactNodes).map fun x => (.moves x.2, x.1)
  | .compactPorts => (g.compactPorts).map fun x => (.moves x.2, x.1)
  | .swapNodes a b => (g.swapNodes a b).map fun x => (.unit, x)
  | .clear => some (.unit, g.clear)

/-- A sequence of calls with all answers. Not in the code: a program that makes calls. -/
def WG.askAll (maxOff : Nat) (g : WG) : List WOp → Option (List WAnswer × WG)
  | [] => some ([], g)
  | op :: ops =>
    match g.ask maxOff op with
    | none => none
    | some (a, g) => (WG.askAll maxOff g ops).map fun x => (a :: x.1, x.2)

end Verif.Words
