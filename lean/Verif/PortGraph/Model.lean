import Verif.Basic

/-!
# Model of `src/portgraph.rs`

The state keeps the exact representation of `PortGraph`: node slots with the intrusive
doubly linked free list, port slots, slab free lists and counters. Indices are natural
numbers (the 32 bit encodings are the subject of `Verif.Index`). The result `none` of
an operation means that the Rust code panics (failed `assert!`, `unwrap`, out of bounds
access, or arithmetic underflow in a build with overflow checks).
-/

namespace Verif.PG

open Verif (Direction)

/-- `NodeMeta`, `src/portgraph.rs` lines 807–819. `incoming` is the value returned by
the accessor (the stored field is this plus one). -/
structure NodeMeta where
  first : Nat
  incoming : Nat
  outgoing : Nat
  capacity : Nat
deriving DecidableEq, Repr

/-- `NodeMeta::new`, `src/portgraph.rs` lines 829–841: the four assertions, on values
already cast to `u16`. -/
def NodeMeta.new? (first incoming outgoing capacity : Nat) : Option NodeMeta :=
  if incoming ≤ 65534 ∧ outgoing ≤ 65535 ∧ min (incoming + outgoing) 65535 ≤ capacity ∧
      (0 < capacity ∨ first = 0) then
    some ⟨first, incoming, outgoing, capacity⟩
  else none

/-- `NodeMeta::port_count`, `src/portgraph.rs` lines 870–872. -/
def NodeMeta.portCount (m : NodeMeta) : Nat := m.outgoing + m.incoming

/-- `NodeMeta::num_ports`, `src/portgraph.rs` lines 861–866. -/
def NodeMeta.numPorts (m : NodeMeta) : Direction → Nat
  | .incoming => m.incoming
  | .outgoing => m.outgoing

/-- Start of `NodeMeta::ports(direction)`, `src/portgraph.rs` lines 890–911. The range has
length `numPorts`. -/
def NodeMeta.start (m : NodeMeta) : Direction → Nat
  | .incoming => m.first
  | .outgoing => m.first + m.incoming

/-- `NodeMeta::ports(direction)` as a list of port numbers, `src/portgraph.rs` lines
890–911. -/
def NodeMeta.ports (m : NodeMeta) (d : Direction) : List Nat :=
  List.range' (m.start d) (m.numPorts d)

/-- `NodeMeta::all_ports`, `src/portgraph.rs` lines 882–886. -/
def NodeMeta.allPorts (m : NodeMeta) : List Nat :=
  List.range' m.first (m.incoming + m.outgoing)

/-- `NodeEntry` with `FreeNodeEntry` inlined, `src/portgraph.rs` lines 931–942 and
981–986. -/
inductive NodeEntry where
  | free (prev next : Option Nat)
  | node (m : NodeMeta)
deriving DecidableEq, Repr

/-- `PortEntry` with `PortMeta` as a pair, `src/portgraph.rs` lines 1120–1126 and
1087–1115 (`Verif.Index.C07_port_meta_roundtrip` justifies the pair). -/
inductive PortEntry where
  | free
  | port (node : Nat) (dir : Direction)
deriving DecidableEq, Repr

/-- `PortGraph`, `src/portgraph.rs` lines 46–70. `portFree[s-1]` is the head of the list
of free slabs of size `s`; the next pointers are stored in `portLink`. -/
structure PG where
  nodeMeta : List NodeEntry
  portLink : List (Option Nat)
  portMeta : List PortEntry
  nodeFree : Option Nat
  portFree : List (Option Nat)
  nodeCount : Nat
  portCount : Nat
  linkCount : Nat
deriving DecidableEq, Repr

/-- `PortGraph::new`, `src/portgraph.rs` lines 78–90. -/
def PG.empty : PG := ⟨[], [], [], none, [], 0, 0, 0⟩

/-- `LinkError`, `src/portgraph.rs` lines 1131–1151. -/
inductive LinkError where
  | alreadyLinked (port : Nat)
  | unknownPort (port : Nat)
  | unknownOffset (node : Nat) (dir : Direction) (offset : Nat)
  | incompatibleDirections (portA portB : Nat) (dir : Direction)
deriving DecidableEq, Repr

/-- `PortOperation`, `src/portgraph.rs` lines 1162–1173. -/
inductive PortOp where
  | moved (newIndex : Nat)
  | removed (oldLink : Option Nat)
deriving DecidableEq, Repr

namespace PG

/-- `PortGraph::node_meta_valid`, `src/portgraph.rs` lines 226–231. -/
def node? (g : PG) (n : Nat) : Option NodeMeta :=
  match g.nodeMeta[n]? with
  | some (.node m) => some m
  | _ => none

/-- `PortGraph::port_meta_valid`, `src/portgraph.rs` lines 235–240. -/
def port? (g : PG) (p : Nat) : Option (Nat × Direction) :=
  match g.portMeta[p]? with
  | some (.port n d) => some (n, d)
  | _ => none

/-! ## Queries (`PortView`, `LinkView`) -/

/-- `port_direction`, `src/portgraph.rs` lines 337–339. -/
def portDirection (g : PG) (p : Nat) : Option Direction := (g.port? p).map (·.2)

/-- `port_node`, `src/portgraph.rs` lines 342–344. -/
def portNode (g : PG) (p : Nat) : Option Nat := (g.port? p).map (·.1)

/-- `port_offset`, `src/portgraph.rs` lines 346–364. Outer `Option`: panic (the
`unreachable!` and the index access); inner: the Rust result. The offset is returned as
a pair of direction and number. `wrapping_sub` is natural subtraction, as a wrapped
difference is not a valid offset and would panic in `PortOffset::new`. The encoding of the
offset as a `PortOffset` is the subject of `Verif.Index`. -/
def portOffset (g : PG) (p : Nat) : Option (Option (Direction × Nat)) :=
  match g.port? p with
  | none => some none
  | some (n, d) =>
    match g.node? n with
    | none => none
    | some m =>
      if m.first ≤ p then
        match d with
        | .incoming => some (some (.incoming, p - m.first))
        | .outgoing => some (some (.outgoing, p - m.first - m.incoming))
      else none

/-- `port_index`, `src/portgraph.rs` lines 366–371. -/
def portIndex (g : PG) (n : Nat) (d : Direction) (k : Nat) : Option Nat :=
  match g.node? n with
  | none => none
  | some m => (m.ports d)[k]?

/-- `num_ports`, `src/portgraph.rs` lines 383–392. -/
def numPorts (g : PG) (n : Nat) (d : Direction) : Nat :=
  match g.node? n with
  | none => 0
  | some m => m.numPorts d

/-- `contains_node`, `src/portgraph.rs` lines 395–397. -/
def containsNode (g : PG) (n : Nat) : Bool := (g.node? n).isSome

/-- `contains_port`, `src/portgraph.rs` lines 400–402. -/
def containsPort (g : PG) (p : Nat) : Bool := (g.port? p).isSome

/-- `is_empty`, `src/portgraph.rs` lines 405–407. -/
def isEmpty (g : PG) : Bool := g.nodeCount == 0 && g.portCount == 0

/-- `node_port_capacity`, `src/portgraph.rs` lines 430–433. -/
def nodePortCapacity (g : PG) (n : Nat) : Nat := (g.node? n).elim 0 (·.capacity)

/-- `_ports`, `src/portgraph/iter.rs` lines 21–28. -/
def ports (g : PG) (n : Nat) (d : Direction) : List Nat :=
  match g.node? n with
  | none => []
  | some m => m.ports d

/-- `_all_ports`, `src/portgraph/iter.rs` lines 49–56. -/
def allPorts (g : PG) (n : Nat) : List Nat :=
  match g.node? n with
  | none => []
  | some m => m.allPorts

/-- `port_links` followed by taking the first element: `LinkView::port_link`,
`src/portgraph.rs` lines 726–732 and `src/lib.rs` (`port_link`). Outer `Option`: panic on
an unknown port. -/
def portLink? (g : PG) (p : Nat) : Option (Option Nat) :=
  match g.port? p with
  | none => none
  | some _ => g.portLink[p]?

/-! ## Mutation (`PortMut`, `LinkMut`) -/

/-- `alloc_node`, `src/portgraph.rs` lines 110–127. -/
def allocNode (g : PG) : Option (Nat × PG) :=
  match g.nodeFree with
  | some node =>
    match g.nodeMeta[node]? with
    | some (.free _ next) =>
      match next with
      | none => some (node, { g with nodeFree := none })
      | some nx =>
        match g.nodeMeta[nx]? with
        | some (.free _ nn) =>
          some (node, { g with nodeFree := some nx, nodeMeta := g.nodeMeta.set nx (.free none nn) })
        | _ => none
    | _ => none
  | none => some (g.nodeMeta.length, { g with nodeMeta := g.nodeMeta ++ [.free none none] })

/-- `alloc_ports`, `src/portgraph.rs` lines 132–186. -/
def allocPorts (g : PG) (node incoming outgoing extra : Nat) : Option (NodeMeta × PG) :=
  let requested := incoming + outgoing + extra
  if requested = 0 then some (⟨0, 0, 0, 0⟩, g)
  else
    match (g.portFree[requested - 1]?).join with
    | some port =>
      match g.portLink[port]? with
      | none => none
      | some freeNext =>
        match NodeMeta.new? port (incoming % 65536) (outgoing % 65536) (requested % 65536) with
        | none => none
        | some m =>
          if port + requested ≤ g.portMeta.length ∧ port + requested ≤ g.portLink.length then
            some (m, { g with
              portFree := g.portFree.set (requested - 1) freeNext
              portMeta := fill (fill (fill g.portMeta m.first m.incoming (.port node .incoming))
                (m.first + m.incoming) m.outgoing (.port node .outgoing))
                (m.first + m.portCount) (m.capacity - m.portCount) .free
              portLink := fill g.portLink port requested none })
          else none
    | none =>
      let oldLen := g.portMeta.length
      match NodeMeta.new? oldLen (incoming % 65536) (outgoing % 65536) (requested % 65536) with
      | none => none
      | some m =>
        some (m, { g with
          portMeta := g.portMeta ++ List.replicate incoming (.port node .incoming)
            ++ List.replicate outgoing (.port node .outgoing) ++ List.replicate extra .free
          portLink := g.portLink ++ List.replicate (oldLen + requested - g.portLink.length) none })

/-- `free_node`, `src/portgraph.rs` lines 189–196. -/
def freeNode (g : PG) (node : Nat) : Option PG :=
  if node < g.nodeMeta.length then
    match g.nodeFree with
    | none =>
      some { g with nodeMeta := g.nodeMeta.set node (.free none none), nodeFree := some node }
    | some h =>
      match g.nodeMeta[h]? with
      | some (.free _ next) =>
        some { g with
          nodeMeta := (g.nodeMeta.set h (.free (some node) next)).set node (.free none (some h))
          nodeFree := some node }
      | _ => none
  else none

/-- The body of the loop in `free_ports`, `src/portgraph.rs` lines 212–219. -/
def freePortStep (g : PG) (i : Nat) : Option PG :=
  if i < g.portMeta.length then
    match g.portLink[i]? with
    | none => none
    | some none => some { g with portMeta := g.portMeta.set i .free }
    | some (some l) =>
      if l < g.portLink.length ∧ 0 < g.linkCount then
        some { g with
          portMeta := g.portMeta.set i .free
          portLink := (g.portLink.set i none).set l none
          linkCount := g.linkCount - 1 }
      else none
  else none

/-- The loop in `free_ports` over `i .. i + k`, `src/portgraph.rs` lines 212–219. -/
def freePortsLoop (g : PG) (i : Nat) : Nat → Option PG
  | 0 => some g
  | k + 1 =>
    match freePortStep g i with
    | none => none
    | some g' => freePortsLoop g' (i + 1) k

/-- `free_ports`, `src/portgraph.rs` lines 202–223. -/
def freePorts (g : PG) (first size : Nat) : Option PG :=
  let g := { g with portFree := g.portFree ++ List.replicate (size - g.portFree.length) none }
  if size = 0 then some g
  else
    match freePortsLoop g first size with
    | none => none
    | some g =>
      match g.portFree[size - 1]? with
      | none => none
      | some head =>
        if first < g.portLink.length then
          some { g with
            portLink := g.portLink.set first head
            portFree := g.portFree.set (size - 1) (some first) }
        else none

/-- `add_node`, `src/portgraph.rs` lines 453–471. `maxOff` is
`PortOffset::<PO>::max_offset()`, which is 32766 for the default `PO = u16`. -/
def addNode (maxOff : Nat) (g : PG) (incoming outgoing : Nat) : Option (Nat × PG) :=
  if incoming ≤ maxOff ∧ outgoing ≤ maxOff then
    match g.allocNode with
    | none => none
    | some (node, g) =>
      match g.allocPorts node incoming outgoing 0 with
      | none => none
      | some (m, g) =>
        if node < g.nodeMeta.length then
          some (node, { g with
            nodeMeta := g.nodeMeta.set node (.node m)
            nodeCount := g.nodeCount + 1
            portCount := g.portCount + (incoming + outgoing) })
        else none
  else none

/-- `remove_node`, `src/portgraph.rs` lines 473–496. -/
def removeNode (g : PG) (node : Nat) : Option PG :=
  match g.node? node with
  | none => some g
  | some m =>
    match g.freeNode node with
    | none => none
    | some g =>
      if g.nodeCount = 0 then none
      else
        let g := { g with nodeCount := g.nodeCount - 1 }
        if 0 < m.capacity then
          if m.portCount ≤ g.portCount ∧ m.first + m.capacity ≤ g.portLink.length ∧
              m.first + m.capacity ≤ g.portMeta.length then
            freePorts { g with portCount := g.portCount - m.portCount } m.first m.capacity
          else none
        else some g

/-- `clear`, `src/portgraph.rs` lines 498–507. -/
def clear (g : PG) : PG :=
  { g with
    nodeMeta := [], portLink := [], portMeta := [], nodeFree := none, portFree := []
    nodeCount := 0, portCount := 0, linkCount := 0 }

/-- `link_ports`, `src/portgraph.rs` lines 756–787. On an error the graph is returned
unchanged. -/
def linkPorts (g : PG) (a b : Nat) : Option (Except LinkError (Nat × Nat) × PG) :=
  match g.port? a with
  | none => some (.error (.unknownPort a), g)
  | some (_, da) =>
    match g.port? b with
    | none => some (.error (.unknownPort a), g)
    | some (_, db) =>
      if da = db then some (.error (.incompatibleDirections a b da), g)
      else
        match g.portLink[a]? with
        | none => none
        | some (some _) => some (.error (.alreadyLinked a), g)
        | some none =>
          match g.portLink[b]? with
          | none => none
          | some (some _) => some (.error (.alreadyLinked b), g)
          | some none =>
            some (.ok (a, b), { g with
              portLink := (g.portLink.set a (some b)).set b (some a)
              linkCount := g.linkCount + 1 })

/-- `unlink_port`, `src/portgraph.rs` lines 789–795. -/
def unlinkPort (g : PG) (p : Nat) : Option (Option Nat × PG) :=
  match g.port? p with
  | none => some (none, g)
  | some _ =>
    match g.portLink[p]? with
    | none => none
    | some none => some (none, g)
    | some (some q) =>
      if q < g.portLink.length ∧ 0 < g.linkCount then
        some (some q, { g with
          portLink := (g.portLink.set p none).set q none
          linkCount := g.linkCount - 1 })
      else none

/-- The loop `for port in inputs.skip(incoming).chain(outputs.skip(outgoing))` of
`set_num_ports` (`src/portgraph.rs` lines 549–556) and `resize_ports_inplace` (lines
273–280): unlink the dropped ports and report them. -/
def dropPorts (g : PG) : List Nat → Option (PG × List (Nat × PortOp))
  | [] => some (g, [])
  | p :: ps =>
    match g.unlinkPort p with
    | none => none
    | some (old, g) =>
      match dropPorts g ps with
      | none => none
      | some (g, tr) => some (g, (p, .removed old) :: tr)

/-- The ports dropped when `m` is resized, `src/portgraph.rs` lines 549–552. -/
def droppedPorts (m : NodeMeta) (incoming outgoing : Nat) : List Nat :=
  (m.ports .incoming).drop incoming ++ (m.ports .outgoing).drop outgoing

/-- `move_port` of `resize_ports_inplace`, `src/portgraph.rs` lines 282–291. -/
def movePort (g : PG) (old new : Nat) : Option PG :=
  match g.portLink[old]?, g.portMeta[old]? with
  | some l, some pm =>
    if new < g.portLink.length ∧ new < g.portMeta.length then
      let g := { g with portLink := g.portLink.set new l, portMeta := g.portMeta.set new pm }
      match l with
      | none => some g
      | some q =>
        if q < g.portLink.length then some { g with portLink := g.portLink.set q (some new) }
        else none
    else none
  | _, _ => none

/-- `pairs.for_each(move_port)`, `src/portgraph.rs` lines 296–301, with its callbacks. -/
def movePorts (g : PG) : List (Nat × Nat) → Option (PG × List (Nat × PortOp))
  | [] => some (g, [])
  | (old, new) :: ps =>
    match g.movePort old new with
    | none => none
    | some g =>
      match movePorts g ps with
      | none => none
      | some (g, tr) => some (g, (old, .moved new) :: tr)

/-- `resize_ports_inplace`, `src/portgraph.rs` lines 255–322. -/
def resizeInplace (g : PG) (node incoming outgoing : Nat) :
    Option (PG × List (Nat × PortOp)) :=
  match g.node? node with
  | none => none
  | some m =>
    match NodeMeta.new? m.first (incoming % 65536) (outgoing % 65536) (m.capacity % 65536) with
    | none => none
    | some nm =>
      match g.dropPorts (droppedPorts m incoming outgoing) with
      | none => none
      | some (g, tr1) =>
        let pairs := (m.ports .outgoing).zip (nm.ports .outgoing)
        match g.movePorts (if incoming < m.incoming then pairs else pairs.reverse) with
        | none => none
        | some (g, tr2) =>
          -- bounds of all the writes below
          if nm.first + nm.portCount ≤ g.portLink.length ∧
              nm.first + nm.portCount ≤ g.portMeta.length ∧
              nm.first + m.portCount ≤ g.portLink.length ∧
              nm.first + m.portCount ≤ g.portMeta.length ∧
              node < g.nodeMeta.length ∧ m.incoming + m.outgoing ≤ g.portCount then
            -- initialize the new ports
            let g := { g with
              portLink := fill g.portLink (nm.start .incoming + m.incoming)
                (nm.incoming - m.incoming) none
              portMeta := fill g.portMeta (nm.start .incoming + m.incoming)
                (nm.incoming - m.incoming) (.port node .incoming) }
            let g := { g with
              portLink := fill g.portLink (nm.start .outgoing + m.outgoing)
                (nm.outgoing - m.outgoing) none
              portMeta := fill g.portMeta (nm.start .outgoing + m.outgoing)
                (nm.outgoing - m.outgoing) (.port node .outgoing) }
            -- empty the ports that are no longer used
            let g := { g with
              portLink := fill g.portLink (nm.first + nm.portCount)
                (m.portCount - nm.portCount) none
              portMeta := fill g.portMeta (nm.first + nm.portCount)
                (m.portCount - nm.portCount) .free }
            some ({ g with
              nodeMeta := g.nodeMeta.set node (.node nm)
              portCount := g.portCount - (m.incoming + m.outgoing) + (incoming + outgoing) },
              tr1 ++ tr2)
          else none

/-- The body of the move loop of `set_num_ports`, `src/portgraph.rs` lines 567–571. -/
def relocPort (g : PG) (old new : Nat) : Option PG :=
  match g.portLink[old]? with
  | none => none
  | some l =>
    match (match l with
      | none => some g.portLink
      | some q => vset g.portLink q (some new)) with
    | none => none
    | some pl =>
      match pl[old]?, g.portMeta[old]? with
      | some l', some pm =>
        if new < pl.length ∧ new < g.portMeta.length then
          some { g with portLink := (pl.set old none).set new l', portMeta := g.portMeta.set new pm }
        else none
      | _, _ => none

/-- The loop over `rekeys` of `set_num_ports`, `src/portgraph.rs` lines 564–576. -/
def relocPorts (g : PG) : List (Nat × Nat) → Option (PG × List (Nat × PortOp))
  | [] => some (g, [])
  | (old, new) :: ps =>
    match g.relocPort old new with
    | none => none
    | some g =>
      match relocPorts g ps with
      | none => none
      | some (g, tr) => some (g, (old, .moved new) :: tr)

/-- The smallest power of two that is at least `n`, at least 1
(`usize::next_power_of_two`, used in `src/portgraph.rs` line 561). -/
def nextPow2 (n : Nat) : Nat := go n 1
where
  /-- Doubling search; `fuel` bounds the number of doublings. -/
  go : Nat → Nat → Nat
  | 0, p => p
  | fuel + 1, p => if n ≤ p then p else go fuel (2 * p)

/-- `set_num_ports`, `src/portgraph.rs` lines 515–583. The returned list is the sequence
of calls of `rekey`. -/
def setNumPorts (g : PG) (node incoming outgoing : Nat) :
    Option (PG × List (Nat × PortOp)) :=
  if incoming ≤ 65534 ∧ outgoing ≤ 65535 then
    let newTotal := incoming + outgoing
    match g.node? node with
    | none => some (g, [])
    | some m =>
      if m.incoming = incoming ∧ m.outgoing = outgoing then some (g, [])
      else if 1 ≤ newTotal ∧ newTotal < m.capacity then g.resizeInplace node incoming outgoing
      else
        match g.dropPorts (droppedPorts m incoming outgoing) with
        | none => none
        | some (g, tr1) =>
          match g.allocPorts node incoming outgoing (nextPow2 newTotal - newTotal) with
          | none => none
          | some (nm, g) =>
            match g.relocPorts ((m.ports .incoming).zip (nm.ports .incoming)
                ++ (m.ports .outgoing).zip (nm.ports .outgoing)) with
            | none => none
            | some (g, tr2) =>
              if node < g.nodeMeta.length then
                match freePorts { g with nodeMeta := g.nodeMeta.set node (.node nm) }
                    m.first m.capacity with
                | none => none
                | some g =>
                  if m.incoming + m.outgoing ≤ g.portCount then
                    some ({ g with
                      portCount := g.portCount - (m.incoming + m.outgoing) + newTotal },
                      tr1 ++ tr2)
                  else none
              else none
  else none

/-- The writes `port_meta[port] = Port(node, dir)` for all ports of a node, in
`compact_nodes` (`src/portgraph.rs` lines 600–604) and `swap_nodes` (lines 626–630). -/
def claimPorts (g : PG) (node : Nat) (m : NodeMeta) : Option PG :=
  if m.first + m.incoming + m.outgoing ≤ g.portMeta.length then
    some { g with
      portMeta := fill (fill g.portMeta m.first m.incoming (.port node .incoming))
        (m.first + m.incoming) m.outgoing (.port node .outgoing) }
  else none

/-- The `retain` loop of `compact_nodes`, `src/portgraph.rs` lines 589–611: `old` and
`new` are the running indices, the result holds the retained entries, the graph with
updated port metadata and the callbacks. -/
def compactNodesLoop (g : PG) (old new : Nat) :
    List NodeEntry → Option (List NodeEntry × PG × List (Nat × Nat))
  | [] => some ([], g, [])
  | .free _ _ :: es => compactNodesLoop g (old + 1) new es
  | .node m :: es =>
    match g.claimPorts new m with
    | none => none
    | some g =>
      match compactNodesLoop g (old + 1) (new + 1) es with
      | none => none
      | some (kept, g, tr) => some (.node m :: kept, g, (old, new) :: tr)

/-- `compact_nodes`, `src/portgraph.rs` lines 585–614. -/
def compactNodes (g : PG) : Option (PG × List (Nat × Nat)) :=
  match g.compactNodesLoop 0 0 g.nodeMeta with
  | none => none
  | some (kept, g, tr) => some ({ g with nodeMeta := kept, nodeFree := none }, tr)

/-- `update_ports` of `swap_nodes`, `src/portgraph.rs` lines 621–631. -/
def swapClaim (g : PG) (newNode : Nat) : NodeEntry → Option PG
  | .free _ _ => some g
  | .node m => g.claimPorts newNode m

/-- `free_entry_mut().unwrap()` followed by a write of the `next` field; used by
`update_free_list` of `swap_nodes`, `src/portgraph.rs` line 638. -/
def setFreeNext (l : List NodeEntry) (i : Nat) (v : Option Nat) : Option (List NodeEntry) :=
  match l[i]? with
  | some (.free prev _) => some (l.set i (.free prev v))
  | _ => none

/-- Same for the `prev` field, `src/portgraph.rs` line 641. -/
def setFreePrev (l : List NodeEntry) (i : Nat) (v : Option Nat) : Option (List NodeEntry) :=
  match l[i]? with
  | some (.free _ next) => some (l.set i (.free v next))
  | _ => none

/-- `update_free_list` of `swap_nodes`, `src/portgraph.rs` lines 636–643. -/
def swapFreeList (l : List NodeEntry) (newNode : Nat) (prev next : Option Nat) :
    Option (List NodeEntry) :=
  match (match prev with
    | none => some l
    | some p => setFreeNext l p (some newNode)) with
  | none => none
  | some l =>
    match next with
    | none => some l
    | some n => setFreePrev l n (some newNode)

/-- `swap_nodes`, `src/portgraph.rs` lines 616–648. -/
def swapNodes (g : PG) (a b : Nat) : Option PG :=
  match g.nodeMeta[a]?, g.nodeMeta[b]? with
  | some ea, some eb =>
    let g := { g with nodeMeta := (g.nodeMeta.set a eb).set b ea }
    match g.swapClaim a eb with
    | none => none
    | some g =>
      match g.swapClaim b ea with
      | none => none
      | some g =>
        match ea, eb with
        | .free p n, .node _ =>
          (swapFreeList g.nodeMeta b p n).map fun l => { g with nodeMeta := l }
        | .node _, .free p n =>
          (swapFreeList g.nodeMeta a p n).map fun l => { g with nodeMeta := l }
        | _, _ => some g
  | _, _ => none

/-- The link loop of `compact_ports`, `src/portgraph.rs` lines 655–673, for the
remaining `k` values of `old_index` starting at `old`. Returns the links before
truncation and the final `new_index`. -/
def compactLinksLoop (pm : List PortEntry) (pl : List (Option Nat)) (old new : Nat) :
    Nat → Option (List (Option Nat) × Nat)
  | 0 => some (pl, new)
  | k + 1 =>
    match pm[old]? with
    | none => none
    | some .free => compactLinksLoop pm pl (old + 1) new k
    | some (.port _ _) =>
      if new = old then compactLinksLoop pm pl (old + 1) (new + 1) k
      else
        match pl[old]? with
        | none => none
        | some l =>
          match (match l with
            | none => some pl
            | some q => vset pl q (some new)) with
          | none => none
          | some pl =>
            match pl[new]?, pl[old]? with
            | some x, some y =>
              compactLinksLoop pm ((pl.set new y).set old x) (old + 1) (new + 1) k
            | _, _ => none

/-- The `retain` loop of `compact_ports`, `src/portgraph.rs` lines 677–709. Returns the
retained entries, the updated node entries and the callbacks. -/
def compactPortsLoop (nm : List NodeEntry) (old new : Nat) :
    List PortEntry → Option (List PortEntry × List NodeEntry × List (Nat × Nat))
  | [] => some ([], nm, [])
  | .free :: es => compactPortsLoop nm (old + 1) new es
  | .port n d :: es =>
    match nm[n]? with
    | some (.node m) =>
      match (if m.first = old then
          match NodeMeta.new? new m.incoming m.outgoing (m.portCount % 65536) with
          | none => none
          | some m' => some (nm.set n (.node m'))
        else some nm) with
      | none => none
      | some nm =>
        match compactPortsLoop nm (old + 1) (new + 1) es with
        | none => none
        | some (kept, nm, tr) => some (.port n d :: kept, nm, (old, new) :: tr)
    | _ => none

/-- `compact_ports`, `src/portgraph.rs` lines 650–713. -/
def compactPorts (g : PG) : Option (PG × List (Nat × Nat)) :=
  match compactLinksLoop g.portMeta g.portLink 0 0 g.portLink.length with
  | none => none
  | some (pl, new) =>
    match compactPortsLoop g.nodeMeta 0 0 g.portMeta with
    | none => none
    | some (kept, nm, tr) =>
      some ({ g with
        portLink := pl.take new, portMeta := kept, nodeMeta := nm, portFree := [] }, tr)

end PG

end Verif.PG
