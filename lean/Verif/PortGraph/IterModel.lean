import Verif.PortGraph.Model

/-!
# Iterators of port graphs

Model of `src/portgraph/iter.rs`. An iterator is a state with two step functions. A step
returns `none` on a panic, otherwise the yielded item and the new state. Slice iterators are
modelled by the list of the items left.
-/

namespace Verif.PG

open Verif (Direction)

/-- Run a sequence of calls: `false` is `next`, `true` is `next_back`. After each call the value
of `len()` is observed.
Not in the code: a program that calls the iterators of `src/portgraph/iter.rs`. -/
def runIter {S X : Type} (next back : S → Option (Option X × S)) (len : S → Nat) :
    List Bool → S → Option (List (Option X × Nat))
  | [], _ => some []
  | b :: bs, s =>
    match (if b then back s else next s) with
    | none => none
    | some (x, s) =>
      match runIter next back len bs s with
      | none => none
      | some xs => some ((x, len s) :: xs)

/-- The results of `k` calls to `next`.
Not in the code: a program that calls the iterators of `src/portgraph/iter.rs`. -/
def runNext {S X : Type} (next : S → Option (Option X × S)) : Nat → S → Option (List (Option X))
  | 0, _ => some []
  | k + 1, s =>
    match next s with
    | none => none
    | some (x, s) =>
      match runNext next k s with
      | none => none
      | some xs => some (x :: xs)

/-- `Nodes`, `src/portgraph/iter.rs` lines 212–215: the enumerated slots left and the length counter. -/
structure Nodes where
  iter : List (Nat × NodeEntry)
  len : Nat
deriving DecidableEq, Repr

/-- The search loop shared by `next` (`src/portgraph/iter.rs` lines 221–229, from the front) and `next_back` (lines
254–259, from the back; the list is then given reversed): the first live slot and the slots
after it. -/
def findNode : List (Nat × NodeEntry) → Option (Nat × List (Nat × NodeEntry))
  | [] => none
  | (i, .node _) :: l => some (i, l)
  | (_, .free _ _) :: l => findNode l

/-- `Nodes::next`, `src/portgraph/iter.rs` lines 221–229; `len -= 1` panics at 0. -/
def Nodes.next (s : Nodes) : Option (Option Nat × Nodes) :=
  match findNode s.iter with
  | none => some (none, { s with iter := [] })
  | some (i, l) => if s.len = 0 then none else some (some i, ⟨l, s.len - 1⟩)

/-- `Nodes::next_back`, `src/portgraph/iter.rs` lines 249–262. -/
def Nodes.nextBack (s : Nodes) : Option (Option Nat × Nodes) :=
  if s.len = 0 then some (none, s)
  else
    match findNode s.iter.reverse with
    | none => some (none, { s with iter := [] })
    | some (i, l) => some (some i, ⟨l.reverse, s.len - 1⟩)

/-- `Ports`, `src/portgraph/iter.rs` lines 269–272. -/
structure Ports where
  iter : List (Nat × PortEntry)
  len : Nat
deriving DecidableEq, Repr

/-- The search loop of `Ports`, `src/portgraph/iter.rs` lines 277–285 and 303–311. -/
def findPort : List (Nat × PortEntry) → Option (Nat × List (Nat × PortEntry))
  | [] => none
  | (i, .port _ _) :: l => some (i, l)
  | (_, .free) :: l => findPort l

/-- `Ports::next`, `src/portgraph/iter.rs` lines 277–285. -/
def Ports.next (s : Ports) : Option (Option Nat × Ports) :=
  match findPort s.iter with
  | none => some (none, { s with iter := [] })
  | some (i, l) => if s.len = 0 then none else some (some i, ⟨l, s.len - 1⟩)

/-- `Ports::next_back`, `src/portgraph/iter.rs` lines 303–311. -/
def Ports.nextBack (s : Ports) : Option (Option Nat × Ports) :=
  match findPort s.iter.reverse with
  | none => some (none, { s with iter := [] })
  | some (i, l) => if s.len = 0 then none else some (some i, ⟨l.reverse, s.len - 1⟩)

/-- `NodePortOffsets`, `src/portgraph/iter.rs` lines 319–325: two ranges, given by start and length. -/
structure Offsets where
  inStart : Nat
  inLen : Nat
  outStart : Nat
  outLen : Nat
deriving DecidableEq, Repr

/-- `NodePortOffsets::next`, `src/portgraph/iter.rs` lines 341–349. Offsets are yielded as pairs; their encoding by
`PortOffset::new` is the subject of `Verif.Index`. -/
def Offsets.next (s : Offsets) : Option (Option (Direction × Nat) × Offsets) :=
  if 0 < s.inLen then
    some (some (.incoming, s.inStart), { s with inStart := s.inStart + 1, inLen := s.inLen - 1 })
  else if 0 < s.outLen then
    some (some (.outgoing, s.outStart), { s with outStart := s.outStart + 1, outLen := s.outLen - 1 })
  else some (none, s)

/-- `NodePortOffsets::next_back`, `src/portgraph/iter.rs` lines 367–375. -/
def Offsets.nextBack (s : Offsets) : Option (Option (Direction × Nat) × Offsets) :=
  if 0 < s.outLen then
    some (some (.outgoing, s.outStart + s.outLen - 1), { s with outLen := s.outLen - 1 })
  else if 0 < s.inLen then
    some (some (.incoming, s.inStart + s.inLen - 1), { s with inLen := s.inLen - 1 })
  else some (none, s)

/-- `NodePortOffsets::len`, `src/portgraph/iter.rs` lines 361–363. -/
def Offsets.len (s : Offsets) : Nat := s.inLen + s.outLen

/-- `NodeLinks`, `src/portgraph/iter.rs` lines 383–388: the zipped ports and link slots left, and the ignored range of
targets `lo..hi`. -/
structure NodeLinks where
  links : List (Nat × Option Nat)
  lo : Nat
  hi : Nat
deriving DecidableEq, Repr

/-- The loop of `NodeLinks::next`, `src/portgraph/iter.rs` lines 408–418. -/
def nextLink (lo hi : Nat) : List (Nat × Option Nat) → Option ((Nat × Nat) × List (Nat × Option Nat))
  | [] => none
  | (_, none) :: l => nextLink lo hi l
  | (p, some q) :: l => if lo ≤ q ∧ q < hi then nextLink lo hi l else some ((p, q), l)

/-- `NodeLinks::next`, `src/portgraph/iter.rs` lines 407–419. -/
def NodeLinks.next (s : NodeLinks) : Option (Nat × Nat) × NodeLinks :=
  match nextLink s.lo s.hi s.links with
  | none => (none, { s with links := [] })
  | some (x, l) => (some x, { s with links := l })

/-- `NodeLinks::next_back`, `src/portgraph/iter.rs` lines 429–436; it does not look at the ignored range. -/
def NodeLinks.nextBack (s : NodeLinks) : Option (Nat × Nat) × NodeLinks :=
  match nextLink 0 0 s.links.reverse with
  | none => (none, { s with links := [] })
  | some (x, l) => (some x, { s with links := l.reverse })

namespace PG

/-- `_nodes_iter`, `src/portgraph/iter.rs` lines 90–95. -/
def nodesIter (g : PG) : Nodes := ⟨(List.range g.nodeMeta.length).zip g.nodeMeta, g.nodeCount⟩

/-- `_ports_iter`, `src/portgraph/iter.rs` lines 99–104. -/
def portsIter (g : PG) : Ports := ⟨(List.range g.portMeta.length).zip g.portMeta, g.portCount⟩

/-- `_port_offsets`, `src/portgraph/iter.rs` lines 59–76. -/
def portOffsets (g : PG) (n : Nat) : Direction → Offsets
  | .incoming => ⟨0, g.numPorts n .incoming, 0, 0⟩
  | .outgoing => ⟨0, 0, 0, g.numPorts n .outgoing⟩

/-- `_all_port_offsets`, `src/portgraph/iter.rs` lines 80–86. -/
def allPortOffsets (g : PG) (n : Nat) : Offsets :=
  ⟨0, g.numPorts n .incoming, 0, g.numPorts n .outgoing⟩

/-- The link slots of a range; slicing panics out of bounds.
As in `_links`, `src/portgraph/iter.rs` lines 119–125. -/
def linkSlice (g : PG) (start len : Nat) : Option (List (Option Nat)) :=
  if start + len ≤ g.portLink.length then some ((g.portLink.drop start).take len) else none

/-- `_links`, `src/portgraph/iter.rs` lines 119–125. -/
def links (g : PG) (n : Nat) (d : Direction) : Option NodeLinks :=
  match g.node? n with
  | none => some ⟨[], 0, 0⟩
  | some m =>
    match g.linkSlice (m.start d) (m.numPorts d) with
    | none => none
    | some ls => some ⟨(m.ports d).zip ls, 0, 0⟩

/-- `_all_links`, `src/portgraph/iter.rs` lines 128–141. -/
def allLinks (g : PG) (n : Nat) : Option NodeLinks :=
  match g.node? n with
  | none => some ⟨[], 0, 0⟩
  | some m =>
    match g.linkSlice m.first (m.incoming + m.outgoing) with
    | none => none
    | some ls => some ⟨m.allPorts.zip ls, m.start .outgoing, m.start .outgoing + m.outgoing⟩

/-- `Neighbours::next`, `src/portgraph/iter.rs` lines 467–471; the `unwrap` panics on a target that is no port. -/
def neighbourNext (g : PG) (s : NodeLinks) : Option (Option Nat × NodeLinks) :=
  match s.next with
  | (none, s) => some (none, s)
  | (some (_, q), s) =>
    match g.portNode q with
    | none => none
    | some n => some (some n, s)

/-- `Neighbours::next_back`, `src/portgraph/iter.rs` lines 481–485. -/
def neighbourNextBack (g : PG) (s : NodeLinks) : Option (Option Nat × NodeLinks) :=
  match s.nextBack with
  | (none, s) => some (none, s)
  | (some (_, q), s) =>
    match g.portNode q with
    | none => none
    | some n => some (some n, s)

/-- The loop of `NodeConnections::next`, `src/portgraph/iter.rs` lines 521–528 (fuel: the number of link slots left). -/
def connNext (g : PG) (target : Nat) : Nat → NodeLinks → Option (Nat × Nat) × NodeLinks
  | 0, s => (none, s)
  | fuel + 1, s =>
    match s.next with
    | (none, s) => (none, s)
    | (some (p, q), s) => if g.portNode q = some target then (some (p, q), s) else connNext g target fuel s

/-- The loop of `NodeConnections::next_back`, `src/portgraph/iter.rs` lines 538–545. -/
def connNextBack (g : PG) (target : Nat) : Nat → NodeLinks → Option (Nat × Nat) × NodeLinks
  | 0, s => (none, s)
  | fuel + 1, s =>
    match s.nextBack with
    | (none, s) => (none, s)
    | (some (p, q), s) => if g.portNode q = some target then (some (p, q), s) else connNextBack g target fuel s

end PG

end Verif.PG
