import Verif.Multi.Model
import Verif.PortGraph.IterModel

/-!
# The iterators of a `MultiPortGraph`, step by step

Model of `src/multiportgraph/iter.rs` lines 80–547. An iterator is a state with a step function for
`next` and, where it exists, one for `next_back`; a step is `none` on a panic, otherwise it returns the
item and the new state. `NodePorts` and `Enumerate<NodePorts>` are the lists of the items left. Loops
carry a fuel and are `none` when it runs out. A size hint is the pair of the two bounds.
-/

namespace Verif.Multi

open Verif (Direction)
open Verif.PG

/-- Calls of `step` until an item is kept or there is none: `find` (`src/multiportgraph/iter.rs` lines 94–97, 524–527) and the loops of
lines 121–127 and 537–543. -/
def findKept {S X : Type} (step : S → Option (Option X × S)) (keep : X → Option Bool) : Nat → S → Option (Option X × S)
  | 0, _ => none
  | f + 1, s =>
    match step s with
    | none => none
    | some (none, s) => some (none, s)
    | some (some x, s) =>
      match keep x with
      | none => none
      | some true => some (some x, s)
      | some false => findKept step keep f s

/-! ## Nodes and ports -/

/-- `Nodes`, `src/multiportgraph/iter.rs` lines 82–89. -/
structure MNodes where
  iter : Nodes
  len : Nat

/-- `src/multiportgraph/iter.rs` lines 98 and 124: the counter goes down; it panics at 0. -/
def MNodes.took (s : MNodes) : Option (Option Nat × Nodes) → Option (Option Nat × MNodes)
  | none => none
  | some (none, it) => some (none, { s with iter := it })
  | some (some x, it) => if s.len = 0 then none else some (some x, ⟨it, s.len - 1⟩)

/-- `Nodes::next`, `src/multiportgraph/iter.rs` lines 94–100. -/
def MNodes.next (m : MG) (s : MNodes) : Option (Option Nat × MNodes) :=
  s.took (findKept Nodes.next (fun n => some (!m.copy n)) (s.iter.iter.length + 1) s.iter)

/-- `Nodes::next_back`, `src/multiportgraph/iter.rs` lines 120–128. -/
def MNodes.nextBack (m : MG) (s : MNodes) : Option (Option Nat × MNodes) :=
  s.took (findKept Nodes.nextBack (fun n => some (!m.copy n)) (s.iter.iter.length + 1) s.iter)

/-- `src/multiportgraph/iter.rs` lines 524–527 and 539–540: whether a port is shown; the `unwrap` panics on a port without node. -/
def MG.keepPort (m : MG) (p : Nat) : Option Bool :=
  match m.graph.portNode p with
  | none => none
  | some n => some (!m.copy n)

/-- `Ports::next`, `src/multiportgraph/iter.rs` lines 523–528; the state is that of the iterator of the flat graph. -/
def mportsNext (m : MG) (s : Ports) : Option (Option Nat × Ports) :=
  findKept Ports.next m.keepPort (s.iter.length + 1) s

/-- `Ports::next_back`, `src/multiportgraph/iter.rs` lines 536–544. -/
def mportsBack (m : MG) (s : Ports) : Option (Option Nat × Ports) :=
  findKept Ports.nextBack m.keepPort (s.iter.length + 1) s

/-- `Ports::size_hint`, lines 530–532 and `src/portgraph/iter.rs` lines 291–293. -/
def mportsHint (s : Ports) : Nat × Option Nat := (0, some s.len)

/-- `nodes_iter`, `src/multiportgraph.rs` lines 148–154. -/
def MG.nodesIter (m : MG) : MNodes := ⟨m.graph.nodesIter, m.nodeCount⟩

/-! ## The links of a port -/

/-- `PortLinks`, `src/multiportgraph/iter.rs` lines 373–386. `subs` are the ports left with their offsets. -/
inductive PLinks where
  | single (p : Nat) (empty : Bool)
  | multi (p : Nat) (subs : List (Nat × Nat))

/-- `PortLinks::new`, `src/multiportgraph/iter.rs` lines 389–406. -/
def MG.plinks (m : MG) (p : Nat) : Option PLinks :=
  if m.multi p then
    match m.copyNode p with
    | some (some c) =>
      match m.graph.portDirection p with
      | none => none
      | some d => some (.multi p (m.graph.ports c d).zipIdx)
    | _ => none
  else some (.single p false)

/-- The search of `src/multiportgraph/iter.rs` lines 453 (from the front) and 491–496 (from the back, with the list reversed). -/
def findLink (m : MG) (p : Nat) : List (Nat × Nat) → Option (Option (Subport × Subport) × List (Nat × Nat))
  | [] => some (none, [])
  | x :: l =>
    match m.linkFrom (newMulti p x.2) x.1 with
    | none => none
    | some none => findLink m p l
    | some (some y) => some (some y, l)

/-- `PortLinks::next`, `src/multiportgraph/iter.rs` lines 436–455. -/
def PLinks.next (m : MG) : PLinks → Option (Option (Subport × Subport) × PLinks)
  | .single p false =>
    match m.linkFrom (some (p, 0)) p with
    | none => none
    | some y => some (y, .single p true)
  | .single p true => some (none, .single p true)
  | .multi p l =>
    match findLink m p l with
    | none => none
    | some (y, l) => some (y, .multi p l)

/-- `PortLinks::next_back`, `src/multiportgraph/iter.rs` lines 472–498. -/
def PLinks.nextBack (m : MG) : PLinks → Option (Option (Subport × Subport) × PLinks)
  | .single p false =>
    match m.linkFrom (some (p, 0)) p with
    | none => none
    | some y => some (y, .single p true)
  | .single p true => some (none, .single p true)
  | .multi p l =>
    match findLink m p l.reverse with
    | none => none
    | some (y, l) => some (y, .multi p l.reverse)

/-- `PortLinks::size_hint`, `src/multiportgraph/iter.rs` lines 457–468. -/
def PLinks.hint : PLinks → Nat × Option Nat
  | .single _ true => (0, some 0)
  | .single _ false => (1, some 1)
  | .multi _ l => (0, some l.length)

/-! ## The links of a node -/

/-- `NodeLinks`, `src/multiportgraph/iter.rs` lines 280–287. The ignored range of ports is `lo..hi`. -/
structure MLinks where
  ports : List Nat
  current : Option PLinks
  lo : Nat
  hi : Nat

/-- `NodeLinks::next`, `src/multiportgraph/iter.rs` lines 308–326. -/
def MLinks.next (m : MG) : Nat → MLinks → Option (Option (Subport × Subport) × MLinks)
  | 0, _ => none
  | f + 1, s =>
    match s.current with
    | none =>
      match s.ports with
      | [] => some (none, s)
      | p :: ps =>
        match m.plinks p with
        | none => none
        | some c => MLinks.next m f { s with ports := ps, current := some c }
    | some c =>
      match c.next m with
      | none => none
      | some (none, _) => MLinks.next m f { s with current := none }
      | some (some y, c) =>
        if s.lo ≤ y.2.1 ∧ y.2.1 < s.hi then MLinks.next m f { s with current := some c }
        else some (some y, { s with current := some c })

/-- `_links`, `src/multiportgraph/iter.rs` lines 36–38. -/
def MG.linksIter (m : MG) (n : Nat) (d : Direction) : MLinks := ⟨m.graph.ports n d, none, 0, 0⟩

/-- `_all_links`, lines 42–45, and `node_outgoing_ports`, `src/portgraph.rs` lines 325–330. -/
def MG.allLinksIter (m : MG) (n : Nat) : MLinks :=
  match m.graph.node? n with
  | none => ⟨m.graph.allPorts n, none, 0, 0⟩
  | some x => ⟨m.graph.allPorts n, none, x.start .outgoing, x.start .outgoing + x.numPorts .outgoing⟩

/-- `NodeConnections::next`, `src/multiportgraph/iter.rs` lines 357–365: `fuel` for both loops. The `?` of line 360 ends this call. -/
def connsNext (m : MG) (target fuel : Nat) : Nat → MLinks → Option (Option (Subport × Subport) × MLinks)
  | 0, _ => none
  | f + 1, s =>
    match s.next m fuel with
    | none => none
    | some (none, s) => some (none, s)
    | some (some y, s) =>
      match m.graph.portNode y.2.1 with
      | none => some (none, s)
      | some n => if n = target then some (some y, s) else connsNext m target fuel f s

/-! ## Subports and neighbours -/

/-- `NodeSubports`, `src/multiportgraph/iter.rs` lines 134–140. `current_subports` is the range `lo..hi`. -/
structure MSubs where
  ports : List Nat
  current : Option Nat
  lo : Nat
  hi : Nat

/-- `NodeSubports::next`, `src/multiportgraph/iter.rs` lines 159–189. The `expect` panics if there is no current port. -/
def MSubs.next (m : MG) : Nat → MSubs → Option (Option Subport × MSubs)
  | 0, _ => none
  | f + 1, s =>
    if s.lo < s.hi then
      match s.current with
      | none => none
      | some p =>
        match newMulti p s.lo with
        | none => none
        | some e => some (some e, { s with lo := s.lo + 1 })
    else
      match s.ports with
      | [] => some (none, s)
      | p :: ps =>
        if m.multi p then
          match m.graph.portDirection p, m.copyNode p with
          | some d, some (some c) => MSubs.next m f ⟨ps, some p, 0, m.graph.numPorts c d⟩
          | _, _ => none
        else some (some (p, 0), { s with ports := ps, current := some p })

/-- `NodeSubports::size_hint`, `src/multiportgraph/iter.rs` lines 191–193. -/
def MSubs.hint (s : MSubs) : Nat × Option Nat := (s.ports.length + (s.hi - s.lo), none)

/-- `NodeSubports::new`, `src/multiportgraph/iter.rs` lines 143–153. -/
def MSubs.new (ports : List Nat) : MSubs := ⟨ports, none, 0, 0⟩

/-- `Neighbours`, `src/multiportgraph/iter.rs` lines 200–210. -/
structure MNeigh where
  subs : MSubs
  copy : Option Nat
  node : Nat
  ignore : Bool

/-- The closure of `src/multiportgraph/iter.rs` lines 234–252 for one subport: the flat port at its other end, and the cached copy
node afterwards. -/
def neighTarget (m : MG) (cache : Option Nat) (e : Subport) : Option (Option Nat × Option Nat) :=
  if !m.multi e.1 then (m.graph.portLink? e.1).map (·, cache)
  else
    match (if e.2 = 0 then m.copyNode e.1 else some cache) with
    | none => none
    | some cache =>
      match cache, m.graph.portDirection e.1 with
      | some c, some d =>
        match m.graph.portIndex c d e.2 with
        | none => none
        | some i => (m.graph.portLink? i).map (·, cache)
      | _, _ => none

/-- `Neighbours::next`, `src/multiportgraph/iter.rs` lines 232–269; the inner `find_map` and the outer loop are one loop. -/
def MNeigh.next (m : MG) (fuel : Nat) : Nat → MNeigh → Option (Option Nat × MNeigh)
  | 0, _ => none
  | f + 1, s =>
    match s.subs.next m fuel with
    | none => none
    | some (none, t) => some (none, { s with subs := t })
    | some (some e, t) =>
      match neighTarget m s.copy e with
      | none => none
      | some (none, c) => MNeigh.next m fuel f { s with subs := t, copy := c }
      | some (some l, c) =>
        match m.fromIndex l with
        | some (some g) =>
          match m.graph.portNode g.1 with
          | none => none
          | some k =>
            if s.ignore && k == s.node then
              match m.graph.portDirection g.1 with
              | none => none
              | some .outgoing => MNeigh.next m fuel f { s with subs := t, copy := c }
              | some .incoming => some (some k, { s with subs := t, copy := c })
            else some (some k, { s with subs := t, copy := c })
        | _ => none

/-- `_neighbours` and `_all_neighbours`, `src/multiportgraph/iter.rs` lines 58–66, for the ports of the node. -/
def MNeigh.new (ports : List Nat) (n : Nat) (ignore : Bool) : MNeigh := ⟨.new ports, none, n, ignore⟩

end Verif.Multi
