import Verif.PortGraph.IterModel
import Verif.Hierarchy.Model
import Verif.Secondary.Model

/-!
# The methods of iterators

Model of the methods `next`, `next_back`, `nth`, `count` and `size_hint` (with `len`) of the
iterators of port graphs, hierarchies and secondary maps. `none` is a panic. Iterators of the
standard library and of the crate `bitvec` that are wrapped are modelled by what is left of them.
-/

namespace Verif.Iter

open Verif (Direction)

/-- An iterator: its methods on the states.
Not in the code: the trait `Iterator` of the standard library. -/
structure It (S X : Type) where
  next : S → Option (Option X × S)
  back : S → Option (Option X × S)
  nth : Nat → S → Option (Option X × S)
  count : S → Option Nat
  hint : S → Nat × Option Nat

/-- `Iterator::nth` as provided by the standard library: `n` items are skipped; it stops at the
first missing one. -/
def nthDefault {S X : Type} (next : S → Option (Option X × S)) : Nat → S → Option (Option X × S)
  | 0, s => next s
  | n + 1, s =>
    match next s with
    | none => none
    | some (none, s) => some (none, s)
    | some (some _, s) => nthDefault next n s

/-- `Iterator::count` as provided: calls `next` until the end (fuel: the calls allowed).
Not in the code: standard library. -/
def countDefault {S X : Type} (next : S → Option (Option X × S)) : Nat → S → Option Nat
  | 0, _ => none
  | f + 1, s =>
    match next s with
    | none => none
    | some (none, _) => some 0
    | some (some _, s) => (countDefault next f s).map (· + 1)

/-- A call of a method. Not in the code: names for the methods of `Iterator`. -/
inductive ICall where
  | next
  | back
  | nth (n : Nat)
  | count
  | hint
deriving DecidableEq, Repr

/-- The answer to a call. Not in the code: their answers. -/
inductive IAns (X : Type) where
  | item (x : Option X)
  | count (n : Nat)
  | hint (lo : Nat) (hi : Option Nat)
deriving DecidableEq, Repr

/-- One call; `count` takes the iterator, so it is made on a clone.
Not in the code: applies the methods. -/
def It.call {S X : Type} (it : It S X) (s : S) : ICall → Option (IAns X × S)
  | .next => (it.next s).map fun r => (.item r.1, r.2)
  | .back => (it.back s).map fun r => (.item r.1, r.2)
  | .nth n => (it.nth n s).map fun r => (.item r.1, r.2)
  | .count => (it.count s).map fun n => (.count n, s)
  | .hint => some (.hint (it.hint s).1 (it.hint s).2, s)

/-- The answers to a sequence of calls. Not in the code: a program that makes calls. -/
def It.run {S X : Type} (it : It S X) : S → List ICall → Option (List (IAns X))
  | _, [] => some []
  | s, c :: cs =>
    match it.call s c with
    | none => none
    | some (a, s) => (it.run s cs).map (a :: ·)

/-! ## Port graphs, `src/portgraph/iter.rs` -/

/-- `NodePorts`, `src/portgraph/iter.rs` lines 159–161: a range given by its bounds. -/
structure NodePorts where
  start : Nat
  stop : Nat
deriving DecidableEq, Repr

/-- `NodePorts`, `src/portgraph/iter.rs` lines 171–208. `Range::nth` goes to the end when there are not enough items. -/
def nodePortsIt : It NodePorts Nat where
  next s := some (if s.start < s.stop then (some s.start, { s with start := s.start + 1 }) else (none, s))
  back s := some (if s.start < s.stop then (some (s.stop - 1), { s with stop := s.stop - 1 }) else (none, s))
  nth n s := some (if s.start + n < s.stop then (some (s.start + n), { s with start := s.start + n + 1 })
    else (none, { s with start := s.stop }))
  count s := some (s.stop - s.start)
  hint s := (s.stop - s.start, some (s.stop - s.start))

/-- `_ports`, lines 21–28, with the ranges of `NodeMeta`, `src/portgraph.rs` lines 889–911. -/
def nodePorts (g : PG.PG) (n : Nat) (d : Direction) : NodePorts :=
  match g.node? n, d with
  | none, _ => ⟨0, 0⟩
  | some m, .incoming => ⟨m.first, m.first + m.incoming⟩
  | some m, .outgoing => ⟨m.first + m.incoming, m.first + m.incoming + m.outgoing⟩

/-- `_all_ports`, lines 49–56, with `NodeMeta::all_ports`, `src/portgraph.rs` lines 881–886. -/
def nodeAllPorts (g : PG.PG) (n : Nat) : NodePorts :=
  match g.node? n with
  | none => ⟨0, 0⟩
  | some m => ⟨m.first, m.first + m.incoming + m.outgoing⟩

/-- `Nodes`, `src/portgraph/iter.rs` lines 218–264. -/
def nodesIt : It PG.Nodes Nat where
  next := PG.Nodes.next
  back := PG.Nodes.nextBack
  nth := nthDefault PG.Nodes.next
  count s := some s.len
  hint s := (s.len, some s.len)

/-- `Ports`, `src/portgraph/iter.rs` lines 274–314. -/
def portsIt : It PG.Ports Nat where
  next := PG.Ports.next
  back := PG.Ports.nextBack
  nth := nthDefault PG.Ports.next
  count s := some s.len
  hint s := (s.len, some s.len)

/-- `NodePortOffsets`, `src/portgraph/iter.rs` lines 338–376. -/
def offsetsIt : It PG.Offsets (Direction × Nat) where
  next := PG.Offsets.next
  back := PG.Offsets.nextBack
  nth := nthDefault PG.Offsets.next
  count s := some s.len
  hint s := (s.len, some s.len)

/-! ## Hierarchies, `src/hierarchy.rs` -/

/-- `Children`, `src/hierarchy.rs` lines 604–646. -/
def childrenIt (h : Hier.Hierarchy) : It Hier.Children Nat where
  next := Hier.Children.step h
  back := Hier.Children.stepBack h
  nth := nthDefault (Hier.Children.step h)
  count s := countDefault (Hier.Children.step h) (s.len + 1) s
  hint s := (s.len, some s.len)

/-- `NextStates::len`, `src/hierarchy.rs` lines 671–678. -/
def queueLen : Hier.NextStates → Nat
  | .root _ => 1
  | .descendants q => q.length

/-- `Descendants`, `src/hierarchy.rs` lines 690–726; it has no `next_back`, and `count` gets the given fuel. -/
def descendantsIt (h : Hier.Hierarchy) (fuel : Nat) : It Hier.NextStates Nat where
  next s := some (s.step h)
  back _ := none
  nth := nthDefault fun s => some (s.step h)
  count s := countDefault (fun s => some (s.step h)) fuel s
  hint s := (queueLen s, none)

/-! ## Secondary maps -/

/-- `K::try_from(key)` for an index type with this maximum, `src/index.rs` lines 59–66; the
iterators unwrap the result. -/
def keyOf (maxKey k : Nat) : Option Nat := if k ≤ maxKey then some k else none

/-- `UnmanagedIter`, `src/unmanaged.rs` lines 402–406: an enumerated slice iterator, that is the
number of the next item and the items left. -/
structure Enum (V : Type) where
  index : Nat
  rest : List V
deriving DecidableEq, Repr

/-- `UnmanagedIter`, `src/unmanaged.rs` lines 408–451, with the methods of `Enumerate`: from the back the number is
found from the number of items left; `nth` adds the number of skipped items. -/
def denseIt {V : Type} (maxKey : Nat) : It (Enum V) (Nat × V) where
  next s :=
    match s.rest with
    | [] => some (none, s)
    | x :: r => (keyOf maxKey s.index).map fun k => (some (k, x), ⟨s.index + 1, r⟩)
  back s :=
    match s.rest.getLast? with
    | none => some (none, s)
    | some x => (keyOf maxKey (s.index + s.rest.dropLast.length)).map fun k => (some (k, x), ⟨s.index, s.rest.dropLast⟩)
  nth n s :=
    match s.rest[n]? with
    | none => some (none, ⟨s.index, []⟩)
    | some x => (keyOf maxKey (s.index + n)).map fun k => (some (k, x), ⟨s.index + n + 1, s.rest.drop (n + 1)⟩)
  count s := some s.rest.length
  hint s := (s.rest.length, some s.rest.length)

/-- `UnmanagedDenseMap::iter`, `src/unmanaged.rs` lines 389–398. -/
def denseStart {V : Type} (m : Secondary.Dense V) : Enum V := ⟨0, m.data⟩

/-- `BitVecIter`, `src/secondary.rs` lines 194–242. `IterOnes` is the list of the positions left. -/
def bitsIt (maxKey : Nat) : It (List Nat) (Nat × Bool) where
  next s :=
    match s with
    | [] => some (none, [])
    | i :: r => (keyOf maxKey i).map fun k => (some (k, true), r)
  back s :=
    match s.getLast? with
    | none => some (none, s)
    | some i => (keyOf maxKey i).map fun k => (some (k, true), s.dropLast)
  nth n s :=
    match s[n]? with
    | none => some (none, [])
    | some i => (keyOf maxKey i).map fun k => (some (k, true), s.drop (n + 1))
  count s := some s.length
  hint s := (s.length, some s.length)

/-- `BitVec::iter`, `src/secondary.rs` lines 181–189: `iter_ones`, the positions of the set bits in order. -/
def bitsStart (m : List Bool) : List Nat := (List.range m.length).filter fun k => m[k]? == some true

/-- `HashSetIter`, `src/secondary.rs` lines 314–343; the state is the list of the elements left. There is no
`next_back`. -/
def hashIt {K : Type} : It (List K) (K × Bool) where
  next s := some ((s.head?).map fun k => (k, true), s.tail)
  back _ := none
  nth n s := some ((s[n]?).map fun k => (k, true), s.drop (n + 1))
  count s := some s.length
  hint s := (s.length, some s.length)

end Verif.Iter
