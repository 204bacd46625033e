import Verif.Index.Model

/-!
# Optional indices, orders and directions

Model of the rest of `src/index.rs`: the methods of `MaybeNodeIndex` and `MaybePortIndex`, the
derived orders, the setters of `BitField`, and of the conversions of `Direction` in `src/lib.rs`.
-/

namespace Verif.Index

/-! ## `MaybeNodeIndex`, `MaybePortIndex` -/

/-- `is_none`, `src/index.rs` lines 178–180. -/
def maybeIsNone {w : Nat} (b : BitField w) : Bool := isNone b

/-- `is_some`, `src/index.rs` lines 172–174. -/
def maybeIsSome {w : Nat} (b : BitField w) : Bool := !maybeIsNone b

/-- `expect`, `src/index.rs` lines 185–190, and `unwrap`, lines 194–196: `none` is the panic. -/
def maybeExpect {w : Nat} (b : BitField w) : Option (BitField w) :=
  if maybeIsNone b then none else some b

/-- `take`, `src/index.rs` lines 200–202: the returned value and the new one. -/
def maybeTake {w : Nat} (b : BitField w) : BitField w × BitField w := (b, maybeNew none)

/-- `replace`, `src/index.rs` lines 206–208, with `From<NodeIndex>`, lines 217–222. -/
def maybeReplace {w : Nat} (b : BitField w) (v : BitField w) : BitField w × BitField w := (b, v)

/-- A write through `as_mut`, `src/index.rs` lines 162–168: the flag tells whether there was an index. -/
def maybeAsMut {w : Nat} (b : BitField w) (v : BitField w) : Bool × BitField w :=
  if maybeIsNone b then (false, b) else (true, v)

/-- `Default`, `src/index.rs` lines 238–243. -/
def maybeDefault (w : Nat) : BitField w := newNone w

/-- `into_iter`, `src/index.rs` lines 245–252, as the list of its items. -/
def maybeIntoIter {w : Nat} (b : BitField w) : List (BitField w) := (maybeToOption b).toList

/-- The methods with receiver, as calls; the numbers are the indices given as arguments.
Not in the code: names for the methods of `src/index.rs` lines 155–252. -/
inductive MCall where
  | isNone
  | isSome
  | toOption
  | unwrap
  | take
  | replace (i : Nat)
  | write (i : Nat)
  | intoIter
deriving DecidableEq, Repr

/-- What a call returns. Not in the code: their answers. -/
inductive MAns where
  | bool (b : Bool)
  | opt (o : Option Nat)
  | index (i : Nat)
  | list (l : List Nat)
  | panic
deriving DecidableEq, Repr

/-- One call; an index argument is made with `new`, whose panic is the answer `panic`. Returned
indices are read with `index()`.
Not in the code: applies the methods of `src/index.rs` lines 155–252. -/
def maybeCall {w : Nat} (b : BitField w) : MCall → MAns × BitField w
  | .isNone => (.bool (maybeIsNone b), b)
  | .isSome => (.bool (maybeIsSome b), b)
  | .toOption => (.opt ((maybeToOption b).map indexOf), b)
  | .unwrap => ((maybeExpect b).elim .panic (fun x => .index (indexOf x)), b)
  | .take => (.opt ((maybeToOption (maybeTake b).1).map indexOf), (maybeTake b).2)
  | .replace i =>
    match indexNew w i with
    | none => (.panic, b)
    | some v => (.opt ((maybeToOption (maybeReplace b v).1).map indexOf), (maybeReplace b v).2)
  | .write i =>
    match indexNew w i with
    | none => (.panic, b)
    | some v => (.bool (maybeAsMut b v).1, (maybeAsMut b v).2)
  | .intoIter => (.list ((maybeIntoIter b).map indexOf), b)

/-- The answers to a sequence of calls. Not in the code: a program that makes calls. -/
def maybeRun {w : Nat} : BitField w → List MCall → List MAns
  | _, [] => []
  | b, c :: cs => (maybeCall b c).1 :: maybeRun (maybeCall b c).2 cs

/-! ## Setters of the bit field -/

/-- The methods of `BitField` that change it. `src/index.rs`, implementation of `BitField`. -/
inductive FCall where
  | setIndex (i : Nat)
  | setFlag
  | unsetFlag
  | flip
deriving DecidableEq, Repr

/-- One call; `none` is a panic.
Not in the code: applies the methods of `BitField` in `src/index.rs`. -/
def fieldCall {w : Nat} (b : BitField w) : FCall → Option (BitField w)
  | .setIndex i => setIndex b i
  | .setFlag => setBitFlag b
  | .unsetFlag => unsetBitFlag b
  | .flip => some (flipBitFlag b)

/-- A sequence of calls. Not in the code: a program that makes calls. -/
def fieldRun {w : Nat} : BitField w → List FCall → Option (BitField w)
  | b, [] => some b
  | b, c :: cs => (fieldCall b c).bind fun b => fieldRun b cs

/-! ## Orders and directions -/

/-- The derived `Ord` of `BitField`, `NodeIndex`, `PortIndex` and `PortOffset`, `src/index.rs` lines 20–31, 297
and 424: the order of the numbers that hold the bits. -/
def bfCmp {w : Nat} (a b : BitField w) : Ordering := compare a.toNat b.toNat

/-- `From<Direction> for usize`, `src/lib.rs` lines 121–126. -/
def directionToNat : Direction → Nat
  | .incoming => 0
  | .outgoing => 1

/-- `TryFrom<usize> for Direction`, `src/lib.rs` lines 128–139. -/
def directionTryFrom : Nat → Except Nat Direction
  | 0 => .ok .incoming
  | 1 => .ok .outgoing
  | i => .error i

/-- `Default for PortOffset`, `src/index.rs` lines 350–354. -/
def offsetDefault (w : Nat) : Option (BitField w) := offsetNew w .outgoing 0

/-- `Default for PortIndex`, `src/index.rs` lines 116–120. -/
def indexDefault (w : Nat) : Option (BitField w) := indexNew w 0

end Verif.Index
