import Verif.Basic

/-!
# Model of `src/index.rs` (bit fields, indices, port offsets)

A field of `w` bits is a `BitVec w`; `w` stands for the width of the Rust integer type
(`u8`, `u16`, `u32`, `u64`, `usize`). The functions use the same bit operations as the
Rust code. `none` as a result of a function that does not return a Rust `Option` is a
panic; a function returning a Rust `Option` uses `Option` for that.
-/

namespace Verif.Index

/-- `BitField<U>`, `src/index.rs` line 426. -/
abbrev BitField (w : Nat) := BitVec w

/-- `BitField::msb_mask`, `src/index.rs` lines 561–563: `MAX - (MAX >> 1)`. -/
def msbMask (w : Nat) : BitField w := BitVec.allOnes w - (BitVec.allOnes w >>> 1)

/-- `BitField::new_none`, `src/index.rs` lines 472–474: the all-ones value. -/
def newNone (w : Nat) : BitField w := BitVec.allOnes w

/-- `BitField::is_none`, `src/index.rs` lines 567–569. -/
def isNone {w : Nat} (b : BitField w) : Bool := b == newNone w

/-- `BitField::max_index`, `src/index.rs` lines 478–484: `(MAX >> 1) - 1`. -/
def maxIndex (w : Nat) : Nat := ((2 ^ w - 1) >>> 1) - 1

/-- `BitField::set_bit_flag`, `src/index.rs` lines 536–541. Panics on the unset field. -/
def setBitFlag {w : Nat} (b : BitField w) : Option (BitField w) :=
  if isNone b then none else some (b ||| msbMask w)

/-- `BitField::unset_bit_flag`, `src/index.rs` lines 548–553. -/
def unsetBitFlag {w : Nat} (b : BitField w) : Option (BitField w) :=
  if isNone b then none else some (b &&& ~~~ msbMask w)

/-- `BitField::flip_bit_flag`, `src/index.rs` lines 556–558. -/
def flipBitFlag {w : Nat} (b : BitField w) : BitField w := b ^^^ msbMask w

/-- `BitField::new`, `src/index.rs` lines 460–468. `U::from_usize(index).expect(..)`
panics exactly if the index does not fit into `w` bits. -/
def bfNew (w : Nat) (index : Nat) (flag : Bool) : Option (BitField w) :=
  if index < 2 ^ w then
    if flag then setBitFlag (BitVec.ofNat w index) else some (BitVec.ofNat w index)
  else none

/-- `BitField::index_unchecked`, `src/index.rs` lines 501–505. -/
def indexUnchecked {w : Nat} (b : BitField w) : Nat := (b &&& ~~~ msbMask w).toNat

/-- `BitField::index`, `src/index.rs` lines 490–495. -/
def bfIndex {w : Nat} (b : BitField w) : Option Nat :=
  if isNone b then none else some (indexUnchecked b)

/-- `BitField::set_index`, `src/index.rs` lines 513–521. -/
def setIndex {w : Nat} (b : BitField w) (index : Nat) : Option (BitField w) :=
  if index < 2 ^ w then
    some (BitVec.ofNat w index ||| (if isNone b then 0#w else b &&& msbMask w))
  else none

/-- `BitField::bit_flag`, `src/index.rs` lines 525–530. -/
def bitFlag {w : Nat} (b : BitField w) : Option Bool :=
  if isNone b then none else some ((b &&& msbMask w) != 0#w)

/-- `TryFrom<usize> for BitField`, `src/index.rs` lines 576–582. The outer `Option` is
a panic, `Except` the Rust `Result`. -/
def bfTryFrom (w : Nat) (index : Nat) : Option (Except Nat (BitField w)) :=
  if index > maxIndex w then some (.error index)
  else (bfNew w index false).map .ok

/-- `NodeIndex::new` and `PortIndex::new`, `src/index.rs` lines 48–50. -/
def indexNew (w : Nat) (index : Nat) : Option (BitField w) := bfNew w index false

/-- `NodeIndex::index` and `PortIndex::index`, `src/index.rs` lines 54–56. -/
def indexOf {w : Nat} (b : BitField w) : Nat := indexUnchecked b

/-- `usize::from(NodeIndex)`, `src/index.rs` lines 68–73 and 585–590. -/
def usizeFrom {w : Nat} (b : BitField w) : Option Nat := bfIndex b

/-- `MaybeNodeIndex::new` / `MaybePortIndex::new`, `src/index.rs` lines 140–148 (release
build: the `debug_assert!` is not modelled). -/
def maybeNew {w : Nat} : Option (BitField w) → BitField w
  | some b => b
  | none => newNone w

/-- `MaybeNodeIndex::to_option`, `src/index.rs` lines 152–158. -/
def maybeToOption {w : Nat} (b : BitField w) : Option (BitField w) :=
  if isNone b then none else some b

/-- `PortOffset::new`, `src/index.rs` lines 308–310. -/
def offsetNew (w : Nat) (d : Direction) (offset : Nat) : Option (BitField w) :=
  bfNew w offset (d == .outgoing)

/-- `PortOffset::direction`, `src/index.rs` lines 326–332 (panics on the unset value). -/
def offsetDirection {w : Nat} (b : BitField w) : Option Direction :=
  (bitFlag b).map fun f => if f then .outgoing else .incoming

/-- `PortOffset::index`, `src/index.rs` lines 336–338 (panics on the unset value). -/
def offsetIndex {w : Nat} (b : BitField w) : Option Nat := bfIndex b

/-- `PortOffset::opposite`, `src/index.rs` lines 345–347. -/
def offsetOpposite {w : Nat} (b : BitField w) : BitField w := flipBitFlag b

/-- `direction as u32`, discriminants of `src/lib.rs` lines 99–105. -/
def dirBit : Direction → BitVec 32
  | .incoming => 0#32
  | .outgoing => 1#32

/-- `PortMeta::new`, `src/portgraph.rs` lines 1094–1099: `(node + 1) | (dir << 31)` in
`u32`. The addition is the wrapping one of a release build. -/
def portMetaNew (node : Nat) (d : Direction) : BitVec 32 :=
  (BitVec.ofNat 32 node + 1#32) ||| (dirBit d <<< 31)

/-- `PortMeta::node`, `src/portgraph.rs` lines 1102–1105. The subtraction panics on
zero (debug build). -/
def portMetaNode (m : BitVec 32) : Option Nat :=
  let x := (m &&& ~~~ (1#32 <<< (31 : Nat))).toNat
  if x = 0 then none else some (x - 1)

/-- `PortMeta::direction`, `src/portgraph.rs` lines 1108–1114. -/
def portMetaDirection (m : BitVec 32) : Direction :=
  if m >>> 31 = 0#32 then .incoming else .outgoing

end Verif.Index
