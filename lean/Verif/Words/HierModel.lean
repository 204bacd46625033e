import Verif.Words.Model
import Verif.Hierarchy.Model

/-!
# `Hierarchy` with its machine words, `src/hierarchy.rs`

`Verif/Hierarchy/Model.lean` has natural numbers for the nodes. Here a node is a word of 32 bits
(`NodeIndex`), an optional node is a word where all ones stand for `None`, and the number of children is
a word of 32 bits. `none` is a panic; loops carry a fuel as in `Verif/Hierarchy/Model.lean`.

The map `data` is asked with `usize::from(NodeIndex)` (`src/index.rs` lines 68–73 and 585–590), which
drops the top bit and panics on the word of `None`.
-/

namespace Verif.Words

open Verif.Index
open Verif.Secondary

/-- `NodeData`, `src/hierarchy.rs` lines 553–564. The field defaults are `NodeData::new`, lines
566–575. -/
structure WData where
  first : MaybeIx := noIx
  last : MaybeIx := noIx
  count : BitVec 32 := 0#32
  parent : MaybeIx := noIx
  prev : MaybeIx := noIx
  next : MaybeIx := noIx
deriving DecidableEq, Repr

/-- `Hierarchy`, `src/hierarchy.rs` lines 72–74. -/
structure WH where
  data : Dense WData
deriving DecidableEq, Repr

/-- `AttachError`, `src/hierarchy.rs` lines 729–741. -/
inductive WAttachError where
  | alreadyAttached (node : Ix)
  | rootSibling (root : Ix)
  | cycle (node parent : Ix)
deriving DecidableEq, Repr

namespace WH

/-- `new`, `src/hierarchy.rs` lines 78–82. -/
def new : WH := ⟨Dense.withDefault {}⟩

/-- `get`, `src/hierarchy.rs` lines 110–112. -/
def get (h : WH) (n : Ix) : Option WData := (usizeFrom n).map h.data.get

/-- A change made through `get_mut`, `src/hierarchy.rs` lines 100–102. -/
def modify (h : WH) (n : Ix) (f : WData → WData) : Option WH :=
  (usizeFrom n).map fun k => ⟨h.data.set k (f (h.data.get k))⟩

/-- `self.data.set`, `src/unmanaged.rs` lines 362–364. -/
def put (h : WH) (n : Ix) (d : WData) : Option WH := (usizeFrom n).map fun k => ⟨h.data.set k d⟩

/-- The fuel of the pointer chasing loops. Not in the code: bounds the loops of `src/hierarchy.rs`. -/
def fuel (h : WH) : Nat := h.data.data.length + 1

/-- The loop of `cycle_check`, `src/hierarchy.rs` lines 282–290. -/
def climb (h : WH) (node : Ix) : Nat → Ix → Option Bool
  | 0, _ => none
  | f + 1, parent =>
    if parent = node then some false
    else
      match h.get parent with
      | none => none
      | some d =>
        match maybeToOption d.parent with
        | some next => climb h node f next
        | none => some true

/-- `cycle_check`, `src/hierarchy.rs` lines 275–291 (with the debug assertion). -/
def cycleCheck (h : WH) (node parent : Ix) : Option Bool := do
  let d ← h.get node
  if isNone d.first then
    if isNone d.last then some true else none
  else h.climb node h.fuel parent

/-- `children_count += 1`, which panics when the `u32` overflows (debug build).
`src/hierarchy.rs` lines 135, 176, 216 and 257. -/
def incCount (h : WH) (n : Ix) : Option WH := do
  let d ← h.get n
  if d.count = BitVec.allOnes 32 then none else h.modify n fun d => { d with count := d.count + 1#32 }

/-- `push_child`, `src/hierarchy.rs` lines 124–149. -/
def pushChild (h : WH) (node parent : Ix) : Option (Except WAttachError WH) := do
  let ok ← h.cycleCheck node parent
  if !ok then return .error (.cycle node parent)
  else
    let d ← h.get node
    if (maybeToOption d.parent).isSome then return .error (.alreadyAttached node)
    else
      let h ← h.modify node fun d => { d with parent := parent }
      let h ← h.incCount parent
      let pd ← h.get parent
      match maybeToOption pd.last with
      | some prev =>
        let h ← h.modify parent fun d => { d with last := node }
        let h ← h.modify node fun d => { d with prev := prev }
        let h ← h.modify prev fun d => { d with next := node }
        return .ok h
      | none =>
        let h ← h.modify parent fun d => { d with first := node, last := node }
        return .ok h

/-- `push_front_child`, `src/hierarchy.rs` lines 161–190. -/
def pushFrontChild (h : WH) (node parent : Ix) : Option (Except WAttachError WH) := do
  let ok ← h.cycleCheck node parent
  if !ok then return .error (.cycle node parent)
  else
    let d ← h.get node
    if (maybeToOption d.parent).isSome then return .error (.alreadyAttached node)
    else
      let h ← h.modify node fun d => { d with parent := parent }
      let h ← h.incCount parent
      let pd ← h.get parent
      match maybeToOption pd.first with
      | some next =>
        let h ← h.modify parent fun d => { d with first := node }
        let h ← h.modify node fun d => { d with next := next }
        let h ← h.modify next fun d => { d with prev := node }
        return .ok h
      | none =>
        let h ← h.modify parent fun d => { d with first := node, last := node }
        return .ok h

/-- `insert_before`, `src/hierarchy.rs` lines 203–231. -/
def insertBefore (h : WH) (node before : Ix) : Option (Except WAttachError WH) := do
  let d ← h.get node
  if (maybeToOption d.parent).isSome then return .error (.alreadyAttached node)
  else
    let bd ← h.get before
    match maybeToOption bd.parent with
    | none => return .error (.rootSibling before)
    | some parent =>
      let ok ← h.cycleCheck node parent
      if !ok then return .error (.cycle node parent)
      else
        let h ← h.incCount parent
        let bd ← h.get before
        let beforePrev := bd.prev
        let h ← h.modify before fun d => { d with prev := node }
        let h ← h.modify node fun d => { d with parent := parent, prev := beforePrev, next := before }
        match maybeToOption beforePrev with
        | some prev =>
          let h ← h.modify prev fun d => { d with next := node }
          return .ok h
        | none =>
          let h ← h.modify parent fun d => { d with first := node }
          return .ok h

/-- `insert_after`, `src/hierarchy.rs` lines 244–272. -/
def insertAfter (h : WH) (node after : Ix) : Option (Except WAttachError WH) := do
  let d ← h.get node
  if (maybeToOption d.parent).isSome then return .error (.alreadyAttached node)
  else
    let ad ← h.get after
    match maybeToOption ad.parent with
    | none => return .error (.rootSibling after)
    | some parent =>
      let ok ← h.cycleCheck node parent
      if !ok then return .error (.cycle node parent)
      else
        let h ← h.incCount parent
        let ad ← h.get after
        let afterNext := ad.next
        let h ← h.modify after fun d => { d with next := node }
        let h ← h.modify node fun d => { d with parent := parent, prev := after, next := afterNext }
        match maybeToOption afterNext with
        | some next =>
          let h ← h.modify next fun d => { d with prev := node }
          return .ok h
        | none =>
          let h ← h.modify parent fun d => { d with last := node }
          return .ok h

/-- The change of a neighbour in `detach`, `src/hierarchy.rs` lines 304–309. -/
def atMaybe (h : WH) (n : MaybeIx) (f : WData → WData) : Option WH :=
  match maybeToOption n with
  | some x => h.modify x f
  | none => some h

/-- `detach`, `src/hierarchy.rs` lines 296–320. `try_get_mut` finds nothing beyond the end of the map; the decrement
of the counter panics on underflow (debug build). -/
def detach (h : WH) (node : Ix) : Option (Option Ix × WH) := do
  let k ← usizeFrom node
  if h.data.data.length ≤ k then some (none, h)
  else
    let d ← h.get node
    let h ← h.modify node fun d => { d with parent := noIx, prev := noIx, next := noIx }
    match maybeToOption d.parent with
    | none => some (none, h)
    | some p =>
      let pd ← h.get p
      if pd.count = 0#32 then none
      else
        let h ← h.modify p fun d => { d with count := d.count - 1#32 }
        let h ← h.atMaybe d.prev fun x => { x with next := d.next }
        let h ← h.atMaybe d.next fun x => { x with prev := d.prev }
        let h ← match maybeToOption d.prev, maybeToOption d.next with
          | none, none => h.modify p fun x => { x with first := d.prev, last := d.next }
          | some _, none => h.modify p fun x => { x with last := d.prev }
          | none, some _ => h.modify p fun x => { x with first := d.next }
          | some _, some _ => some h
        some (some p, h)

/-- The loop of `detach_children`, `src/hierarchy.rs` lines 332–337. -/
def detachLoop : Nat → WH → MaybeIx → Option WH
  | f, h, c =>
    match maybeToOption c with
    | none => some h
    | some child =>
      match f with
      | 0 => none
      | f + 1 =>
        match h.get child, h.modify child fun d => { d with parent := noIx, prev := noIx, next := noIx } with
        | some d, some h => detachLoop f h d.next
        | _, _ => none

/-- `detach_children`, `src/hierarchy.rs` lines 323–338. -/
def detachChildren (h : WH) (node : Ix) : Option WH := do
  let k ← usizeFrom node
  if h.data.data.length ≤ k then some h
  else
    let d ← h.get node
    let h' ← h.modify node fun d => { d with count := 0#32, first := noIx, last := noIx }
    detachLoop h.fuel h' d.first

/-- `remove`, `src/hierarchy.rs` lines 342–345. -/
def remove (h : WH) (node : Ix) : Option WH := do
  let h ← h.detachChildren node
  let r ← h.detach node
  return r.2

/-- `parent`, `src/hierarchy.rs` lines 349–351. -/
def parent (h : WH) (n : Ix) : Option (Option Ix) := (h.get n).map fun d => maybeToOption d.parent

/-- `is_root`, `src/hierarchy.rs` lines 355–357. -/
def isRoot (h : WH) (n : Ix) : Option Bool := (h.parent n).map Option.isNone

/-- `first`, `src/hierarchy.rs` lines 361–363. -/
def first (h : WH) (n : Ix) : Option (Option Ix) := (h.get n).map fun d => maybeToOption d.first

/-- `last`, `src/hierarchy.rs` lines 367–369. -/
def last (h : WH) (n : Ix) : Option (Option Ix) := (h.get n).map fun d => maybeToOption d.last

/-- `next`, `src/hierarchy.rs` lines 375–377. -/
def next (h : WH) (n : Ix) : Option (Option Ix) := (h.get n).map fun d => maybeToOption d.next

/-- `prev`, `src/hierarchy.rs` lines 383–385. -/
def prev (h : WH) (n : Ix) : Option (Option Ix) := (h.get n).map fun d => maybeToOption d.prev

/-- `child_count`, `src/hierarchy.rs` lines 414–416. -/
def childCount (h : WH) (n : Ix) : Option Nat := (h.get n).map fun d => d.count.toNat

/-- `has_children`, `src/hierarchy.rs` lines 420–422. -/
def hasChildren (h : WH) (n : Ix) : Option Bool := (h.childCount n).map fun k => decide (k > 0)

/-- `rekey_in_parent`, `src/hierarchy.rs` lines 488–497. -/
def rekeyInParent (h : WH) (d : WData) (new : Ix) : Option WH :=
  match maybeToOption d.parent with
  | none => some h
  | some p => do
    let h ← if isNone d.prev then h.modify p fun d => { d with first := new } else some h
    if isNone d.next then h.modify p fun d => { d with last := new } else some h

/-- `rekey_in_siblings`, `src/hierarchy.rs` lines 501–508. -/
def rekeyInSiblings (h : WH) (d : WData) (new : Ix) : Option WH := do
  let h ← h.atMaybe d.prev fun d => { d with next := new }
  h.atMaybe d.next fun d => { d with prev := new }

/-- The loop of `rekey_in_children`, `src/hierarchy.rs` lines 514–518. -/
def rekeyLoop (new : Ix) : Nat → WH → MaybeIx → Option WH
  | f, h, c =>
    match maybeToOption c with
    | none => some h
    | some child =>
      match f with
      | 0 => none
      | f + 1 =>
        match h.modify child fun d => { d with parent := new } with
        | none => none
        | some h =>
          match h.get child with
          | none => none
          | some d => rekeyLoop new f h d.next

/-- `rekey_in_children`, `src/hierarchy.rs` lines 512–519. -/
def rekeyInChildren (h : WH) (d : WData) (new : Ix) : Option WH := rekeyLoop new h.fuel h d.first

/-- The closure `rekey_in_value` of `swap_nodes`, lines 445–449, with `as_mut`, `src/index.rs` lines
161–168. -/
def rekeyInValue (v : MaybeIx) (old new : Ix) : MaybeIx := if isNone v then v else if v = old then new else v

/-- The closure `rekey_in_data` of `swap_nodes`, `src/hierarchy.rs` lines 450–456. -/
def rekeyInData (d : WData) (old new : Ix) : WData :=
  { d with parent := rekeyInValue d.parent old new
           first := rekeyInValue d.first old new
           last := rekeyInValue d.last old new
           prev := rekeyInValue d.prev old new
           next := rekeyInValue d.next old new }

/-- `swap_nodes`, `src/hierarchy.rs` lines 425–463. -/
def swapNodes (h : WH) (a b : Ix) : Option WH :=
  if a = b then some h
  else do
    let aData ← h.get a
    let bData ← h.get b
    let h ← h.rekeyInChildren aData b
    let h ← h.rekeyInChildren bData a
    let h ← h.rekeyInParent aData b
    let h ← h.rekeyInParent bData a
    let h ← h.rekeyInSiblings aData b
    let h ← h.rekeyInSiblings bData a
    let h ← h.put a (rekeyInData bData a b)
    h.put b (rekeyInData aData b a)

/-- `rekey`, `src/hierarchy.rs` lines 470–484. -/
def rekey (h : WH) (old new : Ix) : Option WH := do
  let nd ← h.get new
  if nd ≠ {} then none
  else if old = new then some h
  else
    let d ← h.get old
    let h ← h.modify old fun _ => {}
    let h ← h.rekeyInChildren d new
    let h ← h.rekeyInParent d new
    let h ← h.rekeyInSiblings d new
    h.put new d

/-- One step of the loop of `shrink_to`, `src/hierarchy.rs` line 533. -/
def removeAt (h : WH) (n : Nat) : Option WH := do
  let ix ← indexNew 32 n
  h.remove ix

/-- `shrink_to`, `src/hierarchy.rs` lines 531–536. `cap` is the capacity of the vector, at least its length. -/
def shrinkTo (h : WH) (cap capacity : Nat) : Option WH := do
  let h ← ((List.range cap).filter (capacity ≤ ·)).reverse.foldlM removeAt h
  return ⟨h.data.shrinkTo capacity⟩

/-- `ensure_capacity`, `src/hierarchy.rs` lines 523–525. -/
def ensureCapacity (h : WH) (cap capacity : Nat) : WH := ⟨h.data.ensureCapacity cap capacity⟩

end WH

/-! ## Iterators -/

/-- `Children`, `src/hierarchy.rs` lines 585–590. -/
structure WChildren where
  next : MaybeIx
  prev : MaybeIx
  len : Nat
deriving DecidableEq, Repr

/-- `Hierarchy::children`, `src/hierarchy.rs` lines 389–398. -/
def WH.children (h : WH) (n : Ix) : Option WChildren := (h.get n).map fun d => ⟨d.first, d.last, d.count.toNat⟩

/-- `Children::next`, `src/hierarchy.rs` lines 607–616. -/
def WChildren.step (h : WH) (c : WChildren) : Option (Option Ix × WChildren) :=
  if c.len = 0 then some (none, c)
  else
    match maybeToOption c.next with
    | none => none
    | some x => (h.next x).map fun y => (some x, { c with len := c.len - 1, next := maybeNew y })

/-- `Children::next_back`, `src/hierarchy.rs` lines 625–634. -/
def WChildren.stepBack (h : WH) (c : WChildren) : Option (Option Ix × WChildren) :=
  if c.len = 0 then some (none, c)
  else
    match maybeToOption c.prev with
    | none => none
    | some x => (h.prev x).map fun y => (some x, { c with len := c.len - 1, prev := maybeNew y })

/-- `NextStates`, `src/hierarchy.rs` lines 662–668. -/
inductive WNext where
  | root (n : Ix)
  | descendants (queue : List Ix)
deriving DecidableEq, Repr

/-- `Hierarchy::descendants`, `src/hierarchy.rs` lines 405–410. -/
def WH.descendants (_ : WH) (n : Ix) : WNext := .root n

/-- `Descendants::next`, `src/hierarchy.rs` lines 693–718. -/
def WNext.step (h : WH) : WNext → Option (Option Ix × WNext)
  | .root r => (h.first r).map fun c => (some r, .descendants c.toList)
  | .descendants [] => some (none, .descendants [])
  | .descendants (x :: queue) => do
    let queue := match ← h.next x with
      | some s => s :: queue
      | none => queue
    let queue := match ← h.first x with
      | some c => queue ++ [c]
      | none => queue
    some (some x, .descendants queue)

/-! ## Calls -/

/-- The calls that change a hierarchy, as `Hier.Op`.
Not in the code: names for the methods of `src/hierarchy.rs`. -/
inductive WHOp where
  | pushChild (n p : Ix)
  | pushFrontChild (n p : Ix)
  | insertBefore (n b : Ix)
  | insertAfter (n a : Ix)
  | detach (n : Ix)
  | detachChildren (n : Ix)
  | remove (n : Ix)
  | swapNodes (a b : Ix)
  | rekey (old new : Ix)
  | ensureCapacity (extra c : Nat)
  | shrinkTo (extra c : Nat)

/-- What a call returns. -/
abbrev WRes := Except WAttachError (Option Ix)

/-- A call; `none` is a panic, and a failed call returns the unchanged hierarchy.
Not in the code: applies the methods of `src/hierarchy.rs`. -/
def WH.step (h : WH) : WHOp → Option (WRes × WH)
  | .pushChild n p => (h.pushChild n p).map (fin h)
  | .pushFrontChild n p => (h.pushFrontChild n p).map (fin h)
  | .insertBefore n b => (h.insertBefore n b).map (fin h)
  | .insertAfter n a => (h.insertAfter n a).map (fin h)
  | .detach n => (h.detach n).map fun r => (.ok r.1, r.2)
  | .detachChildren n => (h.detachChildren n).map fun r => (.ok none, r)
  | .remove n => (h.remove n).map fun r => (.ok none, r)
  | .swapNodes a b => (h.swapNodes a b).map fun r => (.ok none, r)
  | .rekey old new => (h.rekey old new).map fun r => (.ok none, r)
  | .ensureCapacity extra c => some (.ok none, h.ensureCapacity (h.data.data.length + extra) c)
  | .shrinkTo extra c => (h.shrinkTo (h.data.data.length + extra) c).map fun r => (.ok none, r)
where
  /-- Result and new state of a call that returns `Result<(), AttachError>`. -/
  fin (h : WH) : Except WAttachError WH → WRes × WH
  | .ok h' => (.ok none, h')
  | .error e => (.error e, h)

/-- The answers of a history of calls and the hierarchy at the end.
Not in the code: a program that makes calls. -/
def WH.run : WH → List WHOp → Option (List WRes × WH)
  | h, [] => some ([], h)
  | h, op :: ops =>
    match h.step op with
    | none => none
    | some (r, h) => (WH.run h ops).map fun x => (r :: x.1, x.2)

end Verif.Words
