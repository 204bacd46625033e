import Verif.Secondary.Model

/-!
# `Hierarchy`

Model of `src/hierarchy.rs`. Nodes are numbers, `MaybeNodeIndex` is `Option Nat`. The two element
arrays `children` and `siblings` become the fields `first`/`last` and `prev`/`next`.

Loops that follow pointers carry a fuel of one more than the number of allocated slots; running
out of fuel gives `none`, like a panic. On well-formed hierarchies this never happens (this is part
of the theorems), and in a cyclic one it stands for an endless loop.
-/

namespace Verif.Hier

open Verif.Secondary

/-- `NodeData`, `src/hierarchy.rs` lines 553–564. The field defaults are `NodeData::new`, lines
566–575. -/
structure NodeData where
  first : Option Nat := none
  last : Option Nat := none
  count : Nat := 0
  parent : Option Nat := none
  prev : Option Nat := none
  next : Option Nat := none
deriving DecidableEq, Repr

/-- `Hierarchy`, `src/hierarchy.rs` lines 72–74: the field `data`. -/
structure Hierarchy where
  data : Dense NodeData
deriving DecidableEq, Repr

/-- `AttachError`, `src/hierarchy.rs` lines 729–741. -/
inductive AttachError where
  | alreadyAttached (node : Nat)
  | rootSibling (root : Nat)
  | cycle (node parent : Nat)
deriving DecidableEq, Repr

namespace Hierarchy

/-- `new`, `src/hierarchy.rs` lines 78–82 (also `default`, lines 92–96, and `with_capacity`, lines 85–89). -/
def new : Hierarchy := ⟨Dense.withDefault {}⟩

/-- `get`, `src/hierarchy.rs` lines 110–112. -/
def get (h : Hierarchy) (n : Nat) : NodeData := h.data.get n

/-- A change made through `get_mut`, `src/hierarchy.rs` lines 100–102. -/
def modify (h : Hierarchy) (n : Nat) (f : NodeData → NodeData) : Hierarchy :=
  ⟨h.data.set n (f (h.get n))⟩

/-- The fuel of the pointer chasing loops. Not in the code: bounds the loops of `src/hierarchy.rs`. -/
def fuel (h : Hierarchy) : Nat := h.data.data.length + 1

/-- The loop of `cycle_check`, `src/hierarchy.rs` lines 282–290. -/
def climb (h : Hierarchy) (node : Nat) : Nat → Nat → Option Bool
  | 0, _ => none
  | f + 1, parent =>
    if parent = node then some false
    else
      match (h.get parent).parent with
      | some next => climb h node f next
      | none => some true

/-- `cycle_check`, `src/hierarchy.rs` lines 275–291 (with the debug assertion). -/
def cycleCheck (h : Hierarchy) (node parent : Nat) : Option Bool :=
  if (h.get node).first = none then
    if (h.get node).last = none then some true else none
  else h.climb node h.fuel parent

/-- `children_count += 1`, which panics when the `u32` overflows (debug build).
`src/hierarchy.rs` lines 135, 176, 216 and 257. -/
def incCount (h : Hierarchy) (n : Nat) : Option Hierarchy :=
  if (h.get n).count + 1 < 2 ^ 32 then some (h.modify n fun d => { d with count := d.count + 1 }) else none

/-- `push_child`, `src/hierarchy.rs` lines 124–149. -/
def pushChild (h : Hierarchy) (node parent : Nat) : Option (Except AttachError Hierarchy) := do
  let ok ← h.cycleCheck node parent
  if !ok then return .error (.cycle node parent)
  else if (h.get node).parent.isSome then return .error (.alreadyAttached node)
  else
    let h := h.modify node fun d => { d with parent := some parent }
    let h ← h.incCount parent
    match (h.get parent).last with
    | some prev =>
      let h := h.modify parent fun d => { d with last := some node }
      let h := h.modify node fun d => { d with prev := some prev }
      return .ok (h.modify prev fun d => { d with next := some node })
    | none => return .ok (h.modify parent fun d => { d with first := some node, last := some node })

/-- `push_front_child`, `src/hierarchy.rs` lines 161–190. -/
def pushFrontChild (h : Hierarchy) (node parent : Nat) : Option (Except AttachError Hierarchy) := do
  let ok ← h.cycleCheck node parent
  if !ok then return .error (.cycle node parent)
  else if (h.get node).parent.isSome then return .error (.alreadyAttached node)
  else
    let h := h.modify node fun d => { d with parent := some parent }
    let h ← h.incCount parent
    match (h.get parent).first with
    | some next =>
      let h := h.modify parent fun d => { d with first := some node }
      let h := h.modify node fun d => { d with next := some next }
      return .ok (h.modify next fun d => { d with prev := some node })
    | none => return .ok (h.modify parent fun d => { d with first := some node, last := some node })

/-- `insert_before`, `src/hierarchy.rs` lines 203–231. -/
def insertBefore (h : Hierarchy) (node before : Nat) : Option (Except AttachError Hierarchy) := do
  if (h.get node).parent.isSome then return .error (.alreadyAttached node)
  else
    match (h.get before).parent with
    | none => return .error (.rootSibling before)
    | some parent =>
      let ok ← h.cycleCheck node parent
      if !ok then return .error (.cycle node parent)
      else
        let h ← h.incCount parent
        let beforePrev := (h.get before).prev
        let h := h.modify before fun d => { d with prev := some node }
        let h := h.modify node fun d => { d with parent := some parent, prev := beforePrev, next := some before }
        match beforePrev with
        | some prev => return .ok (h.modify prev fun d => { d with next := some node })
        | none => return .ok (h.modify parent fun d => { d with first := some node })

/-- `insert_after`, `src/hierarchy.rs` lines 244–272. -/
def insertAfter (h : Hierarchy) (node after : Nat) : Option (Except AttachError Hierarchy) := do
  if (h.get node).parent.isSome then return .error (.alreadyAttached node)
  else
    match (h.get after).parent with
    | none => return .error (.rootSibling after)
    | some parent =>
      let ok ← h.cycleCheck node parent
      if !ok then return .error (.cycle node parent)
      else
        let h ← h.incCount parent
        let afterNext := (h.get after).next
        let h := h.modify after fun d => { d with next := some node }
        let h := h.modify node fun d => { d with parent := some parent, prev := some after, next := afterNext }
        match afterNext with
        | some next => return .ok (h.modify next fun d => { d with prev := some node })
        | none => return .ok (h.modify parent fun d => { d with last := some node })

/-- `detach`, `src/hierarchy.rs` lines 296–320. `try_get_mut` finds nothing beyond the end of the map; the decrement
of the counter panics on underflow (debug build). -/
def detach (h : Hierarchy) (node : Nat) : Option (Option Nat × Hierarchy) :=
  if h.data.data.length ≤ node then some (none, h)
  else
    let parent := (h.get node).parent
    let prev := (h.get node).prev
    let next := (h.get node).next
    let h := h.modify node fun d => { d with parent := none, prev := none, next := none }
    match parent with
    | none => some (none, h)
    | some p =>
      if (h.get p).count = 0 then none
      else
        let h := h.modify p fun d => { d with count := d.count - 1 }
        let h := match prev with
          | some x => h.modify x fun d => { d with next := next }
          | none => h
        let h := match next with
          | some x => h.modify x fun d => { d with prev := prev }
          | none => h
        let h := match prev, next with
          | none, none => h.modify p fun d => { d with first := none, last := none }
          | some _, none => h.modify p fun d => { d with last := prev }
          | none, some _ => h.modify p fun d => { d with first := next }
          | some _, some _ => h
        some (some p, h)

/-- The loop of `detach_children`, `src/hierarchy.rs` lines 332–337. -/
def detachLoop : Nat → Hierarchy → Option Nat → Option Hierarchy
  | _, h, none => some h
  | 0, _, some _ => none
  | f + 1, h, some child =>
    let next := (h.get child).next
    detachLoop f (h.modify child fun d => { d with parent := none, prev := none, next := none }) next

/-- `detach_children`, `src/hierarchy.rs` lines 323–338. -/
def detachChildren (h : Hierarchy) (node : Nat) : Option Hierarchy :=
  if h.data.data.length ≤ node then some h
  else
    let childNext := (h.get node).first
    let h' := h.modify node fun d => { d with count := 0, first := none, last := none }
    detachLoop h.fuel h' childNext

/-- `remove`, `src/hierarchy.rs` lines 342–345. -/
def remove (h : Hierarchy) (node : Nat) : Option Hierarchy := do
  let h ← h.detachChildren node
  return (← h.detach node).2

/-- `parent`, `src/hierarchy.rs` lines 349–351. -/
def parent (h : Hierarchy) (n : Nat) : Option Nat := (h.get n).parent

/-- `is_root`, `src/hierarchy.rs` lines 355–357. -/
def isRoot (h : Hierarchy) (n : Nat) : Bool := (h.parent n).isNone

/-- `first`, `src/hierarchy.rs` lines 361–363. -/
def first (h : Hierarchy) (n : Nat) : Option Nat := (h.get n).first

/-- `last`, `src/hierarchy.rs` lines 367–369. -/
def last (h : Hierarchy) (n : Nat) : Option Nat := (h.get n).last

/-- `next`, `src/hierarchy.rs` lines 375–377. -/
def next (h : Hierarchy) (n : Nat) : Option Nat := (h.get n).next

/-- `prev`, `src/hierarchy.rs` lines 383–385. -/
def prev (h : Hierarchy) (n : Nat) : Option Nat := (h.get n).prev

/-- `child_count`, `src/hierarchy.rs` lines 414–416. -/
def childCount (h : Hierarchy) (n : Nat) : Nat := (h.get n).count

/-- `has_children`, `src/hierarchy.rs` lines 420–422. -/
def hasChildren (h : Hierarchy) (n : Nat) : Bool := h.childCount n > 0

/-- `rekey_in_parent`, `src/hierarchy.rs` lines 488–497. -/
def rekeyInParent (h : Hierarchy) (d : NodeData) (new : Nat) : Hierarchy :=
  match d.parent with
  | none => h
  | some p =>
    let h := if d.prev = none then h.modify p fun d => { d with first := some new } else h
    if d.next = none then h.modify p fun d => { d with last := some new } else h

/-- `rekey_in_siblings`, `src/hierarchy.rs` lines 501–508. -/
def rekeyInSiblings (h : Hierarchy) (d : NodeData) (new : Nat) : Hierarchy :=
  let h := match d.prev with
    | some x => h.modify x fun d => { d with next := some new }
    | none => h
  match d.next with
  | some x => h.modify x fun d => { d with prev := some new }
  | none => h

/-- The loop of `rekey_in_children`, `src/hierarchy.rs` lines 514–518. -/
def rekeyLoop (new : Nat) : Nat → Hierarchy → Option Nat → Option Hierarchy
  | _, h, none => some h
  | 0, _, some _ => none
  | f + 1, h, some child =>
    let h := h.modify child fun d => { d with parent := some new }
    rekeyLoop new f h (h.get child).next

/-- `rekey_in_children`, `src/hierarchy.rs` lines 512–519. -/
def rekeyInChildren (h : Hierarchy) (d : NodeData) (new : Nat) : Option Hierarchy :=
  rekeyLoop new h.fuel h d.first

/-- The closure `rekey_in_value` of `swap_nodes`, `src/hierarchy.rs` lines 445–449. -/
def rekeyInValue (v : Option Nat) (old new : Nat) : Option Nat := if v = some old then some new else v

/-- The closure `rekey_in_data` of `swap_nodes`, `src/hierarchy.rs` lines 450–456. -/
def rekeyInData (d : NodeData) (old new : Nat) : NodeData :=
  { d with parent := rekeyInValue d.parent old new
           first := rekeyInValue d.first old new
           last := rekeyInValue d.last old new
           prev := rekeyInValue d.prev old new
           next := rekeyInValue d.next old new }

/-- `swap_nodes`, `src/hierarchy.rs` lines 425–463. -/
def swapNodes (h : Hierarchy) (a b : Nat) : Option Hierarchy :=
  if a = b then some h
  else do
    let aData := h.get a
    let bData := h.get b
    let h ← h.rekeyInChildren aData b
    let h ← h.rekeyInChildren bData a
    let h := h.rekeyInParent aData b
    let h := h.rekeyInParent bData a
    let h := h.rekeyInSiblings aData b
    let h := h.rekeyInSiblings bData a
    let aData := rekeyInData aData b a
    let bData := rekeyInData bData a b
    let h : Hierarchy := ⟨h.data.set a bData⟩
    return ⟨h.data.set b aData⟩

/-- `rekey`, `src/hierarchy.rs` lines 470–484. -/
def rekey (h : Hierarchy) (old new : Nat) : Option Hierarchy :=
  if h.get new ≠ {} then none
  else if old = new then some h
  else do
    let d := h.get old
    let h := h.modify old fun _ => {}
    let h ← h.rekeyInChildren d new
    let h := h.rekeyInParent d new
    let h := h.rekeyInSiblings d new
    return ⟨h.data.set new d⟩

/-- `shrink_to`, `src/hierarchy.rs` lines 531–536. `cap` is the capacity of the vector, at least its length. -/
def shrinkTo (h : Hierarchy) (cap capacity : Nat) : Option Hierarchy := do
  let h ← ((List.range cap).filter (capacity ≤ ·)).reverse.foldlM (fun h n => remove h n) h
  return ⟨h.data.shrinkTo capacity⟩

/-- `ensure_capacity`, `src/hierarchy.rs` lines 523–525. -/
def ensureCapacity (h : Hierarchy) (cap capacity : Nat) : Hierarchy := ⟨h.data.ensureCapacity cap capacity⟩

end Hierarchy

/-! ## Iterators -/

/-- `Children`, `src/hierarchy.rs` lines 585–590; the reference `layout` is an argument of the functions. -/
structure Children where
  next : Option Nat
  prev : Option Nat
  len : Nat
deriving DecidableEq, Repr

/-- `Hierarchy::children`, `src/hierarchy.rs` lines 389–398. -/
def Hierarchy.children (h : Hierarchy) (n : Nat) : Children :=
  ⟨(h.get n).first, (h.get n).last, (h.get n).count⟩

/-- `Children::next`, `src/hierarchy.rs` lines 607–616: `none` is a panic, otherwise the item and the new state. -/
def Children.step (h : Hierarchy) (c : Children) : Option (Option Nat × Children) :=
  if c.len = 0 then some (none, c)
  else
    match c.next with
    | none => none
    | some x => some (some x, { c with len := c.len - 1, next := h.next x })

/-- `Children::next_back`, `src/hierarchy.rs` lines 625–634. -/
def Children.stepBack (h : Hierarchy) (c : Children) : Option (Option Nat × Children) :=
  if c.len = 0 then some (none, c)
  else
    match c.prev with
    | none => none
    | some x => some (some x, { c with len := c.len - 1, prev := h.prev x })

/-- `NextStates`, `src/hierarchy.rs` lines 662–668: the queue of `Descendants`. -/
inductive NextStates where
  | root (n : Nat)
  | descendants (queue : List Nat)
deriving DecidableEq, Repr

/-- `Hierarchy::descendants`, `src/hierarchy.rs` lines 405–410. -/
def Hierarchy.descendants (_ : Hierarchy) (n : Nat) : NextStates := .root n

/-- `Descendants::next`, `src/hierarchy.rs` lines 693–718. -/
def NextStates.step (h : Hierarchy) : NextStates → Option Nat × NextStates
  | .root r => (some r, .descendants (h.first r).toList)
  | .descendants [] => (none, .descendants [])
  | .descendants (x :: queue) =>
    let queue := match h.next x with
      | some s => s :: queue
      | none => queue
    let queue := match h.first x with
      | some c => queue ++ [c]
      | none => queue
    (some x, .descendants queue)

end Verif.Hier
