import Verif.Index.MaybeModel

/-!
# What optional indices, orders and flags should do

An optional index is an `Option` of a number; a bit field is an optional pair of a number and a
flag; port offsets are ordered with the incoming ones first and then by number.
-/

namespace Verif.Index

/-- The methods on an `Option` of a number. -/
def optCall (o : Option Nat) : MCall → MAns × Option Nat
  | .isNone => (.bool (o = none), o)
  | .isSome => (.bool (o ≠ none), o)
  | .toOption => (.opt o, o)
  | .unwrap => (o.elim .panic .index, o)
  | .take => (.opt o, none)
  | .replace i => (.opt o, some i)
  | .write i => if o = none then (.bool false, none) else (.bool true, some i)
  | .intoIter => (.list o.toList, o)

/-- The answers to a sequence of calls. -/
def optRun : Option Nat → List MCall → List MAns
  | _, [] => []
  | o, c :: cs => (optCall o c).1 :: optRun (optCall o c).2 cs

/-- The arguments of a call are indices that `try_from` accepts. -/
def MCall.InRange (w : Nat) : MCall → Prop
  | .replace i => i ≤ 2 ^ (w - 1) - 2
  | .write i => i ≤ 2 ^ (w - 1) - 2
  | _ => True

/-- The setters on an optional pair; the flag cannot be changed without an index. -/
def pairCall (o : Option (Nat × Bool)) : FCall → Option (Option (Nat × Bool))
  | .setIndex i => some (some (i, (o.map Prod.snd).getD false))
  | .setFlag => o.map fun x => some (x.1, true)
  | .unsetFlag => o.map fun x => some (x.1, false)
  | .flip => o.map fun x => some (x.1, !x.2)

/-- A sequence of setters. -/
def pairRun : Option (Nat × Bool) → List FCall → Option (Option (Nat × Bool))
  | o, [] => some o
  | o, c :: cs => (pairCall o c).bind fun o => pairRun o cs

/-- The argument of a setter is in range. -/
def FCall.InRange (w : Nat) : FCall → Prop
  | .setIndex i => i ≤ 2 ^ (w - 1) - 2
  | _ => True

/-- The field holds this index and flag, or nothing. -/
def Holds {w : Nat} (b : BitField w) (o : Option (Nat × Bool)) : Prop :=
  bfIndex b = o.map Prod.fst ∧ bitFlag b = o.map Prod.snd

/-- Port offsets: incoming before outgoing, then by number. -/
def offsetOrder (d e : Direction) (i j : Nat) : Ordering :=
  match d, e with
  | .incoming, .outgoing => .lt
  | .outgoing, .incoming => .gt
  | _, _ => compare i j

end Verif.Index
