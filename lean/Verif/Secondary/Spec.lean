/-!
# What a secondary map should do

A secondary map is a total function from keys to values; keys that were not set have the default
value.
-/

namespace Verif.Secondary

/-- The calls of the `SecondaryMap` trait that read or change values. -/
inductive Call (K V : Type) where
  | get (k : K)
  | set (k : K) (v : V)
  | take (k : K)
  | remove (k : K)
  | rekey (old : K) (new : Option K)
  | swap (a b : K)
deriving Repr

/-- The effect of a call on a total function: the returned value, if any, and the new
function. -/
def specCall {K V : Type} [DecidableEq K] (d : V) (m : K → V) : Call K V → Option V × (K → V)
  | .get k => (some (m k), m)
  | .set k v => (none, fun x => if x = k then v else m x)
  | .take k => (some (m k), fun x => if x = k then d else m x)
  | .remove k => (none, fun x => if x = k then d else m x)
  | .rekey old none => (none, fun x => if x = old then d else m x)
  | .rekey old (some new) => (none, fun x => if x = new then m old else if x = old then d else m x)
  | .swap a b => (none, fun x => if x = a then m b else if x = b then m a else m x)

/-- The values returned by a sequence of calls. -/
def outputs {S K V : Type} (call : S → Call K V → Option V × S) : S → List (Call K V) → List (Option V)
  | _, [] => []
  | s, c :: cs => (call s c).1 :: outputs call (call s c).2 cs

/-- The state after a sequence of calls. -/
def final {S K V : Type} (call : S → Call K V → Option V × S) : S → List (Call K V) → S
  | s, [] => s
  | s, c :: cs => final call (call s c).2 cs

end Verif.Secondary
