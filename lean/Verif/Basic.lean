/-!
# Shared definitions

`Direction` and the few `Vec` operations used by all models.
-/

namespace Verif

/-- Direction of a port; `src/lib.rs` lines 99–105 (`Incoming = 0`, `Outgoing = 1`). -/
inductive Direction where
  | incoming
  | outgoing
deriving DecidableEq, Repr

/-- `Direction::reverse`, `src/lib.rs` lines 111–118. -/
def Direction.reverse : Direction → Direction
  | .incoming => .outgoing
  | .outgoing => .incoming

/-- `v[i] = x` for a `Vec`: panics (`none`) when `i` is out of bounds. -/
def vset {α : Type _} (l : List α) (i : Nat) (x : α) : Option (List α) :=
  if i < l.length then some (l.set i x) else none

/-- The effect of `v[a..a+k].fill(x)` on the elements (the bounds check is separate). -/
def fill {α : Type _} (l : List α) (a k : Nat) (x : α) : List α :=
  l.mapIdx fun i y => if a ≤ i ∧ i < a + k then x else y

/-- `v[a..a+k].fill(x)`: panics when the range exceeds the vector. -/
def vfill {α : Type _} (l : List α) (a k : Nat) (x : α) : Option (List α) :=
  if a + k ≤ l.length then some (fill l a k x) else none

/-- The number of `i < n` with `P i`. Used by specifications of counters. -/
def cnt (n : Nat) (P : Nat → Bool) : Nat := (List.range n).countP P

end Verif
