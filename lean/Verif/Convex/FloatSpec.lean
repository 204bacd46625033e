import Verif.Convex.LineModel
import Mathlib.Data.Rat.Floor

/-!
# What is meant by a floating point number, and by a search that does not end
-/

namespace Verif.Convex

/-- The number is a non-negative `f64`: an integer of 53 binary digits times a power of two which is
at least `2 ^ (-1074)`. (The upper bound of the exponent plays no role here.) -/
def IsF64 (y : ℚ) : Prop := ∃ (m : ℕ) (e : ℤ), m < 2 ^ 53 ∧ -1074 ≤ e ∧ y = m * (2 : ℚ) ^ e

/-- One round of the loop of `find_index` (`line_convex_checker.rs` lines 472–496) from the bounds
`low` and `high`, with the next number to look at: the new bounds, if it does not return or panic. -/
def Line.round (c : Line) (next : Nat → Nat → Nat) (line : List Nat) (pos : Nat) (s : Nat × Nat) : Option (Nat × Nat) :=
  match line[next s.1 s.2]? with
  | none => none
  | some n => if c.getPos n = pos then none else if c.getPos n < pos then some (next s.1 s.2, s.2) else some (s.1, next s.1 s.2)

/-- The bounds after some rounds, if the loop still runs. -/
def Line.rounds (c : Line) (next : Nat → Nat → Nat) (line : List Nat) (pos : Nat) : Nat → Nat × Nat → Option (Nat × Nat)
  | 0, s => some s
  | k + 1, s => (Line.rounds c next line pos k s).bind (Line.round c next line pos)

/-- "Ensure progress", lines 482–486. -/
def progress (guess : Nat → Nat → Nat) (low high : Nat) : Nat :=
  if guess low high = low then guess low high + 1 else if guess low high = high then guess low high - 1 else guess low high

end Verif.Convex
