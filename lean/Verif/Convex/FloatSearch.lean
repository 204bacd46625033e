import Verif.Convex.FloatLemmas
import Verif.Convex.LineFind
import Verif.Convex.LineOps

/-!
# The search with the guess in floating point numbers
-/

namespace Verif.Convex

namespace Line

variable {c : Line}

/-- The guess if it is within the bounds. -/
def clip (guess : Guess) : Guess := fun l pos low high =>
  if low ≤ guess l pos low high ∧ guess l pos low high ≤ high then guess l pos low high else low

theorem clip_ok (guess : Guess) : (clip guess).OK := by
  intro l pos low high h
  unfold clip
  split
  · next h => exact h
  · omega

/-- The guess is within the bounds when the position is between the positions of the bounds. -/
def Within (c : Line) (guess : Guess) : Prop :=
  ∀ (l : Nat) (line : List Nat), c.lines[l]? = some line → ∀ pos low high a b, low < high → line[low]? = some a →
    line[high]? = some b → c.getPos a < pos → pos < c.getPos b → low ≤ guess l pos low high ∧ guess l pos low high ≤ high

theorem findLoop_clip {guess : Guess} (hw : Within c guess) {l : Nat} {line : List Nat} (hl : c.lines[l]? = some line) {pos : Nat} (f : Nat) :
    ∀ low high a b, low < high → line[low]? = some a → line[high]? = some b → c.getPos a < pos → pos < c.getPos b →
    findLoop c (guess l pos) line pos f low high = findLoop c (clip guess l pos) line pos f low high := by
  induction f with
  | zero => intros; rfl
  | succ f ih =>
    intro low high a b h1 h2 h3 h4 h5
    have hb := hw l line hl pos low high a b h1 h2 h3 h4 h5
    have hc : clip guess l pos low high = guess l pos low high := by unfold clip; rw [if_pos hb]
    simp only [findLoop, hc]
    generalize hg : (if guess l pos low high = low then guess l pos low high + 1
      else if guess l pos low high = high then guess l pos low high - 1 else guess l pos low high) = g
    have hgl : low ≤ g ∧ g ≤ high := by
      subst hg
      split
      · omega
      · split <;> omega
    cases hn : line[g]? with
    | none => rfl
    | some n =>
      simp only
      split
      · rfl
      · next hne =>
        split
        · next hlt =>
          have : g ≠ high := by
            rintro rfl
            rw [h3] at hn; cases hn; omega
          exact ih g high n b (by omega) hn h3 hlt h5
        · next hge =>
          have : g ≠ low := by
            rintro rfl
            rw [h2] at hn; cases hn; omega
          exact ih low g a n (by omega) h2 hn h4 (by omega)

/-- The search with a guess that is within the bounds where it matters. -/
theorem findIndex_clip {guess : Guess} (hw : Within c guess) (l pos : Nat) : c.findIndex guess l pos = c.findIndex (clip guess) l pos := by
  unfold findIndex
  cases hl : c.lines[l]? with
  | none => rfl
  | some line =>
    simp only
    cases ha : line.head? with
    | none => rfl
    | some a =>
      cases hb : line.getLast? with
      | none => rfl
      | some b =>
        simp only
        split
        · rfl
        · split
          · rfl
          · split
            · rfl
            · next h1 h2 h3 =>
              simp only [Bool.or_eq_true, decide_eq_true_eq, not_or, Nat.not_lt] at h3
              rw [List.head?_eq_getElem?] at ha
              rw [List.getLast?_eq_getElem?] at hb
              refine findLoop_clip hw hl _ 0 (line.length - 1) a b ?_ ha hb (by omega) (by omega)
              rcases Nat.eq_zero_or_pos (line.length - 1) with e | e
              · rw [e, ha] at hb; cases hb; omega
              · exact e

/-- The guess in floating point numbers is within the bounds. -/
theorem floatGuess_within (hlen : ∀ line ∈ c.lines, line.length ≤ 2 ^ 53) (hpos : ∀ line ∈ c.lines, ∀ n ∈ line, c.getPos n ≤ 2 ^ 53) :
    Within c (floatGuess c) := by
  intro l line hl pos low high a b h1 h2 h3 h4 h5
  have hmem := List.mem_of_getElem? hl
  have hlen := hlen line hmem
  have hb := hpos line hmem b (List.mem_of_getElem? h3)
  have hh := (List.getElem?_eq_some_iff.1 h3).1
  unfold floatGuess
  simp only [hl, Option.getD_some, List.getD_eq_getElem?_getD, h2, h3]
  have := offset_le (a := pos - c.getPos a) (b := c.getPos b - c.getPos a) (w := high - low) (by omega) (by omega) (by omega)
  omega

/-! ## The other functions use the guess only in `find_index` -/

variable {g g' : Guess} (h : ∀ l pos, c.findIndex g l pos = c.findIndex g' l pos)
include h

theorem checkEntries_congr (xs : List Entry) : c.checkEntries g xs = c.checkEntries g' xs := by
  induction xs with
  | nil => rfl
  | cons x xs ih => simp only [checkEntries, h, ih]

theorem intervals_congr (S : List Nat) : c.intervals g S = c.intervals g' S := checkEntries_congr h _

theorem ends_congr (I : List Interval) : c.ends g I = c.ends g' I := by
  induction I with
  | nil => rfl
  | cons x I ih => simp only [ends, h, ih]

theorem byIntervals_congr (I : List Interval) : c.convexByIntervals g I = c.convexByIntervals g' I := by
  unfold convexByIntervals
  cases I with
  | nil => rfl
  | cons x I => simp only [ends_congr h]

theorem isNodeConvex_congr (S : List Nat) : c.isNodeConvex g S = c.isNodeConvex g' S := by
  unfold isNodeConvex
  rw [intervals_congr h]
  split
  · rfl
  · rfl
  · exact byIntervals_congr h _

theorem isConvex_congr (S inputs outputs : List Nat) : c.isConvex g S inputs outputs = c.isConvex g' S inputs outputs := by
  unfold isConvex
  simp only [isNodeConvex_congr h]

theorem nodesFrom_congr (pos l : Nat) : c.nodesFrom g pos l = c.nodesFrom g' pos l := by
  unfold nodesFrom
  rw [h]

theorem extendLine_congr (pos l : Nat) (I : List Interval) : c.extendLine g pos l I = c.extendLine g' pos l I := by
  unfold extendLine positionsFrom
  simp only [nodesFrom_congr h]

theorem extendLoop_congr (pos : Nat) (ls : List Nat) : ∀ I, c.extendLoop g pos ls I = c.extendLoop g' pos ls I := by
  induction ls with
  | nil => intro I; rfl
  | cons l ls ih => intro I; simp only [extendLoop, extendLine_congr h, ih]

theorem tryExtend_congr (I : List Interval) (n : Nat) : c.tryExtend g I n = c.tryExtend g' I n := by
  unfold tryExtend
  rw [extendLoop_congr h]

theorem segments_congr (I : List Interval) : c.segments g I = c.segments g' I := by
  induction I with
  | nil => rfl
  | cons x I ih => simp only [segments, nodesBetween, nodesFrom_congr h, ih]

theorem nodesIn_congr (I : List Interval) (out : List Nat) : c.NodesIn g I out ↔ c.NodesIn g' I out := by
  unfold NodesIn
  rw [segments_congr h]

end Line

end Verif.Convex
