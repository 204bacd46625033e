import Verif.Convex.LineModel

/-!
# Operations on line intervals

Model of the other functions of `src/algorithms/convex/line_convex_checker.rs`.
-/

namespace Verif.Convex

open Verif (Direction)
open Verif.Algo

namespace Line

/-- `line_nodes_from`, `src/algorithms/convex/line_convex_checker.rs` lines 417–428. -/
def nodesFrom (c : Line) (guess : Guess) (pos l : Nat) : Option (List Nat) :=
  match c.findIndex guess l pos with
  | some (some i) => some (((c.lines[l]?).getD []).drop i)
  | _ => none

/-- `line_nodes_between`, `src/algorithms/convex/line_convex_checker.rs` lines 433–441. -/
def nodesBetween (c : Line) (guess : Guess) (x : Interval) : Option (List Nat) :=
  (c.nodesFrom guess x.min x.line).map fun ns => ns.takeWhile fun n => decide (c.getPos n ≤ x.max)

/-- `line_positions_from`, `src/algorithms/convex/line_convex_checker.rs` lines 444–452. -/
def positionsFrom (c : Line) (guess : Guess) (pos l : Nat) : Option (List Nat) :=
  (c.nodesFrom guess pos l).map fun ns => ns.map c.getPos

/-- Write to the interval found by `LineIntervals::get_mut`, `src/algorithms/convex/line_convex_checker.rs` lines 102–105. -/
def modify (f : Interval → Interval) (l : Nat) : List Interval → List Interval
  | [] => []
  | x :: xs => if x.line = l then f x :: xs else x :: modify f l xs

/-- The body of the loop of `try_extend_intervals`, `src/algorithms/convex/line_convex_checker.rs` lines 271–288, for the line `l`: `some none` when
it returns `false`. -/
def extendLine (c : Line) (guess : Guess) (pos l : Nat) (I : List Interval) : Option (Option (List Interval)) :=
  match lookup I l with
  | some x =>
    if pos < x.min then
      match c.positionsFrom guess pos l with
      | none => none
      | some ps => if ps[1]? ≠ some x.min then some none else some (some (modify (fun x => { x with min := pos }) l I))
    else if x.max < pos then
      match c.positionsFrom guess x.max l with
      | none => none
      | some ps => if ps[1]? ≠ some pos then some none else some (some (modify (fun x => { x with max := pos }) l I))
    else some (some I)
  | none => some (some (I ++ [⟨l, pos, pos⟩]))

/-- The loop of `try_extend_intervals`, `src/algorithms/convex/line_convex_checker.rs` lines 270–289. -/
def extendLoop (c : Line) (guess : Guess) (pos : Nat) : List Nat → List Interval → Option (Option (List Interval))
  | [], I => some (some I)
  | l :: ls, I =>
    match c.extendLine guess pos l I with
    | none => none
    | some none => some none
    | some (some I) => extendLoop c guess pos ls I

/-- `try_extend_intervals`, `src/algorithms/convex/line_convex_checker.rs` lines 262–292: the result and the intervals afterwards. -/
def tryExtend (c : Line) (guess : Guess) (I : List Interval) (n : Nat) : Option (Bool × List Interval) :=
  match c.extendLoop guess (c.getPos n) (c.getLines n) I with
  | none => none
  | some none => some (false, I)
  | some (some I') => some (true, I')

/-- `kmerge_by` of the crate `itertools`, as documented: the next item is the head of any of the
iterators such that no other head is smaller. -/
inductive KMerge (lt : Nat → Nat → Bool) : List (List Nat) → List Nat → Prop
  | done {ls : List (List Nat)} : (∀ l ∈ ls, l = []) → KMerge lt ls []
  | take {pre post : List (List Nat)} {x : Nat} {xs out : List Nat} : (∀ l ∈ pre ++ post, ∀ y ∈ l.head?, lt y x = false) →
    KMerge lt (pre ++ xs :: post) out → KMerge lt (pre ++ (x :: xs) :: post) (x :: out)

/-- `dedup` of the crate `itertools`, as documented: without an item equal to the one before. -/
def dedupAdj : List Nat → List Nat
  | [] => []
  | [x] => [x]
  | x :: y :: l => if x = y then dedupAdj (y :: l) else x :: dedupAdj (y :: l)

/-- The comparison of `src/algorithms/convex/line_convex_checker.rs` line 383. -/
def posLt (c : Line) (a b : Nat) : Bool := decide (c.getPos a < c.getPos b) || (c.getPos a == c.getPos b && decide (a < b))

/-- The iterators of the intervals, `src/algorithms/convex/line_convex_checker.rs` line 382. -/
def segments (c : Line) (guess : Guess) : List Interval → Option (List (List Nat))
  | [] => some []
  | x :: xs =>
    match c.nodesBetween guess x with
    | none => none
    | some ns => (segments c guess xs).map (ns :: ·)

/-- `nodes_in_intervals`, `src/algorithms/convex/line_convex_checker.rs` lines 376–385, yields the items `out`. -/
def NodesIn (c : Line) (guess : Guess) (I : List Interval) (out : List Nat) : Prop :=
  ∃ ls merged, c.segments guess I = some ls ∧ KMerge c.posLt ls merged ∧ out = dedupAdj merged

/-- `lines_at_port`, `src/algorithms/convex/line_convex_checker.rs` lines 396–412, with the results of `port_node`, `port_direction` and
`port_offset`. -/
def linesAt (c : Line) : Option Nat → Option Direction → Option Nat → Option (List Nat)
  | some n, some d, some off =>
    let perPort := (c.graph.ports n d).map fun p => (c.graph.links p).length
    let start := (perPort.take off).sum
    match perPort[off]? with
    | none => none
    | some k => if start + k ≤ (c.getLines n).length then some (((c.getLines n).drop start).take k) else none
  | _, _, _ => none

end Line

end Verif.Convex
