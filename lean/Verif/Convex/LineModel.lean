import Verif.Convex.TopoModel

/-!
# Convexity checking with a partition into lines

Model of `src/algorithms/convex/line_convex_checker.rs`. Line indices and positions are natural
numbers (`u32` in the code; both stay below the number of nodes and links). `none` is a panic, in
a debug build, or running out of fuel.
-/

namespace Verif.Convex

open Verif (Direction)
open Verif.Algo

/-- `LinePositions`, `src/algorithms/convex/line_convex_checker.rs` lines 55–63. -/
structure LinePos where
  lines : List Nat
  pos : Nat

/-- The fields of `LineConvexChecker`, `src/algorithms/convex/line_convex_checker.rs` lines 37–49; the scratch space is cleared before each use. -/
structure Line where
  graph : View
  nodePos : Nat → LinePos
  lines : List (List Nat)

namespace Line

/-- The captured variables of the closure of `extend_line_ends_frontier`, `src/algorithms/convex/line_convex_checker.rs` lines 543–579: the
frontier (an absent key is treated like a key without lines) and the number of lines. -/
structure Ends where
  frontier : Nat → LinePos
  count : Nat

/-- `pop_frontier`, `src/algorithms/convex/line_convex_checker.rs` lines 547–558. -/
def popFrontier (fr : Nat → LinePos) (p : Nat) : Option ((Nat × Nat) × (Nat → LinePos)) :=
  match (fr p).lines.getLast? with
  | none => none
  | some l => some ((l, (fr p).pos), fun x => if x = p then ⟨(fr p).lines.dropLast, (fr p).pos⟩ else fr x)

/-- `push_frontier`, `src/algorithms/convex/line_convex_checker.rs` lines 561–570. -/
def pushFrontier (fr : Nat → LinePos) (p l pos : Nat) : Nat → LinePos :=
  fun x => if x = p then ⟨(fr p).lines ++ [l], pos⟩ else fr x

/-- The loop over the incoming links, `src/algorithms/convex/line_convex_checker.rs` lines 589–596: the lines and the maximal position. -/
def popLoop : List Nat → (Nat → LinePos) → List Nat → Option Nat → Option ((Nat → LinePos) × List Nat × Option Nat)
  | [], fr, lines, mx => some (fr, lines, mx)
  | p :: ps, fr, lines, mx =>
    match popFrontier fr p with
    | none => none
    | some ((l, pos), fr) => popLoop ps fr (lines ++ [l]) (some (match mx with | none => pos | some m => max m pos))

/-- The loop over the outgoing links, `src/algorithms/convex/line_convex_checker.rs` lines 601–615, with the port of each link. `free` are the
lines not yet reused. -/
def pushLoop (pos : Nat) : List Nat → List Nat → Ends → List Nat → Ends × List Nat
  | [], _, e, lines => (e, lines)
  | p :: ps, l :: free, e, lines => pushLoop pos ps free ⟨pushFrontier e.frontier p l pos, e.count⟩ lines
  | p :: ps, [], e, lines =>
    pushLoop pos ps [] ⟨pushFrontier e.frontier p e.count pos, e.count + 1⟩ (lines ++ [e.count])

/-- The position after the largest one popped, part of `extend_line_ends_frontier`, `src/algorithms/convex/line_convex_checker.rs` lines 581–627. -/
def nextPos : Option Nat → Nat
  | none => 0
  | some m => m + 1

/-- The closure of `extend_line_ends_frontier`, `src/algorithms/convex/line_convex_checker.rs` lines 581–627. -/
def extend (G : View) (e : Ends) (n : Nat) : Option (LinePos × Ends) :=
  match popLoop ((G.ports n .incoming).flatMap G.links) e.frontier [] none with
  | none => none
  | some (fr, lines, mx) =>
    let pos := nextPos mx
    let outs := (G.ports n .outgoing).flatMap fun p => (G.links p).map fun _ => p
    let r := pushLoop pos outs lines ⟨fr, e.count⟩ lines
    if r.2.isEmpty then some (⟨[r.1.count], pos⟩, ⟨r.1.frontier, r.1.count + 1⟩)
    else some (⟨r.2, pos⟩, r.1)

/-- Append a node to a line, `src/algorithms/convex/line_convex_checker.rs` lines 160–163. -/
def appendTo (lines : List (List Nat)) (n l : Nat) : List (List Nat) :=
  let lines := if lines.length ≤ l then lines ++ List.replicate (l - lines.length + 1) [] else lines
  lines.set l ((lines[l]?).getD [] ++ [n])

/-- The `for` loop of `new`, `src/algorithms/convex/line_convex_checker.rs` lines 157–166. -/
def build (G : View) : List Nat → Ends → Line → Option Line
  | [], _, c => some c
  | n :: ns, e, c =>
    match extend G e n with
    | none => none
    | some (lp, e) =>
      build G ns e ⟨c.graph, fun x => if x = n then lp else c.nodePos x,
        lp.lines.foldl (fun ls l => appendTo ls n l) c.lines⟩

/-- `LineConvexChecker::new`, `src/algorithms/convex/line_convex_checker.rs` lines 145–176. -/
def new (G : View) : Option Line :=
  match toposort G .all .outgoing false (G.nodes.filter fun n => (neighbours G n .incoming).isEmpty) with
  | none => none
  | some (order, _) => build G order ⟨fun _ => ⟨[], 0⟩, 0⟩ ⟨G, fun _ => ⟨[], 0⟩, []⟩

/-- `get_lines`, `src/algorithms/convex/line_convex_checker.rs` lines 297–299. -/
def getLines (c : Line) (n : Nat) : List Nat := (c.nodePos n).lines

/-- `get_position`, `src/algorithms/convex/line_convex_checker.rs` lines 303–305. -/
def getPos (c : Line) (n : Nat) : Nat := (c.nodePos n).pos

/-- The interpolation in floating point numbers in `find_index`, `src/algorithms/convex/line_convex_checker.rs` lines 478–481: for a line, a
position and bounds `low` and `high`, some number. -/
abbrev Guess := Nat → Nat → Nat → Nat → Nat

/-- What is assumed of the interpolation: its result is between `low` and `high`.
See `src/algorithms/convex/line_convex_checker.rs` lines 473–479. -/
def Guess.OK (guess : Guess) : Prop :=
  ∀ l pos low high, low < high → low ≤ guess l pos low high ∧ guess l pos low high ≤ high

/-- The `loop` of `find_index`, `src/algorithms/convex/line_convex_checker.rs` lines 474–496. -/
def findLoop (c : Line) (guess : Nat → Nat → Nat) (line : List Nat) (pos : Nat) : Nat → Nat → Nat → Option (Option Nat)
  | 0, _, _ => none
  | f + 1, low, high =>
    let g := guess low high
    let g := if g = low then g + 1 else if g = high then g - 1 else g
    match line[g]? with
    | none => none
    | some n =>
      if c.getPos n = pos then some (some g)
      else if c.getPos n < pos then findLoop c guess line pos f g high
      else findLoop c guess line pos f low g

/-- `find_index`, `src/algorithms/convex/line_convex_checker.rs` lines 455–497; the outer `none` is a panic or an endless loop. -/
def findIndex (c : Line) (guess : Guess) (l pos : Nat) : Option (Option Nat) :=
  match c.lines[l]? with
  | none => none
  | some line =>
    match line.head?, line.getLast? with
    | some a, some b =>
      if c.getPos a = pos then some (some 0)
      else if c.getPos b = pos then some (some (line.length - 1))
      else if pos < c.getPos a || c.getPos b < pos then some none
      else findLoop c (guess l pos) line pos line.length 0 (line.length - 1)
    | _, _ => some none

/-- An entry of the scratch space: the line, the smallest and the largest position, the count.
See `src/algorithms/convex/line_convex_checker.rs`. -/
structure Entry where
  line : Nat
  min : Nat
  max : Nat
  count : Nat

/-- `small_map_add`, `src/algorithms/convex/line_convex_checker.rs` lines 502–532. -/
def mapAdd : List Entry → Nat → Nat → List Entry
  | [], l, v => [⟨l, v, v, 1⟩]
  | x :: xs, l, v =>
    if x.line = l then
      ⟨l, if v < x.min then v else x.min, if x.max < v then v else x.max, x.count + 1⟩ :: xs
    else x :: mapAdd xs l v

/-- `LineInterval` with its line, `src/algorithms/convex/line_convex_checker.rs` lines 93 and 131–136. -/
structure Interval where
  line : Nat
  min : Nat
  max : Nat
  deriving DecidableEq

/-- The first loop of `get_intervals_from_nodes`, `src/algorithms/convex/line_convex_checker.rs` lines 326–331. -/
def collectEntries (c : Line) (S : List Nat) : List Entry :=
  S.foldl (fun m n => (c.getLines n).foldl (fun m l => mapAdd m l (c.getPos n)) m) []

/-- The second loop of `get_intervals_from_nodes`, `src/algorithms/convex/line_convex_checker.rs` lines 335–347; the inner `none` is the `None`
of the code. -/
def checkEntries (c : Line) (guess : Guess) : List Entry → Option (Option (List Interval))
  | [] => some (some [])
  | x :: xs =>
    match c.findIndex guess x.line x.min with
    | some (some i) =>
      match ((c.lines[x.line]?).getD [])[i + x.count - 1]? with
      | none => none
      | some m =>
        if c.getPos m ≠ x.max then some none
        else
          match checkEntries c guess xs with
          | none => none
          | some none => some none
          | some (some r) => some (some (⟨x.line, x.min, x.max⟩ :: r))
    | _ => none

/-- `get_intervals_from_nodes`, `src/algorithms/convex/line_convex_checker.rs` lines 314–350. -/
def intervals (c : Line) (guess : Guess) (S : List Nat) : Option (Option (List Interval)) :=
  c.checkEntries guess (c.collectEntries S)

/-- `LineIntervals::get`, `src/algorithms/convex/line_convex_checker.rs` lines 97–100. -/
def lookup (I : List Interval) (l : Nat) : Option Interval := I.find? fun x => x.line == l

/-- The nodes after the ends of the intervals, `src/algorithms/convex/line_convex_checker.rs` lines 215–220. -/
def ends (c : Line) (guess : Guess) : List Interval → Option (List Nat)
  | [] => some []
  | x :: xs =>
    match c.findIndex guess x.line x.max with
    | some (some i) =>
      match c.ends guess xs with
      | none => none
      | some r => some ((((c.lines[x.line]?).getD [])[i + 1]?).toList ++ r)
    | _ => none

/-- The `for` loop of `src/algorithms/convex/line_convex_checker.rs` lines 234–247: `some true` when the search goes on, `some false` when it
returns `false`, `none` when the assertion fails. -/
def checkLines (I : List Interval) (pos : Nat) : List Nat → Option Bool
  | [] => some true
  | l :: ls =>
    match lookup I l with
    | none => checkLines I pos ls
    | some x =>
      if x.min ≤ pos && pos ≤ x.max then none
      else if pos < x.min then some false
      else checkLines I pos ls

/-- The `while` loop of `is_convex_by_intervals`, `src/algorithms/convex/line_convex_checker.rs` lines 225–250. -/
def search (c : Line) (I : List Interval) (maxStart : Nat) : Nat → List Nat → List Nat → Option Bool
  | 0, _, _ => none
  | _ + 1, [], _ => some true
  | f + 1, n :: q, vis =>
    if maxStart < c.getPos n then search c I maxStart f q vis
    else if vis.contains n then search c I maxStart f q vis
    else
      match checkLines I (c.getPos n) (c.getLines n) with
      | none => none
      | some false => some false
      | some true => search c I maxStart f (q ++ neighbours c.graph n .outgoing) (n :: vis)

/-- A number of rounds which suffices: one for each interval and one for each link.
Not in the code: bounds a loop of `src/algorithms/convex/line_convex_checker.rs`. -/
def searchFuel (c : Line) (I : List Interval) : Nat :=
  I.length + (c.graph.nodes.map fun n => (neighbours c.graph n .outgoing).length).sum + 1

/-- `is_convex_by_intervals`, `src/algorithms/convex/line_convex_checker.rs` lines 209–253; `max().unwrap()` panics when there are no intervals. -/
def convexByIntervals (c : Line) (guess : Guess) (I : List Interval) : Option Bool :=
  match I with
  | [] => none
  | x :: xs =>
    match c.ends guess (x :: xs) with
    | none => none
    | some q => c.search (x :: xs) (xs.foldl (fun m y => max m y.min) x.min) (c.searchFuel (x :: xs)) q []

/-- `is_node_convex`, `src/algorithms/convex/line_convex_checker.rs` lines 197–203. -/
def isNodeConvex (c : Line) (guess : Guess) (S : List Nat) : Option Bool :=
  match c.intervals guess S with
  | none => none
  | some none => some false
  | some (some I) => c.convexByIntervals guess I

/-- `is_convex`, `src/algorithms/convex/line_convex_checker.rs` lines 631–646. -/
def isConvex (c : Line) (guess : Guess) (S inputs outputs : List Nat) : Option Bool :=
  let pre := outputs.filterMap fun p => (c.graph.links p).head?
  if inputs.any fun p => pre.contains p then some false else c.isNodeConvex guess S

end Line

end Verif.Convex
