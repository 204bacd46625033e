import Verif.Convex.LineOps
import Verif.Boundary.Model

/-!
# The line checker on a view

The functions of `src/algorithms/convex/line_convex_checker.rs` which use more of the graph than the
traversals.
-/

namespace Verif.View

open Verif (Direction)
open Verif.Convex

variable {E : Type}

/-- `lines_at_port`, `src/algorithms/convex/line_convex_checker.rs` lines 396–412. -/
def GView.linesAtPort (G : GView E) (c : Line) (p : Nat) : Option (List Nat) :=
  c.linesAt (G.portNode p) (G.portDirection p) ((G.portOffset p).map (·.2))

/-- `get_intervals_from_boundary`, `src/algorithms/convex/line_convex_checker.rs` lines 370–373. -/
def GView.lineIntervals (G : GView E) (c : Line) (guess : Line.Guess) (B : Boundary) : Option (Option (List Line.Interval)) :=
  match G.internalNodes B with
  | none => none
  | some l => c.intervals guess l

/-- `get_intervals_from_boundary_ports`, `src/algorithms/convex/line_convex_checker.rs` lines 357–363. -/
def GView.linePortIntervals (G : GView E) (c : Line) (guess : Line.Guess) (ports : List Nat) : Option (Option (List Line.Interval)) :=
  match G.fromPorts ports with
  | none => none
  | some B => G.lineIntervals c guess B

end Verif.View
