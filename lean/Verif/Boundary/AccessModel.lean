import Verif.Boundary.Model

/-!
# Boundary ports

Model of the accessors of `src/boundary.rs`: lines 22–35, 67–133, 281–300 and 357–376. A
`BoundaryPort` is a position and a direction. `none` is a panic; the debug assertions of lines 366
and 372 are modelled as panics.
-/

namespace Verif.View

open Verif (Direction)

variable {E : Type}

/-- `BoundaryPort`, `src/boundary.rs` lines 28–34. -/
structure BPort where
  index : Nat
  direction : Direction
deriving DecidableEq, Repr

/-- `Boundary::new`, `src/boundary.rs` lines 67–74. -/
def Boundary.new (inputs outputs : List Nat) : Boundary := ⟨inputs, outputs⟩

/-- `num_ports`, `src/boundary.rs` lines 77–79. -/
def Boundary.numPorts (B : Boundary) : Nat := B.inputs.length + B.outputs.length

/-- The list chosen by a direction: `src/boundary.rs` lines 83–86. -/
def Boundary.side (B : Boundary) : Direction → List Nat
  | .incoming => B.inputs
  | .outgoing => B.outputs

/-- `find_port`, `src/boundary.rs` lines 82–92. -/
def Boundary.find (B : Boundary) (p : Nat) (d : Direction) : Option BPort :=
  match findPort (B.side d) p with
  | none => none
  | some i => some ⟨i, d⟩

/-- `ports`, `src/boundary.rs` lines 95–104. -/
def Boundary.portsIn (B : Boundary) (d : Direction) : List BPort :=
  (List.range (match d with | .incoming => B.inputs.length | .outgoing => B.outputs.length)).map fun i => ⟨i, d⟩

/-- `inputs`, `src/boundary.rs` lines 107–110. -/
def Boundary.inputPorts (B : Boundary) : List BPort := B.portsIn .incoming

/-- `outputs`, `src/boundary.rs` lines 113–116. -/
def Boundary.outputPorts (B : Boundary) : List BPort := B.portsIn .outgoing

/-- `port_index`, `src/boundary.rs` lines 119–124. -/
def Boundary.portIndex (B : Boundary) (b : BPort) : Option Nat :=
  match b.direction with
  | .incoming => B.inputs[b.index]?
  | .outgoing => B.outputs[b.index]?

/-- `input_indices`, `src/boundary.rs` lines 281–283. -/
def Boundary.inputIndices (B : Boundary) : List Nat := B.inputs

/-- `output_indices`, `src/boundary.rs` lines 287–289. -/
def Boundary.outputIndices (B : Boundary) : List Nat := B.outputs

/-- `PortOrdering::reachable_ports`, `src/boundary.rs` lines 365–368; `index` is lines 360–362. The members of the set
are outgoing boundary ports. -/
def Ordering.reachablePorts (O : Ordering) (b : BPort) : Option (List BPort) :=
  if b.direction = .incoming then (O.reachable[b.index]?).map (·.map fun o => ⟨o, .outgoing⟩) else none

/-- `PortOrdering::reaching_ports`, `src/boundary.rs` lines 371–374. The members of the set are incoming boundary
ports. -/
def Ordering.reachingPorts (O : Ordering) (b : BPort) : Option (List BPort) :=
  if b.direction = .outgoing then (O.reaching[b.index]?).map (·.map fun i => ⟨i, .incoming⟩) else none

/-- `add_order` called for a list of pairs of boundary ports, `src/boundary.rs` lines 438–446, with the debug
assertions of lines 439 and 440. -/
def Ordering.addAll : List (BPort × BPort) → Ordering → Option Ordering
  | [], O => some O
  | (i, o) :: l, O =>
    if i.direction = .incoming ∧ o.direction = .outgoing then
      match O.addOrder i.index o.index with
      | none => none
      | some O => O.addAll l
    else none

end Verif.View
