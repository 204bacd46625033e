import Verif.View.Model
import Verif.Algo.TopoModel

/-!
# Port order of a boundary

Model of `src/boundary.rs` lines 47–56, 82–92, 131–133, 149–277 and 350–446 (`internal_nodes` is in
`View/Model.lean`). A `BoundaryPort` is given by its index; its direction is clear from the
context, and the debug assertions about it are left out. A `HashSet` of boundary ports is an
increasing list, one of port indices a list in which repetitions do not matter. `none` is a panic
or running out of fuel (which is proved not to happen).
-/

namespace Verif.View

open Verif (Direction)
open Verif.Algo

variable {E : Type}

/-- `PortOrdering`, `src/boundary.rs` lines 350–355. -/
structure Ordering where
  reachable : List (List Nat)
  reaching : List (List Nat)
deriving DecidableEq, Repr

/-- `PortOrdering::new`, `src/boundary.rs` lines 430–435. -/
def Ordering.new (inputs outputs : Nat) : Ordering := ⟨List.replicate inputs [], List.replicate outputs []⟩

/-- `PortOrdering::add_order`, `src/boundary.rs` lines 438–446. -/
def Ordering.addOrder (O : Ordering) (i o : Nat) : Option Ordering :=
  match O.reachable[i]?, O.reaching[o]? with
  | some r, some s => some ⟨O.reachable.set i (insertSet o r), O.reaching.set o (insertSet i s)⟩
  | _, _ => none

/-- `PortOrdering::is_stronger_than`, `src/boundary.rs` lines 380–397. -/
def Ordering.isStrongerThan (O O' : Ordering) : Option Bool :=
  if O.reachable.length ≠ O'.reachable.length ∨ O.reaching.length ≠ O'.reaching.length then none
  else some ((O.reachable.zip O'.reachable).all fun x => !x.2.any fun p => !x.1.contains p)

/-- `PortOrdering::missing_pairs`, `src/boundary.rs` lines 403–427. -/
def Ordering.missingPairs (O O' : Ordering) : Option (List (Nat × Nat)) :=
  if O.reachable.length ≠ O'.reachable.length ∨ O.reaching.length ≠ O'.reaching.length then none
  else some ((O.reachable.zip O'.reachable).zipIdx.flatMap fun x =>
    (x.1.2.filter fun p => !x.1.1.contains p).map fun p => (x.2, p))

/-- `Boundary::from_ports`, `src/boundary.rs` lines 47–56. -/
def GView.fromPorts (G : GView E) : List Nat → Option Boundary
  | [] => some ⟨[], []⟩
  | p :: ps =>
    match G.portDirection p, G.fromPorts ps with
    | some .incoming, some B => some { B with inputs := p :: B.inputs }
    | some .outgoing, some B => some { B with outputs := p :: B.outputs }
    | _, _ => none

/-- `Boundary::find_port`, `src/boundary.rs` lines 82–92, for one of the two lists. -/
def findPort (ports : List Nat) (p : Nat) : Option Nat := ports.findIdx? (· == p)

/-- The queries of a view used by the traversals of `src/algorithms`. -/
def GView.algo (G : GView E) : Algo.View where
  nodes := G.nodes
  portsIter := G.portsIter
  ports := G.ports
  portNode := G.portNode
  links p := (G.portLinks p).map fun l => G.toPort l.2

/-- The variables of `port_ordering`, `src/boundary.rs` lines 150–186. The maps `input_nodes` and `output_nodes` are
given by their keys, as the value of a key is always the list of boundary ports at that node. -/
structure PState where
  topo : Topo
  ins : List Nat
  outs : List Nat
  reach : Nat → Option (Nat × List Nat)
  ord : Ordering
  added : Bool

/-- The ports of a list at a node. The filters of `src/boundary.rs`, function `port_ordering`. -/
def GView.portsAt (G : GView E) (ports : List Nat) (n : Nat) : List Nat :=
  ports.filter fun p => decide (G.portNode p = some n)

/-- The port filter of the topological sort, `src/boundary.rs` line 184. -/
def boundaryFilter (B : Boundary) : Filter := ⟨fun _ => true, fun _ p => !B.ports.contains p⟩

/-- The loop over the input neighbours, `src/boundary.rs` lines 224–234: the map and the set of ports. -/
def gather : List Nat → (Nat → Option (Nat × List Nat)) → List Nat → Option ((Nat → Option (Nat × List Nat)) × List Nat)
  | [], r, ports => some (r, ports)
  | m :: ms, r, ports =>
    match r m with
    | none => none
    | some (0, _) => none
    | some (k + 1, l) => gather ms (fun x => if x = m then (if k = 0 then none else some (k, l)) else r x) (ports ++ l)

/-- The loops which add the order relations, `src/boundary.rs` lines 238–245. -/
def addOrders (B : Boundary) (reaching : List Nat) (outs : List Nat) (O : Ordering) : Option Ordering :=
  outs.foldlM (fun O q => reaching.foldlM (fun O p =>
    match findPort B.inputs p, findPort B.outputs q with
    | some i, some o => O.addOrder i o
    | _, _ => none) O) O

/-- The body of the loop for a node, `src/boundary.rs` lines 218–248. -/
def GView.orderStep (G : GView E) (B : Boundary) (n : Nat) (s : PState) : Option PState :=
  match gather (G.neighbours n .incoming) s.reach (if s.ins.contains n then G.portsAt B.inputs n else []) with
  | none => none
  | some (reach, ports) =>
    match addOrders B ports (if s.outs.contains n then G.portsAt B.outputs n else []) s.ord with
    | none => none
    | some ord => some
      { s with
        ins := s.ins.filter (· != n)
        outs := s.outs.filter (· != n)
        reach := fun x => if x = n then some ((G.neighbours n .outgoing).length, ports) else reach x
        ord := ord }

/-- The `loop`, `src/boundary.rs` lines 187–255. -/
def GView.orderLoop (G : GView E) (B : Boundary) : Nat → PState → Option Ordering
  | 0, _ => none
  | f + 1, s =>
    match s.topo.next G.algo (boundaryFilter B) .outgoing with
    | none => none
    | some (none, t) =>
      if s.ins.isEmpty && s.outs.isEmpty then some s.ord
      else if s.added then none
      else
        match G.internalNodes B with
        | none => none
        | some l =>
          G.orderLoop B f { s with
            topo := t.addSources G.algo (boundaryFilter B) .outgoing
              (l.filter fun n => decide ((G.neighbours n .incoming).length = 0))
            added := true }
    | some (some n, t) =>
      match G.orderStep B n { s with topo := t } with
      | none => none
      | some s => if s.ins.isEmpty && s.outs.isEmpty then some s.ord else G.orderLoop B f s

/-- `Boundary::port_ordering`, `src/boundary.rs` lines 149–258, with the maps of lines 154–163 and the source nodes of
lines 172–176. -/
def GView.portOrdering (G : GView E) (B : Boundary) : Option Ordering :=
  match B.inputs.mapM G.portNode, B.outputs.mapM G.portNode with
  | some ins, some outs =>
    let sources := (toSet ins).filter fun n => (G.ports n .incoming).all fun p =>
      B.ports.contains p || decide ((G.portLinks p).length = 0)
    G.orderLoop B (G.nodes.length + 3)
      ⟨.new G.algo (boundaryFilter B) .outgoing false sources, toSet ins, toSet outs, fun _ => none,
        .new B.inputs.length B.outputs.length, false⟩
  | _, _ => none

/-- `Boundary::is_compatible`, `src/boundary.rs` lines 131–133. -/
def Boundary.isCompatible (B B' : Boundary) : Bool :=
  B.inputs.length == B'.inputs.length && B.outputs.length == B'.outputs.length

/-- `Boundary::is_stronger_than`, `src/boundary.rs` lines 268–277. -/
def Boundary.isStrongerThan (B B' : Boundary) {E E' : Type} (G : GView E) (G' : GView E') : Option Bool :=
  match G.portOrdering B, G'.portOrdering B' with
  | some O, some O' => O.isStrongerThan O'
  | _, _ => none

end Verif.View
