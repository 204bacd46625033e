import Verif.Multi.Spec

/-!
# A multiport graph used as a port graph

The calls that `PortGraph` and `MultiPortGraph` share (`PortMut`, `LinkMut`, `src/view.rs` lines
208–298 and 497–628), with what they return.
-/

namespace Verif.Multi

open Verif.PG

/-- A call of `PortGraph` made on a `MultiPortGraph`. -/
def shared : PG.Op → MOp
  | .addNode i o => .addNode i o
  | .removeNode n => .removeNode n
  | .linkPorts a b => .linkPorts a b
  | .unlinkPort p => .unlinkPort p
  | .setNumPorts n i o => .setNumPorts n i o
  | .compactNodes => .compactNodes
  | .compactPorts => .compactPorts
  | .swapNodes a b => .swapNodes a b
  | .clear => .clear

/-- A call of `PortGraph` with what it returns; an endpoint of a link is the port with offset 0. -/
def flatCall (maxOff : Nat) (g : PG) : PG.Op → Option (MRes × PG)
  | .addNode i o => (g.addNode maxOff i o).map fun x => (.node x.1, x.2)
  | .removeNode n => (g.removeNode n).map fun g => (.none, g)
  | .linkPorts a b => (g.linkPorts a b).map fun x => (.link (x.1.map fun y => ((y.1, 0), (y.2, 0))), x.2)
  | .unlinkPort p => (g.unlinkPort p).map fun x => (.sub (x.1.map fun q => (q, 0)), x.2)
  | .setNumPorts n i o => (g.setNumPorts n i o).map fun x => (.ports x.2, x.1)
  | .compactNodes => (g.compactNodes).map fun x => (.moves x.2, x.1)
  | .compactPorts => (g.compactPorts).map fun x => (.moves x.2, x.1)
  | .swapNodes a b => (g.swapNodes a b).map fun g => (.none, g)
  | .clear => some (.none, g.clear)

/-- The call asks for no second link at a port: `link_ports` is called with existing ports without
link. -/
def Fresh (g : PG) : PG.Op → Prop
  | .linkPorts a b => g.portLink? a = some none ∧ g.portLink? b = some none
  | _ => True

instance (g : PG) : DecidablePred (Fresh g) := fun op => by cases op <;> unfold Fresh <;> infer_instance

/-- A sequence of calls on a port graph: the returned values and the graph. -/
def flatRun (maxOff : Nat) (g : PG) : List PG.Op → Option (List MRes × PG)
  | [] => some ([], g)
  | op :: ops => (flatCall maxOff g op).bind fun x => (flatRun maxOff x.2 ops).map fun y => (x.1 :: y.1, y.2)

/-- A sequence of calls on a multiport graph. -/
def multiRun (maxOff : Nat) (m : MG) : List MOp → Option (List MRes × MG)
  | [] => some ([], m)
  | op :: ops => (m.step maxOff op).bind fun x => (multiRun maxOff x.2 ops).map fun y => (x.1 :: y.1, y.2)

/-- All calls of the sequence are fresh at the time they are made. -/
def FreshRun (maxOff : Nat) (g : PG) : List PG.Op → Prop
  | [] => True
  | op :: ops => Fresh g op ∧ ∀ x, flatCall maxOff g op = some x → FreshRun maxOff x.2 ops

/-- An endpoint of a port graph seen as a subport. -/
def sub0 (l : Nat × Nat) : Subport × Subport := ((l.1, 0), (l.2, 0))

end Verif.Multi
