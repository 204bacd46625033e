import Verif.Hierarchy.Spec
import Verif.PortGraph.Spec

/-!
# Undoing and reordering calls

The notions used by the laws C66 and C67, in terms of the calls and of queries only.
-/

namespace Verif.Undo

open Verif.Hier Verif.PG

/-- The node that a call on a hierarchy attaches. -/
def attaches : Hier.Op → Option Nat
  | .pushChild n _ | .pushFrontChild n _ | .insertBefore n _ | .insertAfter n _ => some n
  | _ => none

/-- The parent below which such a call attaches the node: named directly, or the parent of the
sibling that is named. -/
def under (h : Hierarchy) : Hier.Op → Option Nat
  | .pushChild _ p | .pushFrontChild _ p => some p
  | .insertBefore _ b | .insertAfter _ b => h.parent b
  | _ => none

/-- The other node that such a call names. -/
def anchor : Hier.Op → Option Nat
  | .pushChild _ p | .pushFrontChild _ p => some p
  | .insertBefore _ b | .insertAfter _ b => some b
  | _ => none

/-- A call that changes links only. -/
inductive LinkCall where
  | link (a b : Nat)
  | unlink (p : Nat)
deriving DecidableEq

/-- What such a call returns. -/
inductive LinkRes where
  | link (r : Except LinkError (Nat × Nat))
  | unlink (r : Option Nat)

/-- The call on a port graph; `none` is a panic. -/
def LinkCall.call (g : PG) : LinkCall → Option (LinkRes × PG)
  | .link a b => (g.linkPorts a b).map fun x => (.link x.1, x.2)
  | .unlink p => (g.unlinkPort p).map fun x => (.unlink x.1, x.2)

/-- The ports whose links the call may read or change. -/
def LinkCall.touches (g : PG) : LinkCall → Nat → Prop
  | .link a b, x => x = a ∨ x = b
  | .unlink p, x => x = p ∨ g.portLink? p = some (some x)

/-- The same state but for the lists of free port slots, which have the same heads. -/
def SameButFree (g h : PG) : Prop :=
  g = { h with portFree := g.portFree } ∧ ∀ s : Nat, (g.portFree[s]?).join = (h.portFree[s]?).join

/-- What the calls of `PG.Op` return: nothing, a node, a result or a port, or the list of reported
changes. -/
inductive Answer where
  | unit
  | node (n : Nat)
  | link (r : Except LinkError (Nat × Nat))
  | unlink (r : Option Nat)
  | ports (tr : List (Nat × PortOp))
  | moves (tr : List (Nat × Nat))

/-- A call with its answer; `none` is a panic. -/
def ask (maxOff : Nat) (g : PG) : PG.Op → Option (Answer × PG)
  | .addNode i o => (g.addNode maxOff i o).map fun x => (.node x.1, x.2)
  | .removeNode n => (g.removeNode n).map fun x => (.unit, x)
  | .linkPorts a b => (g.linkPorts a b).map fun x => (.link x.1, x.2)
  | .unlinkPort p => (g.unlinkPort p).map fun x => (.unlink x.1, x.2)
  | .setNumPorts n i o => (g.setNumPorts n i o).map fun x => (.ports x.2, x.1)
  | .compactNodes => (g.compactNodes).map fun x => (.moves x.2, x.1)
  | .compactPorts => (g.compactPorts).map fun x => (.moves x.2, x.1)
  | .swapNodes a b => (g.swapNodes a b).map fun x => (.unit, x)
  | .clear => some (.unit, g.clear)

/-- A sequence of calls with all answers. -/
def askAll (maxOff : Nat) (g : PG) : List PG.Op → Option (List Answer × PG)
  | [] => some ([], g)
  | op :: ops =>
    match ask maxOff g op with
    | none => none
    | some (a, g) => (askAll maxOff g ops).map fun x => (a :: x.1, x.2)

end Verif.Undo
