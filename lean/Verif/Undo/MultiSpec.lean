import Verif.Multi.Spec

/-!
# Undoing and reordering calls on a multigraph

The notions used by C69, in terms of the calls and of what is shown.
-/

namespace Verif.Undo

open Verif.Multi Verif.PG

/-- A call that changes the link of a subport. -/
inductive SubCall where
  | link (e f : Subport)
  | unlink (e : Subport)
deriving DecidableEq

/-- What such a call returns. -/
inductive SubRes where
  | link (r : Except LinkError Unit)
  | unlink (r : Option Subport)

/-- The call; `none` is a panic. -/
def SubCall.call (m : MG) : SubCall → Option (SubRes × MG)
  | .link e f => (m.linkSubports e f).map fun x => (.link x.1, x.2)
  | .unlink e => (m.unlinkSubport e).map fun x => (.unlink x.1, x.2)

/-- The subports named in the call. -/
def SubCall.names : SubCall → List Subport
  | .link e f => [e, f]
  | .unlink e => [e]

/-- The subports whose links the call may read or change. -/
def SubCall.touches (o : Obs) : SubCall → Subport → Prop
  | .link e f, z => z = e ∨ z = f
  | .unlink e, z => z = e ∨ o.link e z

/-- The same multigraph is shown. -/
def SameObs (o o' : Obs) : Prop := o.SameNodes o' ∧ o.SamePorts o' ∧ o.SameLinks o' ∧ ∀ z, o'.sub z ↔ o.sub z

end Verif.Undo
