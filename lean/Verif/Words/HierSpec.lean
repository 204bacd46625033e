import Verif.Words.HierModel
import Verif.Words.Spec
import Verif.Hierarchy.Spec

/-!
# A hierarchy of numbers as words
-/

namespace Verif.Words

open Verif.Hier (Hierarchy NodeData AttachError)
open Verif.Secondary

def encData (d : NodeData) : WData :=
  ⟨encMaybe d.first, encMaybe d.last, BitVec.ofNat 32 d.count, encMaybe d.parent, encMaybe d.prev, encMaybe d.next⟩

/-- The memory that holds the hierarchy. -/
def encH (h : Hierarchy) : WH := ⟨⟨h.data.data.map encData, encData h.data.default⟩⟩

def encAttach : AttachError → WAttachError
  | .alreadyAttached n => .alreadyAttached (encIx n)
  | .rootSibling r => .rootSibling (encIx r)
  | .cycle n p => .cycle (encIx n) (encIx p)

/-- The answer of a call. -/
def encHRes : Hier.Res → WRes
  | .ok r => .ok (r.map encIx)
  | .error e => .error (encAttach e)

/-- The call with the words of its arguments. -/
def encHOp : Hier.Op → WHOp
  | .pushChild n p => .pushChild (encIx n) (encIx p)
  | .pushFrontChild n p => .pushFrontChild (encIx n) (encIx p)
  | .insertBefore n b => .insertBefore (encIx n) (encIx b)
  | .insertAfter n a => .insertAfter (encIx n) (encIx a)
  | .detach n => .detach (encIx n)
  | .detachChildren n => .detachChildren (encIx n)
  | .remove n => .remove (encIx n)
  | .swapNodes a b => .swapNodes (encIx a) (encIx b)
  | .rekey old new => .rekey (encIx old) (encIx new)
  | .ensureCapacity e c => .ensureCapacity e c
  | .shrinkTo e c => .shrinkTo e c

/-- The arguments are nodes with the top bit clear; `shrink_to` is called while the vector has capacity
for at most that many nodes. -/
def HArgs (h : Hierarchy) : Hier.Op → Prop
  | .pushChild n p | .pushFrontChild n p => n < 2 ^ 31 ∧ p < 2 ^ 31
  | .insertBefore n b | .insertAfter n b => n < 2 ^ 31 ∧ b < 2 ^ 31
  | .detach n | .detachChildren n | .remove n => n < 2 ^ 31
  | .swapNodes a b | .rekey a b => a < 2 ^ 31 ∧ b < 2 ^ 31
  | .ensureCapacity _ _ => True
  | .shrinkTo e _ => h.data.data.length + e ≤ 2 ^ 31

/-- The hierarchies that arise by such calls; in contrast to `Hier.Reach` a node may be pushed under
itself. -/
inductive HHeld : Hierarchy → Prop
  | new : HHeld .new
  | step {h h' : Hierarchy} {op : Hier.Op} {r : Hier.Res} : HHeld h → HArgs h op → h.step op = some (r, h') → HHeld h'

/-- Every call of the history has such arguments. -/
def HFit : Hierarchy → List Hier.Op → Prop
  | _, [] => True
  | h, op :: ops => HArgs h op ∧ ∀ r h', h.step op = some (r, h') → HFit h' ops

end Verif.Words
