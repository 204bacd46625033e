import Verif.Words.Model
import Verif.Undo.Spec

/-!
# Numbers as words

How the graph of natural numbers of `Verif/PortGraph/Model.lean` is written in the words of
`Verif/Words/Model.lean`: an index is its own word, `None` is all ones, a port slot holds the node
plus one with the direction in the top bit, the number of incoming ports is stored plus one.
-/

namespace Verif.Words

open Verif (Direction)
open Verif.PG

/-- The word of an index. -/
def encIx (n : Nat) : Ix := BitVec.ofNat 32 n

/-- The word of an optional index. -/
def encMaybe : Option Nat → MaybeIx
  | none => BitVec.allOnes 32
  | some n => encIx n

def encMeta (m : NodeMeta) : WMeta :=
  ⟨encIx m.first, BitVec.ofNat 16 (m.incoming + 1), BitVec.ofNat 16 m.outgoing, BitVec.ofNat 16 m.capacity⟩

def encEntry : NodeEntry → WEntry
  | .free p n => .free (encMaybe p) (encMaybe n)
  | .node m => .node (encMeta m)

def encPort : PortEntry → WPort
  | .free => .free
  | .port n .incoming => .port (BitVec.ofNat 32 (n + 1))
  | .port n .outgoing => .port (BitVec.ofNat 32 (n + 1 + 2 ^ 31))

/-- The memory that holds the graph. -/
def encG (g : PG) : WG where
  nodeMeta := g.nodeMeta.map encEntry
  portLink := g.portLink.map encMaybe
  portMeta := g.portMeta.map encPort
  nodeFree := encMaybe g.nodeFree
  portFree := g.portFree.map encMaybe
  nodeCount := g.nodeCount
  portCount := g.portCount
  linkCount := g.linkCount

def encErr : LinkError → WLinkError
  | .alreadyLinked p => .alreadyLinked (encIx p)
  | .unknownPort p => .unknownPort (encIx p)
  | .unknownOffset n d o => .unknownOffset (encIx n) d o
  | .incompatibleDirections a b d => .incompatibleDirections (encIx a) (encIx b) d

def encPortOp : PortOp → WPortOp
  | .moved n => .moved (encIx n)
  | .removed l => .removed (l.map encIx)

def encLink : Except LinkError (Nat × Nat) → Except WLinkError (Ix × Ix)
  | .ok x => .ok (encIx x.1, encIx x.2)
  | .error e => .error (encErr e)

/-- The answer of a call. -/
def encAnswer : Undo.Answer → WAnswer
  | .unit => .unit
  | .node n => .node (encIx n)
  | .link r => .link (encLink r)
  | .unlink r => .unlink (r.map encIx)
  | .ports tr => .ports (tr.map fun x => (encIx x.1, encPortOp x.2))
  | .moves tr => .moves (tr.map fun x => (encIx x.1, encIx x.2))

/-- The call with the words of its arguments. -/
def encOp : PG.Op → WOp
  | .addNode i o => .addNode i o
  | .removeNode n => .removeNode (encIx n)
  | .linkPorts a b => .linkPorts (encIx a) (encIx b)
  | .unlinkPort p => .unlinkPort (encIx p)
  | .setNumPorts n i o => .setNumPorts (encIx n) i o
  | .compactNodes => .compactNodes
  | .compactPorts => .compactPorts
  | .swapNodes a b => .swapNodes (encIx a) (encIx b)
  | .clear => .clear

/-- The arguments are indices within the documented range, at most `2^31 - 1` (`src/index.rs` lines 14–15
and 26–27), so that the top bit of the word is clear. -/
def ArgsFit : PG.Op → Prop
  | .removeNode n | .setNumPorts n _ _ => n < 2 ^ 31
  | .unlinkPort p => p < 2 ^ 31
  | .linkPorts a b | .swapNodes a b => a < 2 ^ 31 ∧ b < 2 ^ 31
  | _ => True

/-- The largest number of slots for which every index is below the maximum of the documentation
(`max_index`, `2^31 - 2`). -/
def maxSlots : Nat := 2 ^ 31 - 1

/-- The graph has no more node slots and port slots than that. -/
def Fits (g : PG) : Prop := g.nodeMeta.length ≤ maxSlots ∧ g.portMeta.length ≤ maxSlots

/-- The graphs of `PG.Reach` with arguments in range and within that number of slots all along. -/
inductive Held (maxOff : Nat) : PG → Prop where
  | init : Held maxOff PG.empty
  | step {g g' op} : Held maxOff g → ArgsFit op → PG.Op.ok maxOff g op → g.step maxOff op = some g' → Fits g' →
      Held maxOff g'

/-- The history stays within these limits, and every call meets `PG.Op.ok`. -/
def FitRun (maxOff : Nat) : PG → List PG.Op → Prop
  | _, [] => True
  | g, op :: ops => ArgsFit op ∧ PG.Op.ok maxOff g op ∧ ∀ g', g.step maxOff op = some g' → Fits g' ∧ FitRun maxOff g' ops

/-- The slot holds a node. -/
def WEntry.isNode : WEntry → Bool
  | .node _ => true
  | .free _ _ => false

end Verif.Words
