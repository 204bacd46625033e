import Verif.Words.Spec

/-!
# Reading the words as numbers

`dec` reads each word by `index()`; an optional index is `None` if all bits are set. With it, the
graph of words is compared with the graph of natural numbers of `Verif/PortGraph/Model.lean`.
-/

namespace Verif.Words

open Verif (Direction)
open Verif.Index Verif.PG

/-- The entry of a node slot. -/
def WEntry.dec : WEntry → NodeEntry
  | .free p n => .free (bfIndex p) (bfIndex n)
  | .node m => .node m.view

/-- The entry of a port slot. -/
def WPort.dec : WPort → PortEntry
  | .free => .free
  | .port m => .port ((portMetaNode m).getD 0) (portMetaDirection m)

/-- The graph that the words stand for. -/
def WG.dec (w : WG) : PG where
  nodeMeta := w.nodeMeta.map WEntry.dec
  portLink := w.portLink.map bfIndex
  portMeta := w.portMeta.map WPort.dec
  nodeFree := bfIndex w.nodeFree
  portFree := w.portFree.map bfIndex
  nodeCount := w.nodeCount
  portCount := w.portCount
  linkCount := w.linkCount

def WLinkError.dec : WLinkError → LinkError
  | .alreadyLinked p => .alreadyLinked (indexOf p)
  | .unknownPort p => .unknownPort (indexOf p)
  | .unknownOffset n d o => .unknownOffset (indexOf n) d o
  | .incompatibleDirections a b d => .incompatibleDirections (indexOf a) (indexOf b) d

def WPortOp.dec : WPortOp → PortOp
  | .moved n => .moved (indexOf n)
  | .removed l => .removed (l.map indexOf)

def WOp.dec : WOp → PG.Op
  | .addNode i o => .addNode i o
  | .removeNode n => .removeNode (indexOf n)
  | .linkPorts a b => .linkPorts (indexOf a) (indexOf b)
  | .unlinkPort p => .unlinkPort (indexOf p)
  | .setNumPorts n i o => .setNumPorts (indexOf n) i o
  | .compactNodes => .compactNodes
  | .compactPorts => .compactPorts
  | .swapNodes a b => .swapNodes (indexOf a) (indexOf b)
  | .clear => .clear

def decLink : Except WLinkError (Ix × Ix) → Except LinkError (Nat × Nat)
  | .ok x => .ok (indexOf x.1, indexOf x.2)
  | .error e => .error e.dec

def WAnswer.dec : WAnswer → Undo.Answer
  | .unit => .unit
  | .node n => .node (indexOf n)
  | .link r => .link (decLink r)
  | .unlink r => .unlink (r.map indexOf)
  | .ports tr => .ports (tr.map fun x => (indexOf x.1, x.2.dec))
  | .moves tr => .moves (tr.map fun x => (indexOf x.1, indexOf x.2))

end Verif.Words
