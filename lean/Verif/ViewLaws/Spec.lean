import Verif.View.Spec

/-!
# When two views show the same graph

`SameGraph A B` compares the answers of two views to the queries of `src/view.rs` one by one. Lists
of nodes and ports are compared up to their order. The neighbours are only compared at contained
nodes. Not compared are `is_empty`, `link_count`, the capacities and the subports: here the views of
the library disagree on purpose or by mistake (see C37, C38 and C48).
-/

namespace Verif.View

open Verif (Direction)

variable {E : Type}

/-- The two views are built on the same ports: these queries are delegated by all wrappers. -/
structure SamePorts (A B : GView E) : Prop where
  toPort : ∀ e, A.toPort e = B.toPort e
  portNode : ∀ p, A.portNode p = B.portNode p
  portDirection : ∀ p, A.portDirection p = B.portDirection p
  portOffset : ∀ p, A.portOffset p = B.portOffset p
  portIndex : ∀ n d k, A.portIndex n d k = B.portIndex n d k
  ports : ∀ n d, A.ports n d = B.ports n d

/-- The two views show the same graph. -/
structure SameGraph (A B : GView E) : Prop extends SamePorts A B where
  containsNode : ∀ n, A.containsNode n = B.containsNode n
  containsPort : ∀ p, A.containsPort p = B.containsPort p
  nodes : A.nodes.Perm B.nodes
  nodeCount : A.nodeCount = B.nodeCount
  portsIter : A.portsIter.Perm B.portsIter
  portCount : A.portCount = B.portCount
  allPorts : ∀ n, A.allPorts n = B.allPorts n
  numPorts : ∀ n d, A.numPorts n d = B.numPorts n d
  portLinks : ∀ p, A.portLinks p = B.portLinks p
  links : ∀ n d, A.links n d = B.links n d
  allLinks : ∀ n, A.allLinks n = B.allLinks n
  getConnections : ∀ a b, A.getConnections a b = B.getConnections a b
  neighbours : ∀ n d, A.containsNode n = true → A.neighbours n d = B.neighbours n d
  allNeighbours : ∀ n, A.containsNode n = true → A.allNeighbours n = B.allNeighbours n

end Verif.View
