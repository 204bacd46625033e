import Verif.Weights.Model
import Verif.PortGraph.Spec

/-!
# Weights kept alongside a graph

The calls on a graph and its weights, with the `rekey` callbacks (`src/weights.rs` lines 1–39 and
`src/secondary.rs` lines 56–69). As "the map does not track item removals" (`src/weights.rs` line 36), the weights
of a removed node and its ports are removed by the user.
-/

namespace Verif.Weights

open Verif.Secondary Verif.PG

/-- The provided `remove`, `src/secondary.rs` lines 52–54. -/
def remove {V : Type} (w : Dense V) (k : Nat) : Dense V := (w.take k).2

/-- The two variables of the example, `src/weights.rs` lines 16–17. -/
structure Both (N P : Type) where
  graph : PG
  weights : Weights N P

/-- The calls on both, `src/weights.rs` lines 14–39. -/
inductive Call (N P : Type) where
  | addNode (i o : Nat)
  /-- the weights of the node and its ports are removed too -/
  | removeNode (n : Nat)
  | linkPorts (a b : Nat)
  | unlinkPort (p : Nat)
  /-- with the callback `|old, op| weights.ports.rekey(old, op.new_index())` -/
  | setNumPorts (n i o : Nat)
  /-- with the callback `|old, new| weights.nodes.rekey(old, Some(new))` and possibly
  `weights.nodes.shrink_to(graph.node_count())` -/
  | compactNodes (shrink : Bool)
  /-- the same for ports -/
  | compactPorts (shrink : Bool)
  /-- with `weights.nodes.swap(a, b)` -/
  | swapNodes (a b : Nat)
  | setNode (n : Nat) (v : N)
  | setPort (p : Nat) (v : P)

/-- `shrink_to` if asked for, `src/weights.rs` lines 37–38. -/
def shrinkIf {V : Type} (b : Bool) (k : Nat) (w : Dense V) : Dense V := if b then w.shrinkTo k else w

/-- One call; `none` is a panic. `dn` and `dp` are `N::default()` and `P::default()`. See
`src/weights.rs` lines 14–39. -/
def step {N P : Type} (maxOff : Nat) (dn : N) (dp : P) (s : Both N P) : Call N P → Option (Both N P)
  | .addNode i o => (s.graph.addNode maxOff i o).map fun r => ⟨r.2, s.weights⟩
  | .removeNode n =>
    (s.graph.removeNode n).map fun g =>
      ⟨g, ⟨remove s.weights.nodes n, (s.graph.ports n .incoming ++ s.graph.ports n .outgoing).foldl remove s.weights.ports⟩⟩
  | .linkPorts a b => (s.graph.linkPorts a b).map fun r => ⟨r.2, s.weights⟩
  | .unlinkPort p => (s.graph.unlinkPort p).map fun r => ⟨r.2, s.weights⟩
  | .setNumPorts n i o =>
    (s.graph.setNumPorts n i o).map fun r => ⟨r.1, { s.weights with ports := rekeyPorts dp s.weights.ports r.2 }⟩
  | .compactNodes b =>
    s.graph.compactNodes.map fun r =>
      ⟨r.1, { s.weights with nodes := shrinkIf b r.1.nodeCount (rekeyAll dn s.weights.nodes r.2) }⟩
  | .compactPorts b =>
    s.graph.compactPorts.map fun r =>
      ⟨r.1, { s.weights with ports := shrinkIf b r.1.portCount (rekeyAll dp s.weights.ports r.2) }⟩
  | .swapNodes a b =>
    (s.graph.swapNodes a b).map fun g => ⟨g, { s.weights with nodes := s.weights.nodes.swap a b }⟩
  | .setNode n v => some ⟨s.graph, s.weights.setNode n v⟩
  | .setPort p v => some ⟨s.graph, s.weights.setPort p v⟩

end Verif.Weights
