import Verif.Weights.HistModel
import Verif.Multi.Spec

/-!
# Weights kept alongside a multigraph

As `Verif/Weights/HistModel.lean`, for a `MultiPortGraph`, whose calls `set_num_ports`, `compact_nodes` and `compact_ports`
pass on the calls of the port graph inside, also for helper nodes (`src/multiportgraph.rs` lines 222–267).
-/

namespace Verif.Weights

open Verif.Secondary Verif.PG Verif.Multi

/-- The two variables of the example, `src/weights.rs` lines 16–17, with a `MultiPortGraph`. -/
structure MBoth (N P : Type) where
  graph : MG
  weights : Weights N P

/-- The calls on both, `src/weights.rs` lines 14–39. -/
inductive MCall (N P : Type) where
  /-- a call of the multigraph; after a compaction the weights may be shrunk to the number of all nodes or ports,
  `as_portgraph().node_count()` or `as_portgraph().port_count()` -/
  | op (op : MOp) (shrink : Bool)
  | setNode (n : Nat) (v : N)
  | setPort (p : Nat) (v : P)

/-- The weights after a call with result `r`, where `m` is the graph before and `m'` the graph after:
`rekey` callbacks (`src/secondary.rs` lines 56–69), removal of the weights of what is removed, `swap` with `swap_nodes`, and
new weights (`src/weights.rs` lines 69–74) with `clear`. -/
def follow {N P : Type} (dn : N) (dp : P) (m m' : MG) (w : Weights N P) (shrink : Bool) : MOp → MRes → Weights N P
  | .removeNode n, _ => ⟨remove w.nodes n, (m.graph.ports n .incoming ++ m.graph.ports n .outgoing).foldl remove w.ports⟩
  | .setNumPorts _ _ _, .ports tr => { w with ports := rekeyPorts dp w.ports tr }
  | .compactNodes, .moves tr => { w with nodes := shrinkIf shrink m'.graph.nodeCount (rekeyAll dn w.nodes tr) }
  | .compactPorts, .moves tr => { w with ports := shrinkIf shrink m'.graph.portCount (rekeyAll dp w.ports tr) }
  | .swapNodes a b, _ => { w with nodes := w.nodes.swap a b }
  | .clear, _ => .new dn dp
  | _, _ => w

/-- One call; `none` is a panic. See `src/weights.rs` lines 14–39. -/
def mstep {N P : Type} (maxOff : Nat) (dn : N) (dp : P) (s : MBoth N P) : MCall N P → Option (MBoth N P)
  | .op op b => (s.graph.step maxOff op).map fun x => ⟨x.2, follow dn dp s.graph x.2 s.weights b op x.1⟩
  | .setNode n v => some ⟨s.graph, s.weights.setNode n v⟩
  | .setPort p v => some ⟨s.graph, s.weights.setPort p v⟩

end Verif.Weights
