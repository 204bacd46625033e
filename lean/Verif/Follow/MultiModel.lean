import Verif.Follow.Model
import Verif.Multi.Spec

/-!
# A hierarchy kept alongside a multigraph

As `Verif/Follow/Model.lean`, for a `MultiPortGraph`, whose `compact_nodes` also reports the moves of helper nodes
(`src/multiportgraph.rs` lines 244–252).
-/

namespace Verif.Follow

open Verif.Hier Verif.PG Verif.Multi

/-- The two variables of the example, `src/hierarchy.rs` lines 17–18, with a `MultiPortGraph`. -/
structure MBoth where
  graph : MG
  tree : Hierarchy

/-- The calls on both, `src/hierarchy.rs` lines 15–49. -/
inductive MCall where
  /-- a call of the multigraph with its propagation; `compact_nodes` with the callback `swap_nodes` or, as in the
  documentation, with `rekey` -/
  | graph (op : MOp) (swap : Bool) (extra : Nat)
  /-- a call of the hierarchy -/
  | tree (op : Hier.Op)

/-- The hierarchy after a call of the multigraph with result `r`, as in `src/hierarchy.rs` lines 38–48; `m'` is the graph after
the call. The hierarchy is shrunk to `as_portgraph().node_count()`, and made anew with `clear`. -/
def propagate (m' : MG) (h : Hierarchy) (swap : Bool) (extra : Nat) : MOp → MRes → Option Hierarchy
  | .removeNode n, _ => h.remove n
  | .swapNodes a b, _ => h.swapNodes a b
  | .compactNodes, .moves tr =>
    match if swap then swapAll h tr else rekeyAll h tr with
    | none => none
    | some h => h.shrinkTo (h.data.data.length + extra) m'.graph.nodeCount
  | .clear, _ => some .new
  | _, _ => some h

/-- One call; `none` is a panic. See `src/hierarchy.rs` lines 15–49. -/
def mstep (maxOff : Nat) (s : MBoth) : MCall → Option MBoth
  | .graph op swap extra =>
    match s.graph.step maxOff op with
    | none => none
    | some (r, m) => (propagate m s.tree swap extra op r).map fun h => ⟨m, h⟩
  | .tree op => (s.tree.step op).map fun r => ⟨s.graph, r.2⟩

end Verif.Follow
