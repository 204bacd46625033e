import Verif.Secondary.Model
import Verif.PortGraph.Model

/-!
# Weights

Model of `src/weights.rs` and of the callbacks that keep secondary maps in line with a graph.
-/

namespace Verif.Weights

open Verif.Secondary Verif.PG

/-- `Weights`, `src/weights.rs` lines 53–58. -/
structure Weights (N P : Type) where
  nodes : Dense N
  ports : Dense P
deriving DecidableEq, Repr

/-- `Weights::new`, `src/weights.rs` lines 69–74; the arguments are `N::default()` and `P::default()`. -/
def Weights.new {N P : Type} (n : N) (p : P) : Weights N P := ⟨.withDefault n, .withDefault p⟩

/-- `weights[node]`, `src/weights.rs` lines 108–110. -/
def Weights.node {N P : Type} (w : Weights N P) (n : Nat) : N := w.nodes.get n

/-- `weights[port]`, `src/weights.rs` lines 130–132. -/
def Weights.port {N P : Type} (w : Weights N P) (p : Nat) : P := w.ports.get p

/-- `weights[node] = v`, `src/weights.rs` lines 118–120. -/
def Weights.setNode {N P : Type} (w : Weights N P) (n : Nat) (v : N) : Weights N P := { w with nodes := w.nodes.set n v }

/-- `weights[port] = v`, `src/weights.rs` lines 140–142. -/
def Weights.setPort {N P : Type} (w : Weights N P) (p : Nat) (v : P) : Weights N P := { w with ports := w.ports.set p v }

/-- The callback `|old, new| weights.rekey(old, Some(new))` of `compact_nodes` and
`compact_ports`, applied to the reported calls in order.
See `src/weights.rs` and `src/view.rs` lines 278–293. -/
def rekeyAll {V : Type} (vd : V) (w : Dense V) (tr : List (Nat × Nat)) : Dense V :=
  tr.foldl (fun w x => w.rekey vd x.1 (some x.2)) w

/-- The same with `|old, new| weights.swap(old, new)`.
See `src/weights.rs` and `src/view.rs` lines 278–293. -/
def swapAll {V : Type} (w : Dense V) (tr : List (Nat × Nat)) : Dense V :=
  tr.foldl (fun w x => w.swap x.1 x.2) w

/-- `PortOperation::new_index`, `src/portgraph.rs` lines 1177–1182. -/
def newIndex : PortOp → Option Nat
  | .moved q => some q
  | .removed _ => none

/-- The callback `|old, op| weights.rekey(old, op.new_index())` of `set_num_ports`.
See `src/weights.rs` and `src/view.rs` lines 264–268. -/
def rekeyPorts {V : Type} (vd : V) (w : Dense V) (tr : List (Nat × PortOp)) : Dense V :=
  tr.foldl (fun w x => w.rekey vd x.1 (newIndex x.2)) w

/-- The callback `|old, op| op.new_index().map(|new| weights.swap(old, new))` of the example in
`src/weights.rs` lines 32–34. -/
def swapPorts {V : Type} (w : Dense V) (tr : List (Nat × PortOp)) : Dense V :=
  tr.foldl (fun w x => match newIndex x.2 with
    | none => w
    | some q => w.swap x.1 q) w

end Verif.Weights
