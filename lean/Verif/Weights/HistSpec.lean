import Verif.Weights.HistModel

/-!
# What the weights should be

A weight for every node and every endpoint (node, direction, offset); without indices of ports.
-/

namespace Verif.Weights

open Verif.PG

/-- Weights of nodes and endpoints. -/
structure AW (N P : Type) where
  node : Nat → N
  port : Endpoint → P

open Classical in
/-- The weights of the nodes and endpoints of a graph; anything else has the default weight. -/
noncomputable def AW.restrict {N P : Type} (dn : N) (dp : P) (X : AW N P) (A : AGraph) : AW N P where
  node n := if (A.counts n).isSome then X.node n else dn
  port e := if A.Has e then X.port e else dp

/-- The weights move along with a renaming of nodes. -/
structure AW.Moved {N P : Type} (ρ : Nat → Nat) (A : AGraph) (X X' : AW N P) : Prop where
  node : ∀ n, (A.counts n).isSome → X'.node (ρ n) = X.node n
  port : ∀ e, A.Has e → X'.port (AGraph.mapNode ρ e) = X.port e

/-- What a call does to the weights, where the graph changes from `A` to `A'`: apart from assignments, what still exists
keeps its weight, and what is new has the default weight. Port `p` is given by its endpoint. -/
def Effect {N P : Type} (dn : N) (dp : P) (at_ : Nat → Option Endpoint) (A A' : AGraph) (X X' : AW N P) : Call N P → Prop
  | .addNode _ _ | .removeNode _ | .linkPorts _ _ | .unlinkPort _ | .setNumPorts _ _ _ | .compactPorts _ =>
    X' = X.restrict dn dp A'
  | .compactNodes _ => ∃ ρ : Nat → Nat, AGraph.Renamed ρ A A' ∧
      (∀ a b, (A.counts a).isSome → (A.counts b).isSome → a < b → ρ a < ρ b) ∧
      (∀ a b, (A'.counts a).isSome → b < a → (A'.counts b).isSome) ∧
      X.Moved ρ A X' ∧ X' = X'.restrict dn dp A'
  | .swapNodes a b =>
      let ρ := fun n => if n = a then b else if n = b then a else n
      AGraph.Renamed ρ A A' ∧ X.Moved ρ A X' ∧ X' = X'.restrict dn dp A'
  | .setNode n v => A' = A ∧ X' = { X with node := fun x => if x = n then v else X.node x }
  | .setPort p v => A' = A ∧ X' = { X with port := fun e => if at_ p = some e then v else X.port e }

/-- The weights read with the queries of the graph. -/
def Both.view {N P : Type} (dn : N) (dp : P) (s : Both N P) : AW N P where
  node n := if s.graph.containsNode n then s.weights.node n else dn
  port e :=
    match s.graph.portIndex e.1 e.2.1 e.2.2 with
    | none => dp
    | some p => s.weights.port p

/-- The calls considered: as for the graph alone (`PG.Op.ok`); weights are assigned to existing nodes and ports. -/
def Call.ok {N P : Type} (maxOff : Nat) (g : PG) : Call N P → Prop
  | .addNode i o => PG.Op.ok maxOff g (.addNode i o)
  | .setNumPorts n i o => PG.Op.ok maxOff g (.setNumPorts n i o)
  | .compactPorts _ => PG.Op.ok maxOff g .compactPorts
  | .swapNodes a b => PG.Op.ok maxOff g (.swapNodes a b)
  | .setNode n _ => g.containsNode n = true
  | .setPort p _ => g.containsPort p = true
  | _ => True

/-- The call on the graph, if there is one. -/
def Call.op {N P : Type} : Call N P → Option PG.Op
  | .addNode i o => some (.addNode i o)
  | .removeNode n => some (.removeNode n)
  | .linkPorts a b => some (.linkPorts a b)
  | .unlinkPort p => some (.unlinkPort p)
  | .setNumPorts n i o => some (.setNumPorts n i o)
  | .compactNodes _ => some .compactNodes
  | .compactPorts _ => some .compactPorts
  | .swapNodes a b => some (.swapNodes a b)
  | .setNode _ _ | .setPort _ _ => none

/-- The states that arise from an empty graph with `Weights::new()`. -/
inductive Reach {N P : Type} (maxOff : Nat) (dn : N) (dp : P) : Both N P → Prop where
  | init : Reach maxOff dn dp ⟨PG.empty, .new dn dp⟩
  | step {s s' : Both N P} {c : Call N P} : Reach maxOff dn dp s → c.ok maxOff s.graph →
      Weights.step maxOff dn dp s c = some s' → Reach maxOff dn dp s'

end Verif.Weights
