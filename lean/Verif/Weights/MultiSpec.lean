import Verif.Weights.MultiModel
import Verif.Weights.HistSpec

/-!
# What the weights of a multigraph should be
-/

namespace Verif.Weights

open Verif.PG Verif.Multi

open Classical in
/-- The weights of the nodes and ports of a multigraph; anything else has the default weight. -/
noncomputable def AW.only {N P : Type} (dn : N) (dp : P) (X : AW N P) (o : Obs) : AW N P where
  node n := if o.node n then X.node n else dn
  port e := if ∃ p, o.pos p e then X.port e else dp

/-- The weights move along with a renaming of nodes. -/
structure AW.MovedBy {N P : Type} (ρ : Nat → Nat) (o : Obs) (X X' : AW N P) : Prop where
  node : ∀ n, o.node n → X'.node (ρ n) = X.node n
  port : ∀ e, (∃ p, o.pos p e) → X'.port (ρ e.1, e.2) = X.port e

open Classical in
/-- What a call does to the weights, where the multigraph changes from `o` to `o'`. -/
def MEffect {N P : Type} (dn : N) (dp : P) (o o' : Obs) (X X' : AW N P) : MCall N P → Prop
  | .op .compactNodes _ => ∃ ρ : Nat → Nat, o.Rename o' ρ id ∧ (∀ x y, o.node x → x < y → ρ x < ρ y ∧ ρ x ≤ x) ∧
      X.MovedBy ρ o X' ∧ X' = X'.only dn dp o'
  | .op (.swapNodes a b) _ =>
      let ρ := fun n => if n = a then b else if n = b then a else n
      o.Rename o' ρ id ∧ X.MovedBy ρ o X' ∧ X' = X'.only dn dp o'
  | .op _ _ => X' = X.only dn dp o'
  | .setNode n v => o' = o ∧ X' = { X with node := fun x => if x = n then v else X.node x }
  | .setPort p v => o' = o ∧ X' = { X with port := fun e => if o.pos p e then v else X.port e }

/-- The weights read with the queries of the multigraph. -/
def MBoth.view {N P : Type} (dn : N) (dp : P) (s : MBoth N P) : AW N P where
  node n := if s.graph.containsNode n then s.weights.node n else dn
  port e :=
    match s.graph.graph.portIndex e.1 e.2.1 e.2.2 with
    | none => dp
    | some p => if s.graph.containsPort p then s.weights.port p else dp

/-- The calls considered: as for the multigraph alone (`MOp.ok`); weights are assigned to existing nodes and ports. -/
def MCall.ok {N P : Type} (maxOff : Nat) (m : MG) : MCall N P → Prop
  | .op a _ => a.ok maxOff m
  | .setNode n _ => m.containsNode n = true
  | .setPort p _ => m.containsPort p = true

/-- The states that arise from `MultiPortGraph::from` of any port graph with `Weights::new()`. -/
inductive WReach {N P : Type} (maxOff : Nat) (dn : N) (dp : P) : MBoth N P → Prop where
  | init {g : PG} : PG.Reach maxOff g → WReach maxOff dn dp ⟨MG.ofGraph g, .new dn dp⟩
  | step {s s' : MBoth N P} {c : MCall N P} : WReach maxOff dn dp s → c.ok maxOff s.graph →
      mstep maxOff dn dp s c = some s' → WReach maxOff dn dp s'

end Verif.Weights
