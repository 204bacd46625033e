import Verif.Render.Model
import Verif.View.Spec

/-!
# What a rendering should contain
-/

namespace Verif.Render

open Verif (Direction)
open Verif.View Verif.Hier

variable {E : Type}

/-- The nodes that are drawn, as a leaf or as a subgraph. -/
def drawn (out : List (Stmt E)) : List Nat := out.filterMap fun
  | .leaf n => some n
  | .start n => some n
  | _ => none

/-- The links that are drawn. -/
def arrows (out : List (Stmt E)) : List (Arrow E) := out.filterMap fun
  | .link a => some a
  | _ => none

/-- The subgraphs open after the statements, innermost first; `none` if one too many is closed. -/
def blocks : List (Stmt E) → Option (List Nat) → Option (List Nat)
  | [], b => b
  | .start n :: out, b => blocks out (b.map (n :: ·))
  | .stop :: out, b => blocks out (b.bind fun l => match l with | [] => none | _ :: l => some l)
  | _ :: out, b => blocks out b

/-- The arrow of a link of the view. -/
def IsArrow (G : GView E) (a : Arrow E) : Prop :=
  G.Shows a.src a.tgt ∧ G.portDirection (G.toPort a.src) = some .outgoing ∧ G.On a.src a.srcNode ∧ G.On a.tgt a.tgtNode

/-- Every node is drawn inside the subgraph of its parent in the view. -/
def Nested (G : GView E) (par : Nat → Option Nat) (out : List (Stmt E)) : Prop :=
  ∀ before after n, (out = before ++ .leaf n :: after ∨ out = before ++ .start n :: after) →
    ∃ b, blocks before (some []) = some b ∧ b.head? = (par n).filter G.containsNode

/-- Every link is drawn when its ends are drawn already, and inside of subgraphs that contain both. -/
def Placed (K : Kids) (out : List (Stmt E)) : Prop :=
  ∀ before after a, out = before ++ .link a :: after →
    a.srcNode ∈ drawn before ∧ a.tgtNode ∈ drawn before ∧
    ∃ b, blocks before (some []) = some b ∧ ∀ c ∈ b, Anc K c a.srcNode ∧ Anc K c a.tgtNode

/-- The mermaid output draws every node of the view once and inside the subgraph of its parent, and every
link once, and closes the subgraphs it opens. -/
structure Drawing (G : GView E) (par : Nat → Option Nat) (out : List (Stmt E)) : Prop where
  nodes_nodup : (drawn out).Nodup
  mem_nodes : ∀ n, n ∈ drawn out ↔ G.containsNode n = true
  links_nodup : (arrows out).Nodup
  mem_links : ∀ a, a ∈ arrows out ↔ IsArrow G a
  closed : blocks out (some []) = some []
  nested : Nested G par out

/-! ## Dot -/

/-- The offset of a port is its position in the list of ports of its node. -/
def OffsetsOk (G : GView E) : Prop := ∀ p n d, G.portNode p = some n → G.portDirection p = some d →
  ∃ k, G.portOffset p = some (d, k) ∧ (G.ports n d)[k]? = some p

/-- The nodes written, with the offsets of the ports shown. -/
def dotNodes (out : List DStmt) : List (Nat × List Nat × List Nat) := out.filterMap fun
  | .node n i o => some (n, i, o)
  | _ => none

/-- The edges written: node and offset of the outgoing port, node and offset of the incoming port. -/
def dotEdges (out : List DStmt) : List ((Nat × Nat) × (Nat × Nat)) := out.filterMap fun
  | .edge a i b j => some ((a, i), (b, j))
  | _ => none

/-- The nodes written for the hierarchy. -/
def dotTree (out : List DStmt) : List Nat := out.filterMap fun
  | .hnode n => some n
  | _ => none

/-- The edges written for the hierarchy. -/
def dotTreeEdges (out : List DStmt) : List (Nat × Nat) := out.filterMap fun
  | .hedge p c => some (p, c)
  | _ => none

/-- The edge written names the ends of the link. -/
def Names (G : GView E) (l : E × E) (x : (Nat × Nat) × (Nat × Nat)) : Prop :=
  (G.ports x.1.1 .outgoing)[x.1.2]? = some (G.toPort l.1) ∧ (G.ports x.2.1 .incoming)[x.2.2]? = some (G.toPort l.2)

/-- The offsets of the ports that are not hidden, in order. -/
def ShowsPorts (G : GView E) (portHidden : Nat → Bool) (n : Nat) (d : Direction) (l : List Nat) : Prop :=
  l.Pairwise (· < ·) ∧ ∀ k, k ∈ l ↔ ∃ p, (G.ports n d)[k]? = some p ∧ portHidden p = false

end Verif.Render
