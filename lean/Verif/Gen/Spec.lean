import Verif.CopyIn.Spec
import Verif.Gen.Model

/-!
# What it means that a graph is drawn from edges
-/

namespace Verif.Gen

open Verif (Direction)
open Verif.PG Verif.Multi Verif.CopyIn

/-- The vertices of the edges, each once, in any order. -/
def Vertices (edges : List Edge) (vs : List Nat) : Prop := vs.Nodup ∧ ∀ v, v ∈ vs ↔ ∃ e ∈ edges, e.srcV = v ∨ e.tgtV = v

/-- The graph shows exactly these edges: `M` is a bijection between vertices and nodes, a node has
just the ports up to the largest used offset, and the links correspond one to one to the edges, each
at its two offsets. -/
structure Drawn {E : Type} (tp : E → Nat) (o : GObs E) (edges : List Edge) (M : List (Nat × Nat)) : Prop where
  vertices : Vertices edges (M.map (·.1))
  nodup : (M.map (·.2)).Nodup
  node : ∀ n, o.node n ↔ n ∈ M.map (·.2)
  inputs : ∀ v n, (v, n) ∈ M → ∀ k, (∃ p, o.pos p (n, .incoming, k)) ↔ ∃ e ∈ edges, e.tgtV = v ∧ k ≤ e.tgtP
  outputs : ∀ v n, (v, n) ∈ M → ∀ k, (∃ p, o.pos p (n, .outgoing, k)) ↔ ∃ e ∈ edges, e.srcV = v ∧ k ≤ e.srcP
  links : ∃ N : List (E × E),
    List.Forall₂ (fun e u => ∃ a b, (e.srcV, a) ∈ M ∧ (e.tgtV, b) ∈ M ∧
      o.pos (tp u.1) (a, .outgoing, e.srcP) ∧ o.pos (tp u.2) (b, .incoming, e.tgtP)) edges N ∧
    (N.map (·.1) ++ N.map (·.2)).Nodup ∧ ∀ z w, o.link z w ↔ (z, w) ∈ N ∨ (w, z) ∈ N

/-- The pairs of vertex and offset are in the ranges that the strategies draw from, lines 25 and 43. -/
def InRanges (maxNodes maxPorts : Nat) (l : List (Nat × Nat)) : Prop := ∀ x ∈ l, 1 ≤ x.1 ∧ x.1 < maxNodes ∧ x.2 < maxPorts

/-- The edges join the drawn pairs of vertex and offset, the first source to the first target and so
on, as long as there are both. -/
def Joins (edges : List Edge) (outs ins : List (Nat × Nat)) : Prop :=
  edges.map (fun e => ((e.srcV, e.srcP), (e.tgtV, e.tgtP))) = outs.zip ins

/-- A graph with one node, without ports and links. -/
structure OneNode {E : Type} (o : GObs E) : Prop where
  node : ∃ n, ∀ x, o.node x ↔ x = n
  pos : ∀ p x, ¬ o.pos p x
  link : ∀ e f, ¬ o.link e f

end Verif.Gen
