import Verif.CopyIn.Model

/-!
# What copying a set of nodes means

Stated by nodes, positions of ports, and links between endpoints, as shown by the queries.
-/

namespace Verif.CopyIn

open Verif (Direction)
open Verif.PG Verif.Multi

/-- What a graph shows: nodes, the position of each port, and links between endpoints. -/
structure GObs (E : Type) where
  node : Nat → Prop
  pos : Nat → Endpoint → Prop
  link : E → E → Prop

/-- What a `PortGraph` shows. -/
def pgObs (g : PG) : GObs Nat where
  node n := g.containsNode n = true
  pos p e := g.portNode p = some e.1 ∧ g.portOffset p = some (some e.2)
  link p q := g.portLink? p = some (some q)

/-- What a `MultiPortGraph` shows. -/
def mgObs (m : MG) : GObs Subport := ⟨m.obs.node, m.obs.pos, m.obs.link⟩

variable {E : Type}

/-- The endpoint is at a port of the node. -/
def GObs.On (tp : E → Nat) (o : GObs E) (e : E) (n : Nat) : Prop := ∃ d k, o.pos (tp e) (n, d, k)

/-- The endpoint is at a port of one of the nodes. -/
def GObs.Inside (tp : E → Nat) (o : GObs E) (nodes : List Nat) (e : E) : Prop := ∃ n ∈ nodes, o.On tp e n

/-- `p'` is the place in `o'` of the port `p` of `o`: the port at the same position of the copy for
the ports of copied nodes, and `p` itself for other ports. -/
def Place (o o' : GObs E) (M : List (Nat × Nat)) (p p' : Nat) : Prop :=
  ∃ n d k, o.pos p (n, d, k) ∧ ((∃ n', (n, n') ∈ M ∧ o'.pos p' (n', d, k)) ∨ ((∀ n', (n, n') ∉ M) ∧ p' = p))

/-- Each link with an end at one of the nodes is listed exactly once, in one of its two orientations. -/
structure ListsTouching (tp : E → Nat) (o : GObs E) (nodes : List Nat) (T : List (E × E)) : Prop where
  nodup : T.Nodup
  sound : ∀ e f, (e, f) ∈ T → o.link e f ∧ (o.Inside tp nodes e ∨ o.Inside tp nodes f)
  once : ∀ e f, o.link e f → (o.Inside tp nodes e ∨ o.Inside tp nodes f) →
    ((e, f) ∈ T ∧ (f, e) ∉ T) ∨ ((e, f) ∉ T ∧ (f, e) ∈ T)

/-- `o'` is `o` with a copy of the nodes: `M` maps them to new nodes with the same ports, and for
each link with an end at one of the nodes there is one new link, between the places of the ends. -/
structure Copied (tp : E → Nat) (o o' : GObs E) (nodes : List Nat) (M : List (Nat × Nat)) : Prop where
  keys : M.map (·.1) = nodes
  fresh : (M.map (·.2)).Nodup ∧ ∀ x ∈ M.map (·.2), ¬ o.node x
  node : ∀ x, o'.node x ↔ o.node x ∨ x ∈ M.map (·.2)
  pos_old : ∀ p e, e.1 ∉ M.map (·.2) → (o'.pos p e ↔ o.pos p e)
  pos_new : ∀ n n', (n, n') ∈ M → ∀ d k, (∃ p, o'.pos p (n', d, k)) ↔ ∃ p, o.pos p (n, d, k)
  links : ∃ T N : List (E × E), ListsTouching tp o nodes T ∧
    List.Forall₂ (fun t u => Place o o' M (tp t.1) (tp u.1) ∧ Place o o' M (tp t.2) (tp u.2)) T N ∧
    (N.map (·.1) ++ N.map (·.2)).Nodup ∧
    (∀ e f, (e, f) ∈ N → (∀ z, ¬ o.link e z) ∧ ∀ z, ¬ o.link f z) ∧
    ∀ z w, o'.link z w ↔ o.link z w ∨ (z, w) ∈ N ∨ (w, z) ∈ N

/-- The same is shown. -/
structure Same (o o' : GObs E) : Prop where
  node : ∀ x, o'.node x ↔ o.node x
  pos : ∀ p e, o'.pos p e ↔ o.pos p e
  link : ∀ e f, o'.link e f ↔ o.link e f

/-- A link between one of the nodes and another node. -/
def BoundaryLink (tp : E → Nat) (o : GObs E) (nodes : List Nat) (e f : E) : Prop :=
  o.link e f ∧ o.Inside tp nodes e ∧ ¬ o.Inside tp nodes f

end Verif.CopyIn
