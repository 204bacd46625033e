import Verif.CopyIn.Spec
import Verif.View.Spec

/-!
# What inserting a view into a graph means
-/

namespace Verif.Insert

open Verif (Direction)
open Verif.View Verif.CopyIn

variable {E F : Type}

/-- The port is the `k`-th port of node `n` with direction `d` in the view. -/
def At (V : GView F) (p n : Nat) (d : Direction) (k : Nat) : Prop := V.portNode p = some n ∧ (V.ports n d)[k]? = some p

/-- Port `p'` of the graph `o'` is at the place of port `p` of the view. -/
def Stands (V : GView F) (o' : GObs E) (M : List (Nat × Nat)) (p p' : Nat) : Prop :=
  ∃ n d k n', At V p n d k ∧ (n, n') ∈ M ∧ o'.pos p' (n', d, k)

/-- `o'` is `o` with copies of the nodes in `M` with their ports, and with new links standing for
the links `T` of the view. -/
structure Grown (tp : E → Nat) (V : GView F) (o o' : GObs E) (M : List (Nat × Nat)) (T : List (F × F)) : Prop where
  keys : (M.map (·.1)).Nodup
  vals : (M.map (·.2)).Nodup
  fresh : ∀ x ∈ M.map (·.2), ¬ o.node x
  node : ∀ x, o'.node x ↔ o.node x ∨ x ∈ M.map (·.2)
  pos_old : ∀ p e, e.1 ∉ M.map (·.2) → (o'.pos p e ↔ o.pos p e)
  pos_new : ∀ n n', (n, n') ∈ M → ∀ d k, (∃ p, o'.pos p (n', d, k)) ↔ ∃ p, At V p n d k
  links : ∃ N : List (E × E),
    List.Forall₂ (fun t u => Stands V o' M (V.toPort t.1) (tp u.1) ∧ Stands V o' M (V.toPort t.2) (tp u.2)) T N ∧
    (N.map (·.1) ++ N.map (·.2)).Nodup ∧ (∀ e f, (e, f) ∈ N → (∀ z, ¬ o.link e z) ∧ ∀ z, ¬ o.link f z) ∧
    ∀ z w, o'.link z w ↔ o.link z w ∨ (z, w) ∈ N ∨ (w, z) ∈ N

/-- `o'` is `o` with a copy of the whole view. -/
def Inserted (tp : E → Nat) (V : GView F) (o o' : GObs E) (M : List (Nat × Nat)) : Prop :=
  (∀ n, (∃ n', (n, n') ∈ M) ↔ V.containsNode n = true) ∧ ∃ T, V.ListsLinks T ∧ Grown tp V o o' M T

/-- The copy was interrupted at the link `t`: `o'` is `o` with copies of some nodes and some links of
the view, and the port `p` at the place of an end of `t` is linked already. -/
def Interrupted (tp : E → Nat) (V : GView F) (o o' : GObs E) (p : Nat) : Prop :=
  ∃ M T t A, (∀ n n', (n, n') ∈ M → V.containsNode n = true) ∧ V.ListsLinks A ∧ (T ++ [t]).Sublist A ∧ Grown tp V o o' M T ∧
    (Stands V o' M (V.toPort t.1) p ∨ Stands V o' M (V.toPort t.2) p) ∧ ∃ e z, tp e = p ∧ o'.link e z

end Verif.Insert
