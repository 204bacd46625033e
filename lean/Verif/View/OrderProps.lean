import Verif.View.Props
import Mathlib.Data.List.Nodup

/-!
# C94: the order of the boundary ports of `with_nodes`

The documentation of `Subgraph::with_nodes` says that the boundary ports stand in the order in which the nodes are given. The
order matters: the position of a port is its index in the boundary.
-/

namespace Verif.View

open Verif (Direction)

variable {E : Type} {G : GView E} {order : List Nat}

/-! ## Specification -/

/-- `p` stands before `q` in the order of the given nodes, and at the same node in the order of its ports. -/
def GView.PortBefore (G : GView E) (order : List Nat) (d : Direction) (p q : Nat) : Prop :=
  ∃ m n, G.portNode p = some m ∧ G.portNode q = some n ∧
    ([m, n].Sublist order ∨ (m = n ∧ [p, q].Sublist (G.ports n d)))

/-- The port has the direction `d`, belongs to one of the nodes and has a link to another node. -/
def GView.Crosses (G : GView E) (order : List Nat) (d : Direction) (p : Nat) : Prop :=
  G.portDirection p = some d ∧ (∃ n ∈ order, G.portNode p = some n) ∧
    ∃ e f m, G.Shows e f ∧ G.toPort e = p ∧ G.On f m ∧ m ∉ order

/-! ## Proof -/

theorem not_both {l : List Nat} (h : l.Nodup) {a b : Nat} (h1 : [a, b].Sublist l) (h2 : [b, a].Sublist l) : False := by
  induction l with
  | nil => cases h1
  | cons x l ih =>
    obtain ⟨hx, hl⟩ := List.nodup_cons.1 h
    cases h1 with
    | cons _ h1 =>
      cases h2 with
      | cons _ h2 => exact ih hl h1 h2
      | cons_cons _ h2 => exact hx (h1.subset (by simp))
    | cons_cons _ h1 =>
      cases h2 with
      | cons _ h2 => exact hx (h2.subset (by simp))
      | cons_cons _ h2 => exact hx (h1.subset (by simp))

theorem not_portBefore (ok : G.Ok) (hn : order.Nodup) {d : Direction} {p q : Nat} (h1 : G.PortBefore order d p q)
    (h2 : G.PortBefore order d q p) : False := by
  obtain ⟨m, n, a1, a2, a3⟩ := h1
  obtain ⟨m', n', b1, b2, b3⟩ := h2
  rw [a2] at b1; cases b1
  rw [a1] at b2; cases b2
  have self : ∀ x, ¬ [x, x].Sublist order := fun x h => not_both hn h h
  rcases a3 with a3 | ⟨rfl, a3⟩
  · rcases b3 with b3 | ⟨rfl, -⟩
    · exact not_both hn a3 b3
    · exact self _ a3
  · rcases b3 with b3 | ⟨-, b3⟩
    · exact self _ b3
    · exact not_both (ok.ports_nodup _ _) a3 b3

/-- Ports gathered node by node stand in this order. -/
theorem gathered_pairwise (ok : G.Ok) (d : Direction) (f : Nat → Bool) :
    (order.flatMap fun n => (G.ports n d).filter f).Pairwise (G.PortBefore order d) := by
  rw [List.pairwise_flatMap]
  constructor
  · intro n _
    refine List.Pairwise.filter _ (List.pairwise_iff_forall_sublist.2 fun {p q} h => ?_)
    exact ⟨n, n, ((ok.mem_ports _ _ _).1 (h.subset (by simp))).1, ((ok.mem_ports _ _ _).1 (h.subset (by simp))).1, .inr ⟨rfl, h⟩⟩
  · refine List.pairwise_iff_forall_sublist.2 fun {m n} h p hp q hq => ?_
    exact ⟨m, n, ((ok.mem_ports _ _ _).1 (List.mem_filter.1 hp).1).1, ((ok.mem_ports _ _ _).1 (List.mem_filter.1 hq).1).1, .inl h⟩

/-- Two lists with the same members, both in this order, are the same. -/
theorem same_list (ok : G.Ok) (hn : order.Nodup) {d : Direction} {l l' : List Nat} (h : l.Pairwise (G.PortBefore order d))
    (h' : l'.Pairwise (G.PortBefore order d)) (hm : ∀ p, p ∈ l ↔ p ∈ l') : l = l' := by
  induction l generalizing l' with
  | nil =>
    cases l' with
    | nil => rfl
    | cons y l' => exact absurd ((hm y).2 (by simp)) (by simp)
  | cons x l ih =>
    cases l' with
    | nil => exact absurd ((hm x).1 (by simp)) (by simp)
    | cons y l' =>
      obtain ⟨h1, h2⟩ := List.pairwise_cons.1 h
      obtain ⟨h1', h2'⟩ := List.pairwise_cons.1 h'
      have e : x = y := by
        by_contra hne
        have hx : x ∈ l' := (List.mem_cons.1 ((hm x).1 (by simp))).resolve_left hne
        have hy : y ∈ l := (List.mem_cons.1 ((hm y).2 (by simp))).resolve_left (Ne.symm hne)
        exact not_portBefore ok hn (h1 _ hy) (h1' _ hx)
      subst e
      have out : ∀ {k : List Nat}, (∀ a ∈ k, G.PortBefore order d x a) → x ∉ k := fun h hx => not_portBefore ok hn (h _ hx) (h _ hx)
      refine congrArg (x :: ·) (ih h2 h2' fun p => ?_)
      constructor
      · intro hp
        exact (List.mem_cons.1 ((hm p).1 (by simp [hp]))).resolve_left (by rintro rfl; exact out h1 hp)
      · intro hp
        exact (List.mem_cons.1 ((hm p).2 (by simp [hp]))).resolve_left (by rintro rfl; exact out h1' hp)

/-- **C94** The inputs and the outputs of the boundary stand in the order of the given nodes, those of one node in the order of
its ports. -/
theorem C94_with_nodes_order (ok : G.Ok) (order : List Nat) :
    (G.withNodes order).2.inputs.Pairwise (G.PortBefore order .incoming) ∧
    (G.withNodes order).2.outputs.Pairwise (G.PortBefore order .outgoing) :=
  ⟨gathered_pairwise ok .incoming _, gathered_pairwise ok .outgoing _⟩

/-- **C94** If no node is given twice, this determines the boundary: it is the only pair of lists in this order with the
ports of the nodes that have a link to another node. -/
theorem C94_determined (ok : G.Ok) (hn : order.Nodup) (B : Boundary) :
    (G.withNodes order).2 = B ↔
      (∀ p, p ∈ B.inputs ↔ G.Crosses order .incoming p) ∧ B.inputs.Pairwise (G.PortBefore order .incoming) ∧
      (∀ p, p ∈ B.outputs ↔ G.Crosses order .outgoing p) ∧ B.outputs.Pairwise (G.PortBefore order .outgoing) := by
  have hm := fun p => C36_with_nodes_boundary ok (order := order) p
  obtain ⟨ho1, ho2⟩ := C94_with_nodes_order ok order
  constructor
  · rintro rfl
    exact ⟨fun p => (hm p).1, ho1, fun p => (hm p).2, ho2⟩
  · rintro ⟨h1, h2, h3, h4⟩
    have e1 := same_list ok hn ho1 h2 fun p => ((hm p).1).trans (h1 p).symm
    have e2 := same_list ok hn ho2 h4 fun p => ((hm p).2).trans (h3 p).symm
    cases B
    cases hB : (G.withNodes order).2
    rw [hB] at e1 e2
    simp_all

/-- **C94** No port is on the boundary twice if no node is given twice. -/
theorem C94_nodup (ok : G.Ok) (hn : order.Nodup) : (G.withNodes order).2.inputs.Nodup ∧ (G.withNodes order).2.outputs.Nodup := by
  obtain ⟨h1, h2⟩ := C94_with_nodes_order ok order
  refine ⟨h1.imp ?_, h2.imp ?_⟩ <;>
  · rintro p q h rfl
    exact not_portBefore ok hn h h

/-- **C94** A node given twice has its ports on the boundary twice; the set of nodes has it once. -/
theorem C94_witness_twice : exV.withNodes [1, 1] = ([1], ⟨[2, 2], [3, 3]⟩) := by decide +kernel

/-! ## The hypotheses can be met -/

example : exV.withNodes [3, 1] = ([1, 3], ⟨[7, 2], [9]⟩) ∧ exV.withNodes [1, 3] = ([1, 3], ⟨[2, 7], [9]⟩) := by decide +kernel
example := C94_with_nodes_order exV_ok.1 [3, 1]
example := (C94_determined exV_ok.1 (order := [3, 1]) (by decide) ⟨[7, 2], [9]⟩).1 (by decide +kernel)
example := C94_nodup exV_ok.1 (order := [4, 2, 0]) (by decide)

#print axioms C94_with_nodes_order
#print axioms C94_determined
#print axioms C94_nodup
#print axioms C94_witness_twice

end Verif.View
