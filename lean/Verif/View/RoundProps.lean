import Verif.View.Props
import Mathlib.Data.List.Sort

/-!
# C71: subgraphs by nodes and by boundary

`Subgraph::with_nodes` finds the boundary of a set of nodes and `Subgraph::new_subgraph` the nodes inside a boundary. The
theorems say how far one undoes the other.
-/

namespace Verif.View

open Verif (Direction)

variable {E : Type} {G : GView E}

/-- The node has a link to a node outside the set. -/
def GView.Leaves (G : GView E) (S : List Nat) (n : Nat) : Prop :=
  ∃ e f m, G.Shows e f ∧ G.On e n ∧ G.On f m ∧ m ∉ S

/-- Two nodes of the set with a link between them. -/
def GView.Near (G : GView E) (S : List Nat) (a b : Nat) : Prop :=
  a ∈ S ∧ b ∈ S ∧ ∃ e f, G.Shows e f ∧ G.On e a ∧ G.On f b

theorem on_unique {e : E} {a b : Nat} (h : G.On e a) (h' : G.On e b) : a = b := by
  unfold GView.On at h h'; rw [h] at h'; exact Option.some.inj h'

/-- The ports of the boundary of a set of nodes. -/
theorem mem_boundary (ok : G.Ok) {order : List Nat} (p : Nat) : p ∈ (G.withNodes order).2.ports ↔
    (∃ n ∈ order, G.portNode p = some n) ∧ ∃ e f m, G.Shows e f ∧ G.toPort e = p ∧ G.On f m ∧ m ∉ order := by
  obtain ⟨h1, h2⟩ := C36_with_nodes_boundary ok (order := order) p
  unfold Boundary.ports
  rw [List.mem_append, h1, h2]
  constructor
  · rintro (h | h) <;> exact h.2
  · rintro ⟨⟨n, hn, hp⟩, h⟩
    obtain ⟨d, hd⟩ := ok.port_dir _ _ hp
    cases d
    · exact .inl ⟨hd, ⟨n, hn, hp⟩, h⟩
    · exact .inr ⟨hd, ⟨n, hn, hp⟩, h⟩

/-- The nodes inside the boundary of a set are those of the set that are connected, within the set, to a node with a
link leaving it. -/
theorem inner_boundary (ok : G.Ok) (hs : G.Single) {order : List Nat} (n : Nat) :
    G.Inner (G.withNodes order).2.ports n ↔
      ∃ t ∈ order, G.Leaves order t ∧ Relation.ReflTransGen (G.Near order) t n := by
  have hmem := mem_boundary ok (order := order)
  constructor
  · intro h
    induction h with
    | start hp hn =>
      obtain ⟨⟨n', h1, h2⟩, e, f, m, h3, h4, h5, h6⟩ := (hmem _).1 hp
      rw [hn] at h2; cases h2
      exact ⟨_, h1, ⟨e, f, m, h3, by unfold GView.On; rw [h4]; exact hn, h5, h6⟩, .refl⟩
    | @step e f n m hi hsh hen hfm he hf ih =>
      obtain ⟨t, h1, h2, h3⟩ := ih
      have hn : n ∈ order := by
        rcases Relation.ReflTransGen.cases_tail h3 with rfl | ⟨_, _, hc⟩
        · exact h1
        · exact hc.2.1
      have hm : m ∈ order := by
        by_contra hm
        exact he ((hmem _).2 ⟨⟨n, hn, hen⟩, e, f, m, hsh, rfl, hfm, hm⟩)
      exact ⟨t, h1, h2, h3.tail ⟨hn, hm, e, f, hsh, hen, hfm⟩⟩
  · rintro ⟨t, h1, ⟨e, f, m, h3, h4, h5, h6⟩, h7⟩
    induction h7 with
    | refl => exact .start ((hmem _).2 ⟨⟨t, h1, h4⟩, e, f, m, h3, rfl, h5, h6⟩) h4
    | @tail b c _ hbc ih =>
      obtain ⟨hb, hc, e', f', g1, g2, g3⟩ := hbc
      have hno : ∀ {x y : E} {a b : Nat}, G.Shows x y → G.On x a → G.On y b → b ∈ order → G.toPort x ∉ (G.withNodes order).2.ports := by
        intro x y a b hxy hx hy hb hp
        obtain ⟨-, x', y', k, k1, k2, k3, k4⟩ := (hmem _).1 hp
        have k5 := shows_portLink ok hs k1
        have k6 := shows_portLink ok hs hxy
        rw [k2, k6] at k5; cases k5
        exact k4 (on_unique hy k3 ▸ hb)
      exact .step ih g1 g2 g3 (hno g1 g2 g3 hc) (hno (ok.shows_sym _ _ g1) g3 g2 hb)

/-- **C71** The nodes of `new_subgraph` with the boundary of `with_nodes(nodes)`: if no link leaves the given nodes these
are all nodes of the graph, otherwise the given nodes that are connected within the set to a node with a link leaving it. -/
theorem C71_nodes_of_boundary (ok : G.Ok) (hs : G.Single) {order : List Nat} (hin : ∀ n ∈ order, G.containsNode n = true) :
    ∃ nodes, G.newSubgraph (G.withNodes order).2 = some nodes ∧ ∀ n, n ∈ nodes ↔
      ((∀ t ∈ order, ¬ G.Leaves order t) ∧ G.containsNode n = true) ∨
      ∃ t ∈ order, G.Leaves order t ∧ Relation.ReflTransGen (G.Near order) t n := by
  have hmem := mem_boundary ok (order := order)
  obtain ⟨nodes, h1, h2, -⟩ := C36_new_subgraph_partial ok hs (B := (G.withNodes order).2) (fun p hp => by
    obtain ⟨⟨n, h3, h4⟩, -⟩ := (hmem p).1 hp
    exact (ok.port_iff p).2 ⟨n, h4, hin n h3⟩)
  refine ⟨nodes, h1, fun n => ?_⟩
  have h3 := h2 n
  rw [show (G.subgraph nodes).containsNode n = nodes.contains n from rfl, List.contains_iff_mem] at h3
  rw [h3]
  have hempty : (G.withNodes order).2.ports = [] ↔ ∀ t ∈ order, ¬ G.Leaves order t := by
    rw [List.eq_nil_iff_forall_not_mem]
    constructor
    · rintro h t ht ⟨e, f, m, h4, h5, h6, h7⟩
      exact h _ ((hmem _).2 ⟨⟨t, ht, h5⟩, e, f, m, h4, rfl, h6, h7⟩)
    · rintro h p hp
      obtain ⟨⟨t, h4, h5⟩, e, f, m, h6, h7, h8, h9⟩ := (hmem p).1 hp
      exact h t h4 ⟨e, f, m, h6, by unfold GView.On; rw [h7]; exact h5, h8, h9⟩
  split
  · next he =>
    have := hempty.1 he
    constructor
    · exact fun h => .inl ⟨this, h⟩
    · rintro (h | ⟨t, h4, h5, -⟩)
      · exact h.2
      · exact absurd h5 (this t h4)
  · next he =>
    rw [inner_boundary ok hs]
    constructor
    · exact .inr
    · rintro (h | h)
      · exact absurd (hempty.2 h.1) he
      · exact h

theorem toSet_ext {l l' : List Nat} (h : ∀ n, n ∈ l ↔ n ∈ l') : toSet l = toSet l' :=
  (toSet_sorted l).eq_of_mem_iff (toSet_sorted l') fun n => by rw [mem_toSet, mem_toSet, h]

theorem toSet_toSet (l : List Nat) : toSet (toSet l) = toSet l := toSet_ext fun _ => mem_toSet

/-- **C71** The two constructors give the same subgraph exactly if the given nodes are all nodes, or each of them is
connected within the set to a node with a link leaving it. -/
theorem C71_with_nodes_round_trip (ok : G.Ok) (hs : G.Single) {order : List Nat} (hin : ∀ n ∈ order, G.containsNode n = true) :
    G.newSubgraph (G.withNodes order).2 = some (G.withNodes order).1 ↔
      (∀ n, G.containsNode n = true → n ∈ order) ∨
      (order ≠ [] ∧ ∀ n ∈ order, ∃ t ∈ order, G.Leaves order t ∧ Relation.ReflTransGen (G.Near order) t n) := by
  obtain ⟨nodes, h1, h2⟩ := C71_nodes_of_boundary ok hs hin
  have hfirst : (G.withNodes order).1 = toSet order := rfl
  rw [h1, Option.some.injEq, hfirst]
  have hsort : nodes = toSet nodes := by
    unfold GView.newSubgraph at h1
    rw [Option.map_eq_some_iff] at h1
    obtain ⟨l, -, rfl⟩ := h1
    exact (toSet_toSet l).symm
  have hback : ∀ t n, t ∈ order → Relation.ReflTransGen (G.Near order) t n → n ∈ order := by
    intro t n ht h
    rcases Relation.ReflTransGen.cases_tail h with rfl | ⟨_, _, hc⟩
    · exact ht
    · exact hc.2.1
  constructor
  · intro h
    have hiff : ∀ n, n ∈ nodes ↔ n ∈ order := fun n => by rw [h, mem_toSet]
    by_cases hl : ∀ t ∈ order, ¬ G.Leaves order t
    · exact .inl fun n hn => (hiff n).1 ((h2 n).2 (.inl ⟨hl, hn⟩))
    · right
      refine ⟨fun he => hl (by simp [he]), fun n hn => ?_⟩
      rcases (h2 n).1 ((hiff n).2 hn) with h' | h'
      · exact absurd h'.1 hl
      · exact h'
  · intro h
    rw [hsort]
    refine toSet_ext fun n => ?_
    rw [h2]
    rcases h with h | ⟨hne, h⟩
    · have hl : ∀ t ∈ order, ¬ G.Leaves order t := by
        rintro t ht ⟨e, f, m, g1, g2, g3, g4⟩
        obtain ⟨_, _, m', -, -, -, h4, -, h5⟩ := ok.shows_dir _ _ g1
        rw [on_unique g3 h4] at g4
        exact g4 (h _ h5)
      constructor
      · rintro (h' | ⟨t, ht, h', -⟩)
        · exact h n h'.2
        · exact absurd h' (hl t ht)
      · exact fun h' => .inl ⟨hl, hin n h'⟩
    · constructor
      · rintro (h' | ⟨t, ht, -, h'⟩)
        · obtain ⟨x, hx⟩ := List.exists_mem_of_ne_nil _ hne
          obtain ⟨t, ht, h4, -⟩ := h x hx
          exact absurd h4 (h'.1 t ht)
        · exact hback t n ht h'
      · exact fun h' => .inr (h n h')

/-- **C71** The boundary of `with_nodes` for the nodes of `new_subgraph(boundary)` has the ports of this boundary whose
link leads to a node outside. -/
theorem C71_boundary_round_trip (ok : G.Ok) (hs : G.Single) {B : Boundary} (hB : ∀ p ∈ B.ports, G.containsPort p = true) :
    ∃ nodes, G.newSubgraph B = some nodes ∧ ∀ p, p ∈ (G.withNodes nodes).2.ports ↔
      p ∈ B.ports ∧ ∃ e f m, G.Shows e f ∧ G.toPort e = p ∧ G.On f m ∧ m ∉ nodes := by
  obtain ⟨nodes, h1, h2, -⟩ := C36_new_subgraph_partial ok hs hB
  have h3 : ∀ n, n ∈ nodes ↔ if B.ports = [] then G.containsNode n = true else G.Inner B.ports n := by
    intro n
    rw [← h2 n]
    show _ ↔ nodes.contains n = true
    rw [List.contains_iff_mem]
  refine ⟨nodes, h1, fun p => ?_⟩
  rw [mem_boundary ok]
  constructor
  · rintro ⟨⟨n, hn, hp⟩, e, f, m, g1, rfl, g3, g4⟩
    refine ⟨?_, e, f, m, g1, rfl, g3, g4⟩
    rw [h3] at hn g4
    by_cases he : B.ports = []
    · simp only [he, if_true] at g4
      obtain ⟨_, _, m', -, -, -, h4, -, h5⟩ := ok.shows_dir _ _ g1
      rw [on_unique g3 h4] at g4
      exact absurd h5 g4
    · simp only [he, if_false] at hn g4
      by_contra hno
      by_cases hf : G.toPort f ∈ B.ports
      · exact g4 (.start hf g3)
      · exact g4 (.step hn g1 hp g3 hno hf)
  · rintro ⟨hp, e, f, m, g1, rfl, g3, g4⟩
    obtain ⟨n, hn, hc⟩ := (ok.port_iff _).1 (hB _ hp)
    refine ⟨⟨n, ?_, hn⟩, e, f, m, g1, rfl, g3, g4⟩
    rw [h3]
    have : B.ports ≠ [] := List.ne_nil_of_mem hp
    simp only [this, if_false]
    exact .start hp hn

/-! ## Examples -/

-- two connected nodes of the diamond with a tail; both ways give the same subgraph
example : exV.newSubgraph (exV.withNodes [3, 1]).2 = some (exV.withNodes [3, 1]).1 := by decide +kernel
-- the isolated node 5 is lost
example : exV.newSubgraph (exV.withNodes [3, 1, 5]).2 = some [1, 3] := by decide +kernel
-- no link leaves the nodes 0 to 4, so the boundary is empty and the node 5 is added
example : (exV.withNodes [0, 1, 2, 3, 4]).2 = ⟨[], []⟩ ∧ exV.newSubgraph ⟨[], []⟩ = some [0, 1, 2, 3, 4, 5] := by decide +kernel
-- a boundary link with both ends inside is lost on the way back
example : exV.newSubgraph ⟨[2], [0]⟩ = some [0, 1, 2, 3, 4] ∧ (exV.withNodes [0, 1, 2, 3, 4]).2.ports = [] := by decide +kernel

/-- Failure: a set of nodes is not recovered from its boundary if a part of it has no link leaving the set. -/
theorem C71_witness_lost : exV.newSubgraph (exV.withNodes [3, 1, 5]).2 = some [1, 3] ∧ (exV.withNodes [3, 1, 5]).1 = [1, 3, 5] := by
  decide +kernel

example := C71_nodes_of_boundary exV_ok.1 exV_ok.2.2.2.2 (order := [3, 1, 5]) (by decide +kernel)

example := C71_with_nodes_round_trip exV_ok.1 exV_ok.2.2.2.2 (order := [3, 1]) (by decide +kernel)

#print axioms C71_nodes_of_boundary
#print axioms C71_with_nodes_round_trip
#print axioms C71_boundary_round_trip
#print axioms C71_witness_lost

end Verif.View
