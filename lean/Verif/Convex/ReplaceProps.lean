import Verif.ViewAlgo.LineProps
import Verif.Agree.Lemmas

/-!
# C92: what convexity is good for

`is_node_convex` decides whether a set of nodes can be taken for one node: on a graph without cycles it holds exactly if
the graph stays without cycles when the set is contracted to one node, and exactly if the nodes of the graph
can be put in topological order with the set in one piece. The specification below speaks of arcs and lists only, not of
paths that leave the set.
-/

namespace Verif.Convex

open Verif (Direction)
open Verif.PG Verif.Algo Verif.Agree
open Verif.View (GView)

variable {R : Nat → Nat → Prop} {V : Nat → Prop} {S : List Nat}

/-! ## Specification -/

/-- The nodes after the contraction of `S`: `none` stands for the whole of `S`. -/
def contracted (S : List Nat) (n : Nat) : Option Nat := if n ∈ S then none else some n

/-- The arcs after the contraction of `S`; arcs within `S` are dropped. -/
def ContractedArc (R : Nat → Nat → Prop) (S : List Nat) (a b : Option Nat) : Prop :=
  a ≠ b ∧ ∃ m n, R m n ∧ contracted S m = a ∧ contracted S n = b

/-- A topological order in which the nodes of `S` stand next to each other. -/
def Together (V : Nat → Prop) (R : Nat → Nat → Prop) (S : List Nat) : Prop :=
  ∃ A B C : List Nat, (A ++ B ++ C).Nodup ∧ (∀ n, n ∈ A ++ B ++ C ↔ V n) ∧ (∀ m n, R m n → Before (A ++ B ++ C) m n) ∧
    ∀ n, n ∈ B ↔ n ∈ S

/-! ## Contraction -/

theorem contracted_none {n : Nat} : contracted S n = none ↔ n ∈ S := by
  unfold contracted; split <;> simp_all

theorem contracted_some {n x : Nat} : contracted S n = some x ↔ n = x ∧ x ∉ S := by
  unfold contracted; split
  · rename_i h; simp; rintro rfl; exact h
  · rename_i h; simp; rintro rfl; exact h

/-- A path of the contraction is a path of the graph or passes through `S`. -/
theorem contracted_path {a b : Option Nat} (h : Relation.TransGen (ContractedArc R S) a b) :
    (∃ m n, contracted S m = a ∧ contracted S n = b ∧ Relation.TransGen R m n) ∨
    (∃ m s, contracted S m = a ∧ s ∈ S ∧ Relation.TransGen R m s) ∧
      ∃ t n, t ∈ S ∧ contracted S n = b ∧ Relation.TransGen R t n := by
  induction h with
  | single h =>
    obtain ⟨-, m, n, h1, h2, h3⟩ := h
    exact .inl ⟨m, n, h2, h3, .single h1⟩
  | @tail b c _ h ih =>
    obtain ⟨-, u, v, h1, h2, h3⟩ := h
    cases b with
    | none =>
      rw [contracted_none] at h2
      rcases ih with ⟨m, n, h4, h5, h6⟩ | ⟨h4, -⟩
      · exact .inr ⟨⟨m, n, h4, contracted_none.1 h5, h6⟩, u, v, h2, h3, .single h1⟩
      · exact .inr ⟨h4, u, v, h2, h3, .single h1⟩
    | some x =>
      obtain ⟨rfl, -⟩ := contracted_some.1 h2
      rcases ih with ⟨m, n, h4, h5, h6⟩ | ⟨h4, t, n, h5, h6, h7⟩
      · obtain ⟨rfl, -⟩ := contracted_some.1 h5
        exact .inl ⟨m, v, h4, h3, h6.tail h1⟩
      · obtain ⟨rfl, -⟩ := contracted_some.1 h6
        exact .inr ⟨h4, t, v, h5, h3, h7.tail h1⟩

theorem path_contracted {m n : Nat} (h : Relation.ReflTransGen R m n) :
    Relation.ReflTransGen (ContractedArc R S) (contracted S m) (contracted S n) := by
  induction h with
  | refl => exact .refl
  | @tail b c _ h ih =>
    by_cases e : contracted S b = contracted S c
    · rw [← e]; exact ih
    · exact ih.tail ⟨e, b, c, h, rfl, rfl⟩

theorem convex_iff_contracted (hac : Acyclic R) :
    Convex R S ↔ ∀ a, ¬ Relation.TransGen (ContractedArc R S) a a := by
  constructor
  · intro hc
    have key : ∀ x, ¬ Relation.TransGen (ContractedArc R S) (some x) (some x) := by
      intro x h
      rcases contracted_path h with ⟨m, n, h1, h2, h3⟩ | ⟨⟨m, s, h1, h2, h3⟩, t, n, h4, h5, h6⟩
      · obtain ⟨rfl, -⟩ := contracted_some.1 h1
        obtain ⟨rfl, -⟩ := contracted_some.1 h2
        exact hac _ h3
      · obtain ⟨rfl, hx⟩ := contracted_some.1 h1
        obtain ⟨rfl, -⟩ := contracted_some.1 h5
        exact hx (hc t h4 s h2 n h6.to_reflTransGen h3.to_reflTransGen)
    intro a h
    cases a with
    | some x => exact key x h
    | none =>
      obtain ⟨b, h1, h2⟩ := (Relation.TransGen.head'_iff).1 h
      cases b with
      | none => exact h1.1 rfl
      | some x =>
        exact key x (Relation.TransGen.tail'_iff.2 ⟨none, h2, h1⟩)
  · intro h s hs t ht x h1 h2
    by_contra hx
    have h3 := path_contracted (S := S) h1
    have h4 := path_contracted (S := S) h2
    rw [contracted_none.2 hs, contracted_some.2 ⟨rfl, hx⟩] at h3
    rw [contracted_none.2 ht, contracted_some.2 ⟨rfl, hx⟩] at h4
    rcases Relation.reflTransGen_iff_eq_or_transGen.1 h3 with h5 | h5
    · cases h5
    · exact h none (h5.trans_left h4)

/-! ## Orders -/

theorem before_left {l r : List Nat} {m n : Nat} (h : Before l m n) : Before (l ++ r) m n := by
  obtain ⟨a, b, rfl, h1⟩ := h
  exact ⟨a, b ++ r, by simp, h1⟩

theorem before_right {l r : List Nat} {m n : Nat} (h : Before r m n) : Before (l ++ r) m n := by
  obtain ⟨a, b, rfl, h1⟩ := h
  exact ⟨l ++ a, b, by simp, by simp [h1]⟩

theorem before_across {l r : List Nat} {m n : Nat} (h1 : m ∈ l) (h2 : n ∈ r) : Before (l ++ r) m n := by
  obtain ⟨a, b, rfl⟩ := List.append_of_mem h2
  exact ⟨l ++ a, b, by simp, by simp [h1]⟩

theorem before_filter {l : List Nat} {m n : Nat} {p : Nat → Bool} (h : Before l m n) (hm : p m = true) (hn : p n = true) :
    Before (l.filter p) m n := by
  obtain ⟨a, b, rfl, h1⟩ := h
  exact ⟨a.filter p, b.filter p, by simp [hn], List.mem_filter.2 ⟨h1, hm⟩⟩

/-- What stands before a node of the first part is in the first part. -/
theorem before_first {l r : List Nat} {m n : Nat} (hnd : (l ++ r).Nodup) (h : Before (l ++ r) m n) (hn : n ∈ l) : m ∈ l := by
  obtain ⟨a, b, e, h1⟩ := h
  rcases List.append_eq_append_iff.1 e with ⟨c, rfl, h2⟩ | ⟨c, rfl, h2⟩
  · rw [h2] at hnd
    have := List.disjoint_of_nodup_append hnd hn
    simp at this
  · exact List.mem_append_left _ h1

open Classical in
theorem convex_iff_together {l : List Nat} (hnd : l.Nodup) (hl : ∀ n, n ∈ l ↔ V n) (hb : ∀ m n, R m n → Before l m n)
    (hS : ∀ n ∈ S, V n) : Convex R S ↔ Together V R S := by
  constructor
  · intro hc
    let up : Nat → Prop := fun n => n ∉ S ∧ ∃ s ∈ S, Relation.ReflTransGen R n s
    refine ⟨l.filter fun n => decide (up n), l.filter fun n => decide (n ∈ S), l.filter fun n => decide (n ∉ S ∧ ¬ up n), ?_, fun n => ?_,
      fun m n h => ?_, fun n => ?_⟩
    · rw [List.nodup_append, List.nodup_append]
      refine ⟨⟨hnd.filter _, hnd.filter _, ?_⟩, hnd.filter _, ?_⟩
      · rintro a ha b hb rfl
        simp only [List.mem_filter, decide_eq_true_eq] at ha hb
        exact ha.2.1 hb.2
      · rintro a ha b hb rfl
        simp only [List.mem_append, List.mem_filter, decide_eq_true_eq] at ha hb
        rcases ha with ha | ha
        · exact hb.2.2 ha.2
        · exact hb.2.1 ha.2
    · simp only [List.mem_append, List.mem_filter, decide_eq_true_eq, hl]
      by_cases h1 : n ∈ S
      · simp [h1, up]
      · by_cases h2 : up n <;> simp [h1, h2]
    · have h1 := hb m n h
      obtain ⟨h2, h3⟩ := before_index h1
      have hup : n ∈ S ∨ up n → m ∈ S ∨ up m := by
        intro hn
        by_cases hm : m ∈ S
        · exact .inl hm
        · refine .inr ⟨hm, ?_⟩
          rcases hn with hn | ⟨-, s, hs, hn⟩
          · exact ⟨n, hn, .single h⟩
          · exact ⟨s, hs, .head h hn⟩
      have hconv : up n → m ∉ S := by
        rintro ⟨hn, s, hs, h4⟩ hm
        exact hn (hc m hm s hs n (.single h) h4)
      by_cases hn : n ∈ S
      · by_cases hm : m ∈ S
        · exact before_left (before_right (before_filter h1 (by simpa using hm) (by simpa using hn)))
        · have := (hup (.inl hn)).resolve_left hm
          exact before_left (before_across (List.mem_filter.2 ⟨h2, by simpa using this⟩) (List.mem_filter.2 ⟨h3, by simpa using hn⟩))
      · by_cases hn' : up n
        · have hm := hconv hn'
          have := (hup (.inr hn')).resolve_left hm
          exact before_left (before_left (before_filter h1 (by simpa using this) (by simpa using hn')))
        · have h5 : n ∈ l.filter fun n => decide (n ∉ S ∧ ¬ up n) := List.mem_filter.2 ⟨h3, by simpa using ⟨hn, hn'⟩⟩
          by_cases hm : m ∈ S
          · exact before_across (List.mem_append_right _ (List.mem_filter.2 ⟨h2, by simpa using hm⟩)) h5
          · by_cases hm' : up m
            · exact before_across (List.mem_append_left _ (List.mem_filter.2 ⟨h2, by simpa using hm'⟩)) h5
            · exact before_right (before_filter h1 (by simpa using ⟨hm, hm'⟩) (by simpa using ⟨hn, hn'⟩))
    · simp only [List.mem_filter, decide_eq_true_eq, hl, and_iff_right_iff_imp]
      exact hS n
  · rintro ⟨A, B, C, h1, h2, h3, h4⟩ s hs t ht x h5 h6
    rcases Relation.reflTransGen_iff_eq_or_transGen.1 h5 with rfl | h5
    · exact hs
    rcases Relation.reflTransGen_iff_eq_or_transGen.1 h6 with rfl | h6
    · exact ht
    have b1 := before_path h1 h3 h5
    have b2 := before_path h1 h3 h6
    have hx := (before_index b1).2
    rw [List.mem_append, List.mem_append] at hx
    rcases hx with (hx | hx) | hx
    · rw [List.append_assoc] at h1 b1
      have h7 := before_first h1 b1 hx
      exact ((List.disjoint_of_nodup_append h1) h7 (List.mem_append_left _ ((h4 s).2 hs))).elim
    · exact (h4 x).1 hx
    · have h7 := before_first h1 b2 (List.mem_append_right _ ((h4 t).2 ht))
      exact ((List.disjoint_of_nodup_append h1) h7 hx).elim

/-! ## The checkers -/

/-- **C92** On a port graph without cycles, `is_node_convex(S)` of the topological checker holds exactly if contracting `S` to
one node makes no cycle. -/
theorem C92_contract {maxOff : Nat} (hmax : maxOff ≤ 32767) {g : PG} (hg : PG.Reach maxOff g) (hac : Acyclic (Arc g .outgoing))
    {S : List Nat} (hS : ∀ n ∈ S, g.containsNode n = true) :
    ∃ c r, Topo.new (ofPG g) = some c ∧ c.isNodeConvex S = some r ∧
      (r = true ↔ ∀ a, ¬ Relation.TransGen (ContractedArc (Arc g .outgoing) S) a a) := by
  obtain ⟨c, r, h1, h2, h3⟩ := C31_is_node_convex hmax hg hac hS
  exact ⟨c, r, h1, h2, h3.trans (convex_iff_contracted hac)⟩

/-- **C92** It holds exactly if the nodes of the graph have a topological order with the nodes of `S` in one piece. -/
theorem C92_together {maxOff : Nat} (hmax : maxOff ≤ 32767) {g : PG} (hg : PG.Reach maxOff g) (hac : Acyclic (Arc g .outgoing))
    {S : List Nat} (hS : ∀ n ∈ S, g.containsNode n = true) :
    ∃ c r, Topo.new (ofPG g) = some c ∧ c.isNodeConvex S = some r ∧
      (r = true ↔ Together (fun n => g.containsNode n = true) (Arc g .outgoing) S) := by
  obtain ⟨c, r, h1, h2, h3⟩ := C31_is_node_convex hmax hg hac hS
  obtain ⟨l, -, h4, h5, h6⟩ := C31_new hmax hg hac
  exact ⟨c, r, h1, h2, h3.trans (convex_iff_together h4 h5 h6 hS)⟩

/-- **C92** The same for the line checker, for a list of distinct nodes that is not empty (C32). -/
theorem C92_line_partial {maxOff : Nat} (hmax : maxOff ≤ 32767) {g : PG} (hg : PG.Reach maxOff g) (hac : Acyclic (Arc g .outgoing))
    {guess : Line.Guess} (hgs : guess.OK) {S : List Nat} (hne : S ≠ []) (hnd : S.Nodup) (hS : ∀ n ∈ S, g.containsNode n = true) :
    ∃ c r, Line.new (ofPG g) = some c ∧ c.isNodeConvex guess S = some r ∧
      (r = true ↔ ∀ a, ¬ Relation.TransGen (ContractedArc (Arc g .outgoing) S) a a) ∧
      (r = true ↔ Together (fun n => g.containsNode n = true) (Arc g .outgoing) S) := by
  obtain ⟨c, r, h1, h2, h3⟩ := C32_is_node_convex_partial hmax hg hac hgs hne hnd hS
  obtain ⟨l, -, h4, h5, h6⟩ := C31_new hmax hg hac
  exact ⟨c, r, h1, h2, h3.trans (convex_iff_contracted hac), h3.trans (convex_iff_together h4 h5 h6 hS)⟩

/-- **C92** The same for a view with at most one link at each incoming port (C53, C54), for both checkers. -/
theorem C92_view_partial {E : Type} {G : GView E} (ok : G.Ok) (hs : G.SingleIn .outgoing) (hac : Acyclic (G.ArcD .outgoing)) {S : List Nat}
    (hS : ∀ n ∈ S, G.containsNode n = true) :
    (∃ c r, Topo.new G.algo = some c ∧ c.isNodeConvex S = some r ∧
      (r = true ↔ ∀ a, ¬ Relation.TransGen (ContractedArc (G.ArcD .outgoing) S) a a) ∧
      (r = true ↔ Together (fun n => G.containsNode n = true) (G.ArcD .outgoing) S)) ∧
    ∀ c guess, Line.new G.algo = some c → guess.OK → S ≠ [] → S.Nodup → ∃ r, c.isNodeConvex guess S = some r ∧
      (r = true ↔ ∀ a, ¬ Relation.TransGen (ContractedArc (G.ArcD .outgoing) S) a a) ∧
      (r = true ↔ Together (fun n => G.containsNode n = true) (G.ArcD .outgoing) S) := by
  classical
  obtain ⟨l, s, -, h4, h5, h6, -⟩ := View.C53_toposort_acyclic_partial ok hs false
    (S := G.nodes.filter fun n => decide (∀ m, ¬ G.ArcD .outgoing m n)) (ok.nodes_nodup.filter _) hac (by
      intro n
      rw [List.mem_filter, ok.mem_nodes, decide_eq_true_eq])
  refine ⟨?_, fun c guess hc hgs hne hnd => ?_⟩
  · obtain ⟨c, r, h1, h2, h3⟩ := View.C53_is_node_convex_partial ok hs hac hS
    exact ⟨c, r, h1, h2, h3.trans (convex_iff_contracted hac), h3.trans (convex_iff_together h4 h5 h6 hS)⟩
  · obtain ⟨r, h2, h3⟩ := View.C54_is_node_convex_partial ok hs hac hc hgs hne hnd hS
    exact ⟨r, h2, h3.trans (convex_iff_contracted hac), h3.trans (convex_iff_together h4 h5 h6 hS)⟩

/-- With several links at an incoming port the checker is wrong (C53): it calls a set convex although contracting it makes a
cycle. -/
theorem C92_witness_multi :
    ((Topo.new (Multi.ofMG View.joinM 8 8).algo).bind fun c => c.isNodeConvex [0, 1]) = some true ∧
    Relation.TransGen (ContractedArc ((Multi.ofMG View.joinM 8 8).ArcD .outgoing) [0, 1]) none none := by
  have h1 : (Multi.ofMG View.joinM 8 8).ArcD .outgoing 0 2 :=
    View.arc_of_portLinks (Multi.ofMG_ok View.joinM_ok 8 8) (p := 1) (e := (1, 0)) (f := (3, 0)) (by decide +kernel)
      (by decide +kernel) (by decide +kernel)
  exact ⟨by decide +kernel, .tail (.single (b := some 2) ⟨by simp, 0, 2, h1, by decide, by decide⟩)
    ⟨by simp, 2, 1, View.C53_witness_toposort_multi.2, by decide, by decide⟩⟩

/-! ## The hypotheses can be met -/

example := C92_contract (by decide) dagG_reach dagG_acyclic (S := [0, 3]) (by decide +kernel)
example := C92_together (by decide) dagG_reach dagG_acyclic (S := [1, 3]) (by decide +kernel)
example := C92_line_partial (by decide) dagG_reach dagG_acyclic middle_ok (S := [1, 3]) (by simp) (by decide) (by decide +kernel)
example := C92_view_partial (Multi.ofMG_ok View.fanM_ok 8 8) View.fanM_singleIn View.fanM_acyclic (S := [0, 1]) (by decide +kernel)

/-- In the diamond 0 → 1, 2 → 3 → 4, the nodes 1 and 3 are convex; 0 and 3 are not, and contracting them makes a
cycle. -/
example : ((Topo.new (ofPG dagG)).bind fun c => c.isNodeConvex [1, 3]) = some true ∧
    ∃ a, Relation.TransGen (ContractedArc (Arc dagG .outgoing) [0, 3]) a a := by
  refine ⟨by decide +kernel, ?_⟩
  obtain ⟨c, r, h1, h2, h3⟩ := C92_contract (by decide) dagG_reach dagG_acyclic (S := [0, 3]) (by decide +kernel)
  have h4 : ((Topo.new (ofPG dagG)).bind fun c => c.isNodeConvex [0, 3]) = some false := by decide +kernel
  rw [h1, Option.bind_some, h2] at h4
  cases h4
  by_contra h5
  exact absurd (h3.2 fun a ha => h5 ⟨a, ha⟩) (by decide)

/-- An order with the nodes 1 and 3 in one piece. -/
example : Together (fun n => dagG.containsNode n = true) (Arc dagG .outgoing) [1, 3] := by
  obtain ⟨c, r, h1, h2, h3⟩ := C92_together (by decide) dagG_reach dagG_acyclic (S := [1, 3]) (by decide +kernel)
  have h4 : ((Topo.new (ofPG dagG)).bind fun c => c.isNodeConvex [1, 3]) = some true := by decide +kernel
  rw [h1, Option.bind_some, h2] at h4
  cases h4
  exact h3.1 rfl

#print axioms C92_contract
#print axioms C92_together
#print axioms C92_line_partial
#print axioms C92_view_partial
#print axioms C92_witness_multi

end Verif.Convex
