import Verif.Boundary.Props
import Verif.ViewAlgo.Props

/-!
# C35 and C36 on multigraphs

Ports with several links: where the theorems apply, and where the code fails.
-/

namespace Verif.View

open Verif (Direction)
open Verif.Algo

/-- Nodes 0 to 4: the output of 0 is linked to 1 and 2, the output of 1 to 3; the first input is free. -/
def splitM : Multi.MG := Multi.built [.addNode 1 1, .addNode 1 1, .addNode 1 1, .addNode 1 0, .linkPorts 1 2, .linkPorts 1 4,
  .linkPorts 3 6]

theorem splitM_ok : (Multi.ofMG splitM 8 16).Ok := Multi.ofMG_ok ((Multi.built_reach _).ok (by decide) (by decide)) 8 16

example : (Multi.ofMG splitM 8 16).nodes = [0, 1, 2, 3] ∧
    (Multi.ofMG splitM 8 16).outLinks = [((1, 0), (2, 0)), ((1, 1), (4, 0)), ((3, 0), (6, 0))] := by decide +kernel

theorem splitM_singleIn : (Multi.ofMG splitM 8 16).SingleIn .outgoing := by
  intro n hn p hp
  have hn' : n ∈ (Multi.ofMG splitM 8 16).nodes := (splitM_ok.mem_nodes n).2 hn
  have e : (Multi.ofMG splitM 8 16).nodes = [0, 1, 2, 3] := by decide +kernel
  rw [e] at hn'
  have key : ∀ n ∈ [0, 1, 2, 3], ∀ p ∈ (Multi.ofMG splitM 8 16).ports n .incoming,
      ((Multi.ofMG splitM 8 16).portLinks p).length ≤ 1 := by
    decide +kernel
  exact key n hn' p hp

theorem splitM_shows {e f} (h : (Multi.ofMG splitM 8 16).Shows e f)
    (hd : (Multi.ofMG splitM 8 16).portDirection ((Multi.ofMG splitM 8 16).toPort e) = some .outgoing) :
    (e, f) ∈ [((1, 0), (2, 0)), ((1, 1), (4, 0)), ((3, 0), (6, 0))] := by
  obtain ⟨n, d, m, g1, g2, g3, -⟩ := splitM_ok.shows_dir e f h
  rw [hd] at g2; cases g2
  have hn' : n ∈ (Multi.ofMG splitM 8 16).nodes := (splitM_ok.mem_nodes n).2 g3
  have e1 : (Multi.ofMG splitM 8 16).nodes = [0, 1, 2, 3] := by decide +kernel
  rw [e1] at hn'
  have hp := (splitM_ok.mem_ports _ _ _).2 ⟨g1, hd⟩
  have key : ∀ n ∈ [0, 1, 2, 3], ∀ p ∈ (Multi.ofMG splitM 8 16).ports n .outgoing, ∀ x ∈ (Multi.ofMG splitM 8 16).portLinks p,
      x ∈ [((1, 0), (2, 0)), ((1, 1), (4, 0)), ((3, 0), (6, 0))] := by
    decide +kernel
  exact key n hn' _ hp _ h

theorem splitM_arc {a b : Nat} (h : (Multi.ofMG splitM 8 16).Arc a b) : a < b := by
  obtain ⟨e, f, h1, h2, h3, h4⟩ := h
  have := splitM_shows h1 h4
  have key : ∀ x ∈ [(((1, 0), (2, 0)) : Multi.Subport × Multi.Subport), ((1, 1), (4, 0)), ((3, 0), (6, 0))],
      ∀ a ∈ (Multi.ofMG splitM 8 16).portNode ((Multi.ofMG splitM 8 16).toPort x.1),
      ∀ b ∈ (Multi.ofMG splitM 8 16).portNode ((Multi.ofMG splitM 8 16).toPort x.2), a < b := by
    decide +kernel
  exact key _ this a h2 b h3

theorem splitM_acyclic : Acyclic (Multi.ofMG splitM 8 16).Arc := by
  intro n hc
  have : ∀ {a b}, Relation.TransGen (Multi.ofMG splitM 8 16).Arc a b → a < b := by
    intro a b h
    induction h with
    | single h => exact splitM_arc h
    | tail _ h ih => exact ih.trans (splitM_arc h)
  exact absurd (this hc) (by omega)

/-- An output with two links is passed: the free input reaches the free output behind the second link. -/
example := C35_port_ordering_partial (B := ⟨[0], [5]⟩) splitM_ok splitM_singleIn splitM_acyclic (by decide +kernel)
  (by decide +kernel) (by decide) (by decide)

example : (Multi.ofMG splitM 8 16).portOrdering ⟨[0], [5]⟩ = some ⟨[[0]], [[0]]⟩ := by decide +kernel

/-- The links of port 1 both stay inside. -/
example := C35_subgraph_multi_partial (order := [0, 1, 2]) splitM_ok splitM_singleIn splitM_acyclic (by decide) (by decide +kernel) (by
  intro e f e' f' a b h1 h2 h3 h4 h5 h6
  obtain ⟨n, d, m, g1, g2, g3, -⟩ := splitM_ok.shows_dir e f h1
  have hn' : n ∈ (Multi.ofMG splitM 8 16).nodes := (splitM_ok.mem_nodes n).2 g3
  have e1 : (Multi.ofMG splitM 8 16).nodes = [0, 1, 2, 3] := by decide +kernel
  rw [e1] at hn'
  have hp := (splitM_ok.mem_ports _ _ _).2 ⟨g1, g2⟩
  have key : ∀ n ∈ [0, 1, 2, 3], ∀ d ∈ [Direction.incoming, .outgoing], ∀ p ∈ (Multi.ofMG splitM 8 16).ports n d,
      ∀ x ∈ (Multi.ofMG splitM 8 16).portLinks p, ∀ y ∈ (Multi.ofMG splitM 8 16).portLinks p,
      ∀ a ∈ (Multi.ofMG splitM 8 16).portNode ((Multi.ofMG splitM 8 16).toPort x.2),
      ∀ b ∈ (Multi.ofMG splitM 8 16).portNode ((Multi.ofMG splitM 8 16).toPort y.2), a ∈ [0, 1, 2] → b ∈ [0, 1, 2] := by
    decide +kernel
  refine key n hn' d (by cases d <;> simp) _ hp (e, f) h1 (e', f') ?_ a h4 b h5 h6
  rw [h3]; exact h2)

/-- **C35 fails** for the subgraph of the nodes 0 and 1: the output of node 0 has a link to node 1 and a link that leaves,
so it is a port of the boundary and the search does not pass it. `port_ordering` panics on the subgraph and its own
boundary. -/
theorem C35_witness_fan_out : (Multi.ofMG splitM 8 16).withNodes [0, 1] = ([0, 1], ⟨[], [1, 3]⟩) ∧
    ((Multi.ofMG splitM 8 16).subgraph [0, 1]).portOrdering ⟨[], [1, 3]⟩ = none := by
  decide +kernel

/-- **C36 fails** for `new_subgraph` of a port with two links: the search follows only the first link of a port, so node 2,
which is linked with node 0 and not behind the boundary, is missing. -/
theorem C36_witness_multi : (Multi.ofMG splitM 8 16).newSubgraph ⟨[0], []⟩ = some [0, 1, 3] ∧
    (Multi.ofMG splitM 8 16).Inner [0] 2 := by
  refine ⟨by decide +kernel, ?_⟩
  refine .step (e := ((1, 1) : Multi.Subport)) (f := ((4, 0) : Multi.Subport)) (n := 0) (.start (p := 0) (by simp) ?_) ?_ ?_ ?_ ?_ ?_
  · decide +kernel
  · show ((1, 1), (4, 0)) ∈ (Multi.ofMG splitM 8 16).portLinks 1
    decide +kernel
  · show (Multi.ofMG splitM 8 16).portNode 1 = some 0
    decide +kernel
  · show (Multi.ofMG splitM 8 16).portNode 4 = some 2
    decide +kernel
  · show (1 : Nat) ∉ [0]
    simp
  · show (4 : Nat) ∉ [0]
    simp

#print axioms C35_subgraph_multi_partial
#print axioms C35_witness_fan_out
#print axioms C36_witness_multi

end Verif.View
