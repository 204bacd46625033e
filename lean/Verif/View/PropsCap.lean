import Verif.View.Props

/-!
# C48: capacities of views
-/

namespace Verif.View

open Verif (Direction)
open Verif.PG Verif.Hier

variable {E : Type}

/-- The capacities are large enough for what the view contains. -/
def GView.CapOk (G : GView E) : Prop := G.nodeCount ≤ G.nodeCapacity ∧ G.portCount ≤ G.portCapacity

/-- The two views have the same room for more nodes and ports. -/
def GView.SameRoom (G H : GView E) : Prop :=
  H.nodeCapacity - H.nodeCount = G.nodeCapacity - G.nodeCount ∧
    H.portCapacity - H.portCount = G.portCapacity - G.portCount

theorem restrict_cap (G : GView E) {inside nodes count empty} :
    (G.restrict inside nodes count empty).CapOk ∧ G.SameRoom (G.restrict inside nodes count empty) := by
  simp only [GView.CapOk, GView.SameRoom, GView.restrict]
  omega

/-- **C48** The base graph: the capacity of a vector is at least its length, which is at least the
number of live slots. -/
theorem C48_portgraph {maxOff : Nat} (hmax : maxOff ≤ 32767) {g : PG} (hg : PG.Reach maxOff g) {cn cp : Nat}
    (hn : g.nodeMeta.length ≤ cn) (hp : g.portMeta.length ≤ cp) : (ofPG g cn cp).CapOk := by
  obtain ⟨ok, -⟩ := view_of_portgraph hmax hg cn cp
  constructor
  · rw [ok.node_count]
    exact Nat.le_trans (Nat.le_trans (List.length_filter_le _ _) (by simp)) hn
  · rw [ok.port_count]
    exact Nat.le_trans (Nat.le_trans (List.length_filter_le _ _) (by simp)) hp

/-- **C48** A subgraph. -/
theorem C48_subgraph (G : GView E) (nodes : List Nat) :
    (G.subgraph nodes).CapOk ∧ G.SameRoom (G.subgraph nodes) :=
  restrict_cap G (inside := (nodes.contains ·)) (nodes := nodes) (count := nodes.length) (empty := nodes.isEmpty)

/-- **C48** A flat region. -/
theorem C48_flat_region (G : GView E) (h : Hierarchy) (root : Nat) (withRoot : Bool) :
    (G.flatRegion h root withRoot).CapOk ∧ G.SameRoom (G.flatRegion h root withRoot) := restrict_cap G

/-- **C48** A region. -/
theorem C48_region (G : GView E) (inside : Nat → Bool) (nodes : List Nat) :
    (G.region inside nodes).CapOk ∧ G.SameRoom (G.region inside nodes) := restrict_cap G

/-- **C48** A filtered graph reports the capacities of the graph below it, which are enough. -/
theorem C48_filtered {G : GView E} (ok : G.Ok) (hc : G.CapOk) (nf lf : Nat → Bool) :
    (G.filtered nf lf).CapOk ∧ (G.filtered nf lf).nodeCapacity = G.nodeCapacity ∧
      (G.filtered nf lf).portCapacity = G.portCapacity := by
  refine ⟨⟨?_, ?_⟩, rfl, rfl⟩
  · have : (G.filtered nf lf).nodeCount ≤ G.nodeCount := by
      rw [ok.node_count]; exact List.length_filter_le _ _
    exact Nat.le_trans this hc.1
  · have : (G.filtered nf lf).portCount ≤ G.portCount := by
      rw [ok.port_count]; exact List.length_filter_le _ _
    exact Nat.le_trans this hc.2

/-- The hypotheses can be met: a subgraph with two of six nodes in vectors with room for two more
nodes. -/
example : (ofPG Algo.dagG 8 16).CapOk ∧ (ofPG Algo.dagG 8 16).nodeCount = 6 ∧
    ((ofPG Algo.dagG 8 16).subgraph [1, 3]).nodeCapacity = 4 ∧ ((ofPG Algo.dagG 8 16).subgraph [1, 3]).nodeCount = 2 ∧
    ((ofPG Algo.dagG 8 16).filtered (fun n => n != 2) fun _ => true).nodeCount = 5 := by
  refine ⟨C48_portgraph (by decide) Algo.dagG_reach (by decide +kernel) (by decide +kernel), ?_⟩
  decide +kernel

#print axioms C48_portgraph
#print axioms C48_subgraph
#print axioms C48_flat_region
#print axioms C48_region
#print axioms C48_filtered

end Verif.View
