import Verif.View.Props

/-!
# C95: views keep the order of the graph

A filtered graph and a subgraph list their nodes, and the ports, links and neighbours of a node, in the order of the graph below,
so that results that depend on the order of the nodes do not change when nodes are left out. Regions list their nodes in
the order of the hierarchy instead.
-/

namespace Verif.View

open Verif (Direction)
open Verif.PG Verif.Hier

variable {E : Type} {G V W : GView E}

/-! ## Specification -/

/-- The lists of the view `V` come from those of `G` by leaving out items. -/
structure Keeps (V G : GView E) : Prop where
  nodes : V.nodes.Sublist G.nodes
  ports : ∀ n d, (V.ports n d).Sublist (G.ports n d)
  port_links : ∀ p, (V.portLinks p).Sublist (G.portLinks p)
  links : ∀ n d, (V.links n d).Sublist (G.links n d)
  all_links : ∀ n, (V.allLinks n).Sublist (G.allLinks n)
  connections : ∀ a b, (V.getConnections a b).Sublist (G.getConnections a b)
  neighbours : ∀ n d, V.containsNode n = true → (V.neighbours n d).Sublist (G.neighbours n d)
  all_neighbours : ∀ n, V.containsNode n = true → (V.allNeighbours n).Sublist (G.allNeighbours n)
  subports : ∀ n d, (V.subports n d).Sublist (G.subports n d)

/-! ## Proof -/

/-- Of two increasing lists, one with fewer members comes from the other by leaving out items. -/
theorem sublist_of_sorted {l l' : List Nat} (h : l.Pairwise (· < ·)) (h' : l'.Pairwise (· < ·)) (hs : ∀ x ∈ l, x ∈ l') : l.Sublist l' := by
  induction l' generalizing l with
  | nil =>
    cases l with
    | nil => exact .slnil
    | cons x l => exact absurd (hs x (by simp)) (by simp)
  | cons y l' ih =>
    obtain ⟨hy, hl'⟩ := List.pairwise_cons.1 h'
    cases l with
    | nil => exact List.nil_sublist _
    | cons x l =>
      obtain ⟨hx, hl⟩ := List.pairwise_cons.1 h
      by_cases e : x = y
      · subst e
        refine (ih hl hl' fun z hz => ?_).cons_cons _
        exact (List.mem_cons.1 (hs z (by simp [hz]))).resolve_left (by have := hx z hz; omega)
      · refine (ih h hl' fun z hz => ?_).cons _
        refine (List.mem_cons.1 (hs z hz)).resolve_left ?_
        rintro rfl
        rcases List.mem_cons.1 (hs x (by simp)) with h1 | h1
        · exact e h1
        · have := hy x h1
          rcases List.mem_cons.1 hz with h2 | h2
          · omega
          · have := hx _ h2
            omega

theorem sublist_of_map_some {l l' : List Nat} {ls : List (E × E)} {f : E × E → Option Nat} {b : E × E → Bool}
    (h : l.map some = ls.map f) (h' : l' = (ls.filter b).filterMap f) : l'.Sublist l := by
  have h1 : (ls.map f).filterMap id = l := by rw [← h]; simp [List.filterMap_map]
  rw [h', ← h1, List.filterMap_map]
  exact List.filter_sublist.filterMap _

theorem Keeps.trans (h : Keeps W V) (h' : Keeps V G) (hc : ∀ n, W.containsNode n = true → V.containsNode n = true) : Keeps W G where
  nodes := h.nodes.trans h'.nodes
  ports n d := (h.ports n d).trans (h'.ports n d)
  port_links p := (h.port_links p).trans (h'.port_links p)
  links n d := (h.links n d).trans (h'.links n d)
  all_links n := (h.all_links n).trans (h'.all_links n)
  connections a b := (h.connections a b).trans (h'.connections a b)
  neighbours n d hn := (h.neighbours n d hn).trans (h'.neighbours n d (hc n hn))
  all_neighbours n hn := (h.all_neighbours n hn).trans (h'.all_neighbours n (hc n hn))
  subports n d := (h.subports n d).trans (h'.subports n d)

/-- A restricted view keeps the order if its list of nodes does. -/
theorem restrict_keeps {inside : Nat → Bool} {nodes : List Nat} {count : Nat} {empty : Bool} (h : nodes.Sublist G.nodes) :
    Keeps (G.restrict inside nodes count empty) G where
  nodes := h
  ports _ _ := .refl _
  port_links _ := List.filter_sublist
  links _ _ := List.filter_sublist
  all_links _ := List.filter_sublist
  connections a b := by
    show (if inside a && inside b then G.getConnections a b else []).Sublist _
    split
    · exact .refl _
    · exact List.nil_sublist _
  neighbours _ _ _ := List.filter_sublist
  all_neighbours _ _ := List.filter_sublist
  subports _ _ := List.filter_sublist

theorem subgraph_keeps {nodes : List Nat} (h : nodes.Sublist G.nodes) : Keeps (G.subgraph nodes) G where
  nodes := h
  ports _ _ := .refl _
  port_links := (restrict_keeps (G := G) (inside := (nodes.contains ·)) (count := 0) (empty := true) h).port_links
  links := (restrict_keeps (G := G) (inside := (nodes.contains ·)) (count := 0) (empty := true) h).links
  all_links := (restrict_keeps (G := G) (inside := (nodes.contains ·)) (count := 0) (empty := true) h).all_links
  connections := (restrict_keeps (G := G) (inside := (nodes.contains ·)) (count := 0) (empty := true) h).connections
  neighbours := (restrict_keeps (G := G) (inside := (nodes.contains ·)) (count := 0) (empty := true) h).neighbours
  all_neighbours := (restrict_keeps (G := G) (inside := (nodes.contains ·)) (count := 0) (empty := true) h).all_neighbours
  subports _ _ := .refl _

/-- **C95** A filtered graph keeps the order of the graph below; its list of all ports does too. -/
theorem C95_filtered (ok : G.Ok) (nf lf : Nat → Bool) :
    Keeps (G.filtered nf lf) G ∧ (G.filtered nf lf).portsIter.Sublist G.portsIter := by
  refine ⟨⟨List.filter_sublist, fun _ _ => .refl _, fun _ => List.filter_sublist, fun _ _ => List.filter_sublist,
    fun _ => List.filter_sublist, fun _ _ => List.filter_sublist, fun n d hn => ?_, fun n hn => ?_, fun _ _ => List.filter_sublist⟩,
    List.filter_sublist⟩
  · have hn' : G.containsNode n = true := by
      have : (G.containsNode n && nf n) = true := hn
      simp_all
    exact sublist_of_map_some (ok.neighbours_eq n d hn') rfl
  · have hn' : G.containsNode n = true := by
      have : (G.containsNode n && nf n) = true := hn
      simp_all
    exact sublist_of_map_some (ok.all_neighbours n hn') rfl

/-- **C95** A subgraph made of given nodes keeps the order of a graph that lists its nodes in increasing order, whatever the order
of the given nodes. -/
theorem C95_with_nodes (ok : G.Ok) (hG : G.nodes.Pairwise (· < ·)) {order : List Nat} (hin : ∀ n ∈ order, G.containsNode n = true) :
    Keeps (G.subgraph (G.withNodes order).1) G :=
  subgraph_keeps (sublist_of_sorted (toSet_sorted order) hG fun n hn => (ok.mem_nodes n).2 (hin n (mem_toSet.1 hn)))

/-- **C95** So does a subgraph made of a boundary. -/
theorem C95_new_subgraph (ok : G.Ok) (hs : G.Single) (hG : G.nodes.Pairwise (· < ·)) {B : Boundary}
    (hB : ∀ p ∈ B.ports, G.containsPort p = true) : ∃ nodes, G.newSubgraph B = some nodes ∧ Keeps (G.subgraph nodes) G := by
  obtain ⟨nodes, h1, h2, -⟩ := C36_new_subgraph_partial ok hs hB
  have hsort : nodes.Pairwise (· < ·) := by
    unfold GView.newSubgraph at h1
    obtain ⟨l, -, rfl⟩ := Option.map_eq_some_iff.1 h1
    exact toSet_sorted l
  refine ⟨nodes, h1, subgraph_keeps (sublist_of_sorted hsort hG fun n hn => (ok.mem_nodes n).2 ?_)⟩
  have h3 := (h2 n).1 (show nodes.contains n = true from List.contains_iff_mem.2 hn)
  split at h3
  · exact h3
  · cases h3 with
    | start h4 h5 =>
      obtain ⟨n', h6, h7⟩ := (ok.port_iff _).1 (hB _ h4)
      rw [h5] at h6; cases h6; exact h7
    | step _ h4 _ h5 =>
      obtain ⟨_, _, m, -, -, -, h6, -, h7⟩ := ok.shows_dir _ _ h4
      unfold GView.On at h5 h6; rw [h5] at h6; cases h6; exact h7

/-- **C95** The nodes of a subgraph are listed in increasing order, so lists of the same nodes give the same subgraph. -/
theorem C95_same_nodes {order order' : List Nat} (h : ∀ n, n ∈ order ↔ n ∈ order') :
    (G.withNodes order).1.Pairwise (· < ·) ∧ G.subgraph (G.withNodes order).1 = G.subgraph (G.withNodes order').1 := by
  refine ⟨toSet_sorted _, congrArg _ (?_ : toSet order = toSet order')⟩
  refine (sublist_of_sorted (toSet_sorted _) (toSet_sorted _) fun n hn => mem_toSet.2 ((h n).1 (mem_toSet.1 hn))).antisymm
    (sublist_of_sorted (toSet_sorted _) (toSet_sorted _) fun n hn => mem_toSet.2 ((h n).2 (mem_toSet.1 hn)))

/-- **C95** A port graph lists its nodes in increasing order, and so do filtered graphs and subgraphs of such views, so
that the theorems above apply to stacks of views. -/
theorem C95_increasing (g : PG) (cn cp : Nat) :
    (ofPG g cn cp).nodes.Pairwise (· < ·) ∧
    ∀ V : GView E, V.nodes.Pairwise (· < ·) → (∀ nf lf, (V.filtered nf lf).nodes.Pairwise (· < ·)) ∧
      ∀ order, (V.subgraph (V.withNodes order).1).nodes.Pairwise (· < ·) :=
  ⟨List.pairwise_lt_range.filter _, fun _ h => ⟨fun _ _ => h.filter _, fun order => toSet_sorted order⟩⟩

/-- **C95** A stack of a subgraph on a filtered graph keeps the order of the graph at the bottom. -/
theorem C95_stack (ok : G.Ok) (hG : G.nodes.Pairwise (· < ·)) (nf lf : Nat → Bool) {order : List Nat}
    (hin : ∀ n ∈ order, (G.filtered nf lf).containsNode n = true) :
    Keeps ((G.filtered nf lf).subgraph ((G.filtered nf lf).withNodes order).1) G :=
  (C95_with_nodes (filtered_ok ok nf lf) (hG.filter _) hin).trans (C95_filtered ok nf lf).1 fun n hn =>
    hin n (mem_toSet.1 (List.contains_iff_mem.1 (show (toSet order).contains n = true from hn)))

/-- **C95** A flat region keeps the order exactly if the root, if it is shown, and the children are given by the hierarchy in the
order of the graph; its other lists are always in the order of the graph. -/
theorem C95_flat_region_partial (h : Hierarchy) (root : Nat) (withRoot : Bool) :
    (Keeps (G.flatRegion h root withRoot) G ↔ ((if withRoot then [root] else []) ++ h.kids root).Sublist G.nodes) ∧
    ∀ n d, ((G.flatRegion h root withRoot).links n d).Sublist (G.links n d) ∧
      ((G.flatRegion h root withRoot).neighbours n d).Sublist (G.neighbours n d) :=
  ⟨⟨fun k => k.nodes, restrict_keeps⟩, fun _ _ => ⟨List.filter_sublist, List.filter_sublist⟩⟩

/-- **C95** A region lists its nodes in the order of the hierarchy too: the root first. It keeps the order exactly if this is the
order of the graph; its other lists are always in the order of the graph. -/
theorem C95_region_partial {h : Hierarchy} (hr : Hier.Reach h) (root : Nat) (inside : Nat → Bool) :
    ∃ nodes f0, (∀ f, f0 ≤ f → regionNodes h root f = some nodes) ∧ nodes.head? = some root ∧ (∀ n, n ∈ nodes ↔ Anc h.kids root n) ∧
      (Keeps (G.region inside nodes) G ↔ nodes.Sublist G.nodes) ∧
      ∀ n d, ((G.region inside nodes).links n d).Sublist (G.links n d) ∧
        ((G.region inside nodes).neighbours n d).Sublist (G.neighbours n d) := by
  obtain ⟨nodes, f0, h1, h2, -, h4, -⟩ := C26_descendants hr root
  exact ⟨nodes, f0, h1, h2, h4, ⟨fun k => k.nodes, restrict_keeps⟩, fun _ _ => ⟨List.filter_sublist, List.filter_sublist⟩⟩

/-- **C95** A flat region lists its nodes in the order of the hierarchy, not of the graph. -/
theorem C95_witness_flat_region : exV.nodes = [0, 1, 2, 3, 4, 5] ∧ (exV.flatRegion exH 2 false).nodes = [5, 4] := by decide +kernel

/-- **C95** So does a region. -/
theorem C95_witness_region : regionNodes exH 2 20 = some [2, 5, 4] := by decide +kernel

/-! ## The hypotheses can be met -/

theorem exV_increasing : exV.nodes.Pairwise (· < ·) := (C95_increasing (E := Nat) Algo.dagG 6 11).1

example := C95_filtered exV_ok.1 (fun n => n != 2) (fun p => p != 9)
example := C95_with_nodes exV_ok.1 exV_increasing (order := [3, 1]) (by decide +kernel)
example := C95_new_subgraph exV_ok.1 exV_ok.2.2.2.2 exV_increasing (B := ⟨[7, 2], [9]⟩) (by decide +kernel)
example := C95_same_nodes (G := exV) (order := [3, 1]) (order' := [1, 3, 1]) (by simp)
example := C95_flat_region_partial (G := exV) exH 2 false
example := C95_stack exV_ok.1 exV_increasing (fun n => n != 2) (fun p => p != 9) (order := [4, 1]) (by decide +kernel)
example : Keeps (exV.flatRegion exH 0 true) exV := (C95_flat_region_partial exH 0 true).1.2 (by decide +kernel)

example := C95_region_partial (G := exV) exH_reach 2 (fun n => n == 2 || n == 4 || n == 5)

example := (C95_increasing (E := Nat) Algo.dagG 6 11).2 exV exV_increasing

#print axioms C95_filtered
#print axioms C95_with_nodes
#print axioms C95_new_subgraph
#print axioms C95_same_nodes
#print axioms C95_increasing
#print axioms C95_stack
#print axioms C95_flat_region_partial
#print axioms C95_region_partial
#print axioms C95_witness_flat_region
#print axioms C95_witness_region

end Verif.View
