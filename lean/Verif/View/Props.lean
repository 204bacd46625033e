import Verif.View.Inner
import Verif.View.Cache
import Verif.Convex.TopoProps

/-!
# Properties of the graph views (C36–C38)
-/

namespace Verif.View

open Verif (Direction)
open Verif.PG Verif.Hier

variable {E : Type} {G : GView E}

/-! ## Port graphs -/

/-- Every reachable port graph is a well-formed view, so that the theorems below apply to it; the
wrappers keep this, so they also apply to wrappers of wrappers. -/
theorem view_of_portgraph {maxOff : Nat} (hmax : maxOff ≤ 32767) {g : PG} (hg : PG.Reach maxOff g) (cn cp : Nat) :
    (ofPG g cn cp).Ok ∧ (ofPG g cn cp).CountOk ∧ (ofPG g cn cp).EmptyOk ∧ (ofPG g cn cp).MultiOk ∧
      (ofPG g cn cp).Single := by
  have hI := hg.inv hmax
  have ok := ofPG_ok hI cn cp
  refine ⟨ok, ofPG_count hI cn cp, ?_, ?_, ?_⟩
  · show decide (g.nodeCount = 0) = true ↔ _
    rw [decide_eq_true_iff, show g.nodeCount = (ofPG g cn cp).nodes.length from ok.node_count,
      List.length_eq_zero_iff, List.eq_nil_iff_forall_not_mem]
    refine forall_congr' fun n => ?_
    rw [ok.mem_nodes]; simp
  · refine ⟨fun e f => ?_, fun n d e h => (ok.mem_ports n d e).1 h, fun n d e f h1 h2 h3 => (ok.mem_ports n d e).2 ⟨h2, h3⟩,
      ok.ports_nodup, ok.all_ports⟩
    rw [shows_pg]
    show (g.portLink? e).join = some f ↔ _
    cases g.portLink? e <;> simp
  · intro p
    show (linkedPairs g [p]).length ≤ 1
    unfold linkedPairs
    exact Nat.le_trans (List.length_filterMap_le _ _) (by simp)

/-- The `unwrap` and `expect` calls of the wrappers cannot fail on a well-formed view: both ends of
every link have a node, and so has every listed port. -/
theorem views_no_panic (ok : G.Ok) : (∀ p e f, (e, f) ∈ G.portLinks p →
      (G.portNode (G.toPort e)).isSome ∧ (G.portNode (G.toPort f)).isSome) ∧
    ∀ p ∈ G.portsIter, (G.portNode p).isSome := by
  constructor
  · intro p e f h
    have h1 := ok.from_port _ _ _ h
    subst h1
    obtain ⟨n, d, m, h1, -, -, h2, -⟩ := ok.shows_dir e f h
    unfold GView.On at h1 h2
    simp [h1, h2]
  · intro p hp
    obtain ⟨n, h1, -⟩ := (ok.port_iff p).1 ((ok.mem_iter p).1 hp)
    simp [h1]

/-! ## C36 Subgraphs -/

theorem subgraph_shows {nodes : List Nat} {e f : E} : (G.subgraph nodes).Shows e f ↔
    G.Shows e f ∧ (∃ n ∈ nodes, G.On e n) ∧ ∃ n ∈ nodes, G.On f n := by
  have h : (G.subgraph nodes).Shows e f ↔ (G.restrict (nodes.contains ·) nodes nodes.length nodes.isEmpty).Shows e f :=
    Iff.rfl
  rw [h, restrict_shows]
  simp only [GView.insideLink, Bool.and_eq_true, insidePort_iff, List.contains_iff_mem]
  refine and_congr_right fun _ => and_congr ?_ ?_ <;>
    exact ⟨fun ⟨n, h1, h2⟩ => ⟨n, h2, h1⟩, fun ⟨n, h1, h2⟩ => ⟨n, h2, h1⟩⟩

/-- **C36** `Subgraph::with_nodes` for nodes of the graph: it contains exactly the given nodes, it
shows exactly the links of the graph between them, and all its queries describe this graph. -/
theorem C36_with_nodes (ok : G.Ok) {order : List Nat} (hin : ∀ n ∈ order, G.containsNode n = true) :
    (∀ n, (G.subgraph (G.withNodes order).1).containsNode n = true ↔ n ∈ order) ∧
    (∀ e f, (G.subgraph (G.withNodes order).1).Shows e f ↔
      G.Shows e f ∧ (∃ n ∈ order, G.On e n) ∧ ∃ n ∈ order, G.On f n) ∧
    (G.subgraph (G.withNodes order).1).Ok ∧ (G.subgraph (G.withNodes order).1).CountOk ∧
    (G.subgraph (G.withNodes order).1).EmptyOk := by
  have hin' : ∀ n ∈ toSet order, G.containsNode n = true := fun n h => hin n (mem_toSet.1 h)
  refine ⟨fun n => ?_, fun e f => ?_, subgraph_ok ok (toSet_nodup _) hin', ?_, ?_⟩
  · show (toSet order).contains n = true ↔ _
    rw [List.contains_iff_mem, mem_toSet]
  · show (G.subgraph (toSet order)).Shows e f ↔ _
    rw [subgraph_shows]
    simp only [mem_toSet]
  · exact (subgraph_ok ok (toSet_nodup _) hin').countOk_iff.2 rfl
  · show (toSet order).isEmpty = true ↔ ∀ n, (toSet order).contains n = false
    cases h : toSet order with
    | nil => simp
    | cons x l => simp; exact ⟨x, fun h => absurd rfl h⟩

/-- **C36** The boundary of `with_nodes` consists of the ports of the given nodes with a link to
another node, sorted by direction. -/
theorem C36_with_nodes_boundary (ok : G.Ok) {order : List Nat} (p : Nat) :
    (p ∈ (G.withNodes order).2.inputs ↔ G.portDirection p = some .incoming ∧ (∃ n ∈ order, G.portNode p = some n) ∧
      ∃ e f m, G.Shows e f ∧ G.toPort e = p ∧ G.On f m ∧ m ∉ order) ∧
    (p ∈ (G.withNodes order).2.outputs ↔ G.portDirection p = some .outgoing ∧ (∃ n ∈ order, G.portNode p = some n) ∧
      ∃ e f m, G.Shows e f ∧ G.toPort e = p ∧ G.On f m ∧ m ∉ order) := by
  have hext : G.hasExternalLink (toSet order) p = true ↔
      ∃ e f m, G.Shows e f ∧ G.toPort e = p ∧ G.On f m ∧ m ∉ order := by
    unfold GView.hasExternalLink
    rw [List.any_eq_true]
    constructor
    · rintro ⟨⟨e, f⟩, h1, h2⟩
      split at h2
      · next m hm =>
        simp only [Bool.not_eq_true', ← Bool.not_eq_true, List.contains_iff_mem, mem_toSet] at h2
        have hp := ok.from_port _ _ _ h1
        exact ⟨e, f, m, by unfold GView.Shows; rw [hp]; exact h1, hp, hm, h2⟩
      · cases h2
    · rintro ⟨e, f, m, h1, h2, h3, h4⟩
      refine ⟨(e, f), by rw [← h2]; exact h1, ?_⟩
      unfold GView.On at h3
      simp only [h3]
      simp only [Bool.not_eq_true', ← Bool.not_eq_true, List.contains_iff_mem, mem_toSet]
      exact h4
  constructor
  · show p ∈ order.flatMap _ ↔ _
    simp only [List.mem_flatMap, List.mem_filter]
    constructor
    · rintro ⟨n, h1, h2, h3⟩
      have h4 := (ok.mem_ports _ _ _).1 h2
      exact ⟨h4.2, ⟨n, h1, h4.1⟩, hext.1 h3⟩
    · rintro ⟨h1, ⟨n, h2, h3⟩, h4⟩
      exact ⟨n, h2, (ok.mem_ports _ _ _).2 ⟨h3, h1⟩, hext.2 h4⟩
  · show p ∈ order.flatMap _ ↔ _
    simp only [List.mem_flatMap, List.mem_filter]
    constructor
    · rintro ⟨n, h1, h2, h3⟩
      have h4 := (ok.mem_ports _ _ _).1 h2
      exact ⟨h4.2, ⟨n, h1, h4.1⟩, hext.1 h3⟩
    · rintro ⟨h1, ⟨n, h2, h3⟩, h4⟩
      exact ⟨n, h2, (ok.mem_ports _ _ _).2 ⟨h3, h1⟩, hext.2 h4⟩

/-- **C36** When a port has at most one link, the links shown by the subgraph at its nodes are
exactly those that do not use a boundary port of `with_nodes`. -/
theorem C36_with_nodes_links (ok : G.Ok) (hs : G.Single) {order : List Nat} (e f : E) :
    (G.subgraph (G.withNodes order).1).Shows e f ↔
      G.Shows e f ∧ (∃ n ∈ order, G.On e n) ∧ G.toPort e ∉ (G.withNodes order).2.ports := by
  have hb := C36_with_nodes_boundary ok (order := order) (G.toPort e)
  show (G.subgraph (toSet order)).Shows e f ↔ _
  rw [subgraph_shows]
  simp only [mem_toSet]
  refine and_congr_right fun hsh => and_congr_right fun he => ?_
  obtain ⟨n, d, m, h1, h2, -, h3, -⟩ := ok.shows_dir _ _ hsh
  have key : (∃ e' f' m, G.Shows e' f' ∧ G.toPort e' = G.toPort e ∧ G.On f' m ∧ m ∉ order) ↔ m ∉ order := by
    constructor
    · rintro ⟨e', f', m', g1, g2, g3, g4⟩
      have g5 := shows_portLink ok hs g1
      have g6 := shows_portLink ok hs hsh
      rw [g2, g6] at g5; cases g5
      unfold GView.On at g3 h3; rw [h3] at g3; cases g3
      exact g4
    · exact fun h => ⟨e, f, m, hsh, rfl, h3, h⟩
  have hport : G.toPort e ∈ (G.withNodes order).2.ports ↔ m ∉ order := by
    unfold Boundary.ports
    rw [List.mem_append, hb.1, hb.2, key]
    constructor
    · rintro (h | h) <;> exact h.2.2
    · intro h
      cases d
      · exact .inl ⟨h2, he, h⟩
      · exact .inr ⟨h2, he, h⟩
  rw [hport, Classical.not_not]
  constructor
  · rintro ⟨m', h4, h5⟩
    unfold GView.On at h5 h3; rw [h3] at h5; cases h5; exact h4
  · exact fun h => ⟨m, h, h3⟩

/-- **C36** `Subgraph::new_subgraph` with a boundary of ports of the graph: it contains exactly the
nodes inside the boundary (all nodes for the empty boundary), it shows the links of the graph
between them, and all its queries describe this graph. For graphs with at most one link per port. -/
theorem C36_new_subgraph_partial (ok : G.Ok) (hs : G.Single) {B : Boundary}
    (hB : ∀ p ∈ B.ports, G.containsPort p = true) :
    ∃ nodes, G.newSubgraph B = some nodes ∧
      (∀ n, (G.subgraph nodes).containsNode n = true ↔
        if B.ports = [] then G.containsNode n = true else G.Inner B.ports n) ∧
      (∀ e f, (G.subgraph nodes).Shows e f ↔ G.Shows e f ∧
        (∃ n, (G.subgraph nodes).containsNode n = true ∧ G.On e n) ∧
        ∃ n, (G.subgraph nodes).containsNode n = true ∧ G.On f n) ∧
      (G.subgraph nodes).Ok ∧ (G.subgraph nodes).CountOk := by
  have key : ∃ l, G.internalNodes B = some l ∧ (∀ n, n ∈ l ↔
        if B.ports = [] then G.containsNode n = true else G.Inner B.ports n) ∧ ∀ n ∈ l, G.containsNode n = true := by
    by_cases he : B.ports = []
    · obtain ⟨l, h1, h2⟩ := internal_empty ok hs he
      exact ⟨l, h1, by simpa [he] using h2, fun n h => (h2 n).1 h⟩
    · obtain ⟨l, h1, h2⟩ := internal_ok ok hs hB he
      refine ⟨l, h1, by simpa [he] using h2, fun n h => ?_⟩
      cases (h2 n).1 h with
      | start h1 h2 =>
        obtain ⟨n', h3, h4⟩ := (ok.port_iff _).1 (hB _ h1)
        rw [h2] at h3; cases h3; exact h4
      | step _ h1 _ h2 =>
        obtain ⟨_, _, m, -, -, -, h3, -, h4⟩ := ok.shows_dir _ _ h1
        unfold GView.On at h2 h3; rw [h2] at h3; cases h3; exact h4
  obtain ⟨l, h1, h2, h3⟩ := key
  have hin' : ∀ n ∈ toSet l, G.containsNode n = true := fun n h => h3 n (mem_toSet.1 h)
  refine ⟨toSet l, by simp [GView.newSubgraph, h1], fun n => ?_, fun e f => ?_, subgraph_ok ok (toSet_nodup _) hin',
    (subgraph_ok ok (toSet_nodup _) hin').countOk_iff.2 rfl⟩
  · show (toSet l).contains n = true ↔ _
    rw [List.contains_iff_mem, mem_toSet, h2]
  · rw [subgraph_shows]
    show _ ↔ G.Shows e f ∧ (∃ n, (toSet l).contains n = true ∧ _) ∧ (∃ n, (toSet l).contains n = true ∧ _)
    simp only [List.contains_iff_mem]

/-- The diamond `0 → 1, 2 → 3` with a tail `3 → 4` and an isolated node `5`. -/
def exV : GView Nat := ofPG Algo.dagG 6 11

theorem exV_ok : exV.Ok ∧ exV.CountOk ∧ exV.EmptyOk ∧ exV.MultiOk ∧ exV.Single :=
  view_of_portgraph (by decide) Algo.dagG_reach _ _

/-- The hypotheses can be met: the nodes 1 and 3, chosen by hand and by the boundary. -/
example : exV.withNodes [3, 1] = ([1, 3], ⟨[7, 2], [9]⟩) := by decide +kernel
example : exV.newSubgraph ⟨[7, 2], [9]⟩ = some [1, 3] := by decide +kernel
example : (exV.subgraph [1, 3]).allLinks 3 = [(6, 3)] ∧ (exV.subgraph [1, 3]).linkCount = 1 ∧
    (exV.subgraph [1, 3]).neighbours 3 .incoming = [1] ∧ (exV.subgraph [1, 3]).portsIter = [2, 3, 6, 7, 8, 9] := by
  decide +kernel
example : exV.newSubgraph ⟨[], []⟩ = some [0, 1, 2, 3, 4, 5] := by decide +kernel

/-- **C36 fails** for a boundary link with both ends inside: the wall consists of the two ports of
the link `0 → 1`, and all of the component is inside, but the subgraph still shows that link. -/
theorem C36_witness_boundary_link : exV.newSubgraph ⟨[2], [0]⟩ = some [0, 1, 2, 3, 4] ∧
    (0, 2) ∈ (exV.subgraph [0, 1, 2, 3, 4]).links 0 .outgoing ∧ (exV.subgraph [0, 1, 2, 3, 4]).linkCount = 5 := by
  decide +kernel

/-- **C36 fails** for nodes that are not in the graph: the subgraph says that it contains them. -/
theorem C36_witness_foreign : exV.containsNode 77 = false ∧ (exV.subgraph (exV.withNodes [77]).1).containsNode 77 = true ∧
    (exV.subgraph (exV.withNodes [77]).1).nodeCount = 1 := by decide +kernel

/-- Asked about a node outside, `neighbours` lists nodes although `links` shows none. -/
theorem C36_witness_outside_neighbours : (exV.subgraph [1, 3]).neighbours 4 .incoming = [3] ∧
    (exV.subgraph [1, 3]).links 4 .incoming = [] := by decide +kernel

/-- `Subgraph::is_convex`, `src/view/subgraph.rs` lines 108–127. -/
def subgraphIsConvex (g : PG) (nodes : List Nat) (B : Boundary) : Option Bool :=
  if nodes.length ≤ 1 then some true
  else
    match Convex.Topo.new (Algo.ofPG g) with
    | none => none
    | some c => c.isConvex nodes B.inputs B.outputs

theorem portConvex_small {g : PG} (hI : Inv g) (hac : Algo.Acyclic (Algo.Arc g .outgoing)) {S ins outs : List Nat}
    (hl : S.length ≤ 1) : Convex.PortConvex g S ins outs := by
  intro s hs t ht m p q n h1 h2 h3
  have hst : s = t := by
    match S, hl with
    | [a], _ => simp at hs ht; rw [hs, ht]
  subst hst
  exact absurd ((Relation.TransGen.tail' h1 ((Convex.link_arc hI).2 ⟨p, q, h2⟩)).trans_left h3) (hac s)

/-- **C36** `is_convex` of a subgraph of an acyclic port graph with boundary ports at its nodes
answers whether every link on a path between two of its nodes is within the subgraph. -/
theorem C36_is_convex {maxOff : Nat} (hmax : maxOff ≤ 32767) {g : PG} (hg : PG.Reach maxOff g)
    (hac : Algo.Acyclic (Algo.Arc g .outgoing)) {nodes : List Nat} {B : Boundary}
    (hS : ∀ n ∈ nodes, g.containsNode n = true) (hin : ∀ p ∈ B.inputs, ∃ n ∈ nodes, p ∈ g.ports n .incoming)
    (hout : ∀ p ∈ B.outputs, ∃ n ∈ nodes, p ∈ g.ports n .outgoing) :
    ∃ r, subgraphIsConvex g nodes B = some r ∧ (r = true ↔ Convex.PortConvex g nodes B.inputs B.outputs) := by
  unfold subgraphIsConvex
  split
  · next hl => exact ⟨true, rfl, by simp [portConvex_small (hg.inv hmax) hac hl]⟩
  · obtain ⟨c, r, h1, h2, h3⟩ := Convex.C31_is_convex hmax hg hac hS hin hout
    exact ⟨r, by rw [h1]; exact h2, h3⟩

/-- **C36** `is_convex` of a subgraph of an acyclic port graph made by `with_nodes` answers whether
no path between two of its nodes passes through another node. -/
theorem C36_with_nodes_convex {maxOff : Nat} (hmax : maxOff ≤ 32767) {g : PG} (hg : PG.Reach maxOff g)
    (hac : Algo.Acyclic (Algo.Arc g .outgoing)) {order : List Nat} (hS : ∀ n ∈ order, g.containsNode n = true)
    (cn cp : Nat) :
    ∃ r, subgraphIsConvex g ((ofPG g cn cp).withNodes order).1 ((ofPG g cn cp).withNodes order).2 = some r ∧
      (r = true ↔ Convex.Convex (Algo.Arc g .outgoing) order) := by
  have hI := hg.inv hmax
  have ok := ofPG_ok hI cn cp
  have hb := fun p => C36_with_nodes_boundary ok (order := order) p
  have hin : ∀ p ∈ ((ofPG g cn cp).withNodes order).2.inputs, ∃ n ∈ toSet order, p ∈ g.ports n .incoming := by
    intro p hp
    obtain ⟨h1, ⟨n, h2, h3⟩, -⟩ := (hb p).1.1 hp
    exact ⟨n, mem_toSet.2 h2, (ok.mem_ports _ _ _).2 ⟨h3, h1⟩⟩
  have hout : ∀ p ∈ ((ofPG g cn cp).withNodes order).2.outputs, ∃ n ∈ toSet order, p ∈ g.ports n .outgoing := by
    intro p hp
    obtain ⟨h1, ⟨n, h2, h3⟩, -⟩ := (hb p).2.1 hp
    exact ⟨n, mem_toSet.2 h2, (ok.mem_ports _ _ _).2 ⟨h3, h1⟩⟩
  obtain ⟨r, h1, h2⟩ := C36_is_convex hmax hg hac (nodes := toSet order) (fun n hn => hS n (mem_toSet.1 hn)) hin hout
  refine ⟨r, h1, h2.trans ?_⟩
  rw [Convex.portConvex_iff hI hin hout]
  have hcv : Convex.Convex (Algo.Arc g .outgoing) (toSet order) ↔ Convex.Convex (Algo.Arc g .outgoing) order := by
    unfold Convex.Convex
    simp only [mem_toSet]
  rw [hcv]
  refine ⟨fun h => h.2, fun h => ⟨?_, h⟩⟩
  rintro ⟨p, hp, q, hq, hl⟩
  obtain ⟨-, -, e, f, m, g1, g2, g3, g4⟩ := (hb p).2.1 hp
  obtain ⟨-, ⟨n, g5, g6⟩, -⟩ := (hb q).1.1 hq
  have e1 : g.portLink? e = some (some f) := shows_pg.1 g1
  change e = p at g2
  rw [g2, hl] at e1
  cases e1
  change g.portNode q = some m at g3
  change g.portNode q = some n at g6
  rw [g3] at g6; cases g6
  exact g4 g5

/-- The nodes 0, 1, 3 leave out the path through 2; the nodes 0, 1, 2, 3 do not. -/
example : subgraphIsConvex Algo.dagG (exV.withNodes [0, 1, 3]).1 (exV.withNodes [0, 1, 3]).2 = some false ∧
    subgraphIsConvex Algo.dagG (exV.withNodes [0, 1, 2, 3]).1 (exV.withNodes [0, 1, 2, 3]).2 = some true := by
  decide +kernel
example : Algo.Acyclic (Algo.Arc Algo.dagG .outgoing) := Convex.dagG_acyclic

/-! ## C37 Filtered graphs -/

theorem filtered_shows_iff {nf lf : Nat → Bool} {e f : E} : (G.filtered nf lf).Shows e f ↔
    G.Shows e f ∧ (∃ n, G.On e n ∧ nf n = true) ∧ (∃ n, G.On f n ∧ nf n = true) ∧
      lf (G.toPort e) = true ∧ lf (G.toPort f) = true := by
  rw [filtered_shows]
  simp only [GView.linkFilter, Bool.and_eq_true, portFilter_iff, GView.On, and_assoc]

/-- **C37** A filtered graph contains exactly the nodes of the graph accepted by the node filter, and
the ports of these; it shows exactly the links of the graph with accepted nodes and accepted ports
at both ends. All queries about nodes, ports and links describe this graph, except `link_count`
and `subport_link`, see below. -/
theorem C37_filtered_partial (ok : G.Ok) (nf lf : Nat → Bool) :
    (∀ n, (G.filtered nf lf).containsNode n = true ↔ G.containsNode n = true ∧ nf n = true) ∧
    (∀ p, (G.filtered nf lf).containsPort p = true ↔
      ∃ n, G.portNode p = some n ∧ G.containsNode n = true ∧ nf n = true) ∧
    (∀ e f, (G.filtered nf lf).Shows e f ↔ G.Shows e f ∧ (∃ n, G.On e n ∧ nf n = true) ∧
      (∃ n, G.On f n ∧ nf n = true) ∧ lf (G.toPort e) = true ∧ lf (G.toPort f) = true) ∧
    (G.filtered nf lf).Ok ∧ (G.filtered nf lf).EmptyOk := by
  have ok' := filtered_ok ok nf lf
  have hn : ∀ n, (G.filtered nf lf).containsNode n = true ↔ G.containsNode n = true ∧ nf n = true := by
    intro n
    show (G.containsNode n && nf n) = true ↔ _
    rw [Bool.and_eq_true]
  refine ⟨hn, fun p => ?_, fun e f => filtered_shows_iff, ok', ?_⟩
  · rw [ok'.port_iff]
    simp only [hn]
    rfl
  · show decide ((G.nodes.filter nf).length = 0) = true ↔ _
    rw [decide_eq_true_iff, List.length_eq_zero_iff, List.eq_nil_iff_forall_not_mem]
    refine forall_congr' fun n => ?_
    rw [show n ∈ G.nodes.filter nf ↔ _ from ok'.mem_nodes n]; simp

/-- **C37** A node-filtered graph shows exactly the links between accepted nodes. -/
theorem C37_node_filtered (nf : Nat → Bool) (e f : E) : (G.nodeFiltered nf).Shows e f ↔
    G.Shows e f ∧ (∃ n, G.On e n ∧ nf n = true) ∧ ∃ n, G.On f n ∧ nf n = true := by
  unfold GView.nodeFiltered
  rw [filtered_shows_iff]; simp

/-- **C37** `link_count` of a filtered graph counts the links from a node to itself once and the
others twice, so it is right exactly when all shown links join a node to itself. -/
theorem C37_link_count_partial (ok : G.Ok) (nf lf : Nat → Bool) :
    (G.filtered nf lf).linkCount + (G.filtered nf lf).selfLinks.length = 2 * (G.filtered nf lf).outLinks.length ∧
    (G.filtered nf lf).ListsLinks (G.filtered nf lf).outLinks ∧
    ((G.filtered nf lf).CountOk ↔ ∀ e f, (G.filtered nf lf).Shows e f → ∀ n, G.On e n → G.On f n) := by
  have ok' := filtered_ok ok nf lf
  have h1 : (G.filtered nf lf).linkCount + (G.filtered nf lf).selfLinks.length =
      2 * (G.filtered nf lf).outLinks.length := all_length ok'
  have h2 := ok'.outLinks_lists
  refine ⟨h1, h2, ?_⟩
  rw [ok'.countOk_iff]
  have h3 : (G.filtered nf lf).linkCount = (G.filtered nf lf).outLinks.length ↔
      (G.filtered nf lf).selfLinks.length = (G.filtered nf lf).outLinks.length := by omega
  rw [h3]
  unfold GView.selfLinks
  rw [List.length_filter_eq_length_iff]
  constructor
  · intro h e f hs n hn
    obtain ⟨n', d, m, g1, g2, g3, g4, g5, g6⟩ := ok'.shows_dir e f hs
    have key : G.portNode (G.toPort e) = G.portNode (G.toPort f) := by
      cases d with
      | outgoing => exact of_decide_eq_true (h (e, f) ((h2.mem e f).2 ⟨hs, g2⟩))
      | incoming => exact (of_decide_eq_true (h (f, e) ((h2.mem f e).2 ⟨ok'.shows_sym _ _ hs, g5⟩))).symm
    unfold GView.On at hn ⊢
    rw [← key, hn]
  · rintro h ⟨e, f⟩ hm
    have hs := ((h2.mem e f).1 hm).1
    obtain ⟨n', d, m, g1, -⟩ := ok'.shows_dir e f hs
    have := h e f hs n' g1
    exact decide_eq_true (g1.trans this.symm)

/-- **C37** `subport_link` of a filtered graph ignores the node filter: it answers with the link of
the graph when both ports are accepted. So it is right for all endpoints exactly when every link
with accepted ports has accepted nodes. -/
theorem C37_subport_link_partial (hm : G.MultiOk) (nf lf : Nat → Bool) :
    (∀ e f, (G.filtered nf lf).subportLink e = some f ↔
      G.Shows e f ∧ lf (G.toPort e) = true ∧ lf (G.toPort f) = true) ∧
    ((∀ e f, (G.filtered nf lf).subportLink e = some f ↔ (G.filtered nf lf).Shows e f) ↔
      ∀ e f, G.Shows e f → lf (G.toPort e) = true → lf (G.toPort f) = true →
        (∃ n, G.On e n ∧ nf n = true) ∧ ∃ n, G.On f n ∧ nf n = true) := by
  have h1 : ∀ e f, (G.filtered nf lf).subportLink e = some f ↔
      G.Shows e f ∧ lf (G.toPort e) = true ∧ lf (G.toPort f) = true := by
    intro e f
    rw [← hm.sub_link]
    show (if (!lf (G.toPort e)) = true then none else _) = some f ↔ _
    cases h2 : lf (G.toPort e) with
    | false => simp
    | true =>
      simp only [Bool.not_true, Bool.false_eq_true, if_false, true_and]
      cases h3 : G.subportLink e with
      | none => simp
      | some f' =>
        cases h4 : lf (G.toPort f') with
        | false =>
          simp only [h4, Bool.not_false, if_true, reduceCtorEq, Option.some.injEq, false_iff]
          rintro ⟨rfl, h⟩; rw [h4] at h; cases h
        | true =>
          simp only [h4, Bool.not_true, Bool.false_eq_true, if_false, Option.some.injEq]
          exact ⟨fun h => ⟨h, h ▸ h4⟩, fun h => h.1⟩
  refine ⟨h1, ?_⟩
  simp only [h1, filtered_shows_iff]
  constructor
  · intro h e f a b c
    have := (h e f).1 ⟨a, b, c⟩
    exact ⟨this.2.1, this.2.2.1⟩
  · intro h e f
    exact ⟨fun ⟨a, b, c⟩ => ⟨a, (h e f a b c).1, (h e f a b c).2, b, c⟩, fun ⟨a, _, _, b, c⟩ => ⟨a, b, c⟩⟩

/-- `subports` of a filtered graph lists the subports of the graph at accepted nodes. -/
theorem C37_subports (hm : G.MultiOk) (nf lf : Nat → Bool) (n : Nat) (d : Direction) :
    (G.filtered nf lf).subports n d = if nf n then G.subports n d else [] := by
  show (G.subports n d).filter _ = _
  split
  · next h => exact List.filter_eq_self.2 fun e he => portFilter_iff.2 ⟨n, (hm.sub_port _ _ _ he).1, h⟩
  · next h =>
    refine List.filter_eq_nil_iff.2 fun e he hx => h ?_
    obtain ⟨n', h1, h2⟩ := portFilter_iff.1 hx
    have := (hm.sub_port _ _ _ he).1
    unfold GView.On at this
    rw [this] at h1; cases h1; exact h2

/-- The nodes other than 2, and the ports other than 0 and 2: the links `1 → 3` and `3 → 4`. -/
def exF : GView Nat := exV.filtered (· != 2) fun p => p != 0 && p != 2

example : exF.nodes = [0, 1, 3, 4, 5] ∧ exF.outLinks = [(3, 6), (9, 10)] ∧ exF.allNeighbours 3 = [1, 4] := by
  decide +kernel

/-- **C37 fails** for `link_count`: the filtered graph has two links, and the count is four. Without
any filter the count of the diamond is ten instead of five. -/
theorem C37_witness_link_count : exF.outLinks.length = 2 ∧ exF.linkCount = 4 ∧ exV.linkCount = 5 ∧
    (exV.filtered (fun _ => true) fun _ => true).linkCount = 10 := by decide +kernel

/-- **C37 fails** for `subport_link`: the node at the other end is filtered out, but the answer is a
subport of it. -/
theorem C37_witness_subport_link : exF.containsNode 2 = false ∧ exF.subportLink 1 = some 4 ∧ exF.portNode 4 = some 2 ∧
    exF.portLinks 1 = [] := by decide +kernel

/-! ## C38 Regions -/

variable {h : Hierarchy}

theorem flatInside_iff (hr : Hier.Reach h) {root n : Nat} {withRoot : Bool} :
    flatInside h root withRoot n = true ↔ (withRoot = true ∧ n = root) ∨ n ∈ h.kids root := by
  obtain ⟨v, -⟩ := hr.inv
  unfold flatInside
  rw [Bool.or_eq_true, Bool.and_eq_true, beq_iff_eq, beq_iff_eq]
  exact or_congr_right v.repr.parent_iff

theorem restrict_shows_iff {inside : Nat → Bool} {nodes : List Nat} {c : Nat} {b : Bool} {e f : E} :
    (G.restrict inside nodes c b).Shows e f ↔
      G.Shows e f ∧ (∃ n, G.On e n ∧ inside n = true) ∧ ∃ n, G.On f n ∧ inside n = true := by
  rw [restrict_shows]
  simp only [GView.insideLink, Bool.and_eq_true, insidePort_iff, GView.On]

/-- **C38** A flat region contains exactly the children of its root, and the root if asked for; it
shows the links of the graph between these, and all its queries describe this graph. The nodes are
assumed to be in the graph, as the hierarchy does not know the graph. -/
theorem C38_flat_region (ok : G.Ok) (hr : Hier.Reach h) {root : Nat} {withRoot : Bool}
    (hroot : withRoot = true → G.containsNode root = true) (hkids : ∀ n ∈ h.kids root, G.containsNode n = true) :
    (∀ n, (G.flatRegion h root withRoot).containsNode n = true ↔ (withRoot = true ∧ n = root) ∨ n ∈ h.kids root) ∧
    (∀ e f, (G.flatRegion h root withRoot).Shows e f ↔ G.Shows e f ∧
      (∃ n, G.On e n ∧ ((withRoot = true ∧ n = root) ∨ n ∈ h.kids root)) ∧
      ∃ n, G.On f n ∧ ((withRoot = true ∧ n = root) ∨ n ∈ h.kids root)) ∧
    (G.flatRegion h root withRoot).Ok ∧ (G.flatRegion h root withRoot).CountOk := by
  obtain ⟨v, -⟩ := hr.inv
  have hroot' : root ∉ h.kids root := fun hm => v.forest.acyclic root root hm (.refl _)
  have hnd : ((if withRoot then [root] else []) ++ h.kids root).Nodup := by
    cases withRoot
    · simpa using v.repr.nodup root
    · simpa using ⟨hroot', v.repr.nodup root⟩
  have hm : ∀ n, n ∈ ((if withRoot then [root] else []) ++ h.kids root) ↔ flatInside h root withRoot n = true := by
    intro n
    rw [flatInside_iff hr, List.mem_append]
    cases withRoot <;> simp
  have hc : h.childCount root + withRoot.toNat = ((if withRoot then [root] else []) ++ h.kids root).length := by
    have : h.childCount root = (h.kids root).length := v.repr.count root
    rw [this, List.length_append]
    cases withRoot <;> simp [Nat.add_comm]
  have hin : ∀ n, flatInside h root withRoot n = true → G.containsNode n = true := by
    intro n hn
    rcases (flatInside_iff hr).1 hn with ⟨h1, rfl⟩ | h1
    · exact hroot h1
    · exact hkids n h1
  refine ⟨fun n => flatInside_iff hr, fun e f => ?_, restrict_ok ok false hin hnd hm hc,
    restrict_count ok false hin hnd hm hc⟩
  unfold GView.flatRegion
  rw [restrict_shows_iff]
  simp only [flatInside_iff hr]

/-- **C38 fails** for `is_empty`: a flat region without its root and without children says that it is
not empty. -/
theorem C38_witness_flat_empty : (exV.flatRegion exH 4 false).nodeCount = 0 ∧
    (exV.flatRegion exH 4 false).isEmpty = false := by decide +kernel

/-- A sequence of calls to `is_descendant` on one region: the answers. -/
def runQueries (h : Hierarchy) (root : Nat) : Cache → List Nat → Option (List Bool)
  | _, [] => some []
  | c, n :: ns =>
    match isDescendant h root c n with
    | none => none
    | some (b, c') => (runQueries h root c' ns).map (b :: ·)

/-- **C38** Every sequence of queries to a region is answered, and each answer says whether the node
is the root or below it; the cache changes none. -/
theorem C38_region_queries (hr : Hier.Reach h) (root : Nat) (ns : List Nat) :
    ∃ bs, runQueries h root (.new root) ns = some bs ∧ List.Forall₂ (fun n b => b = true ↔ Anc h.kids root n) ns bs := by
  obtain ⟨v, -⟩ := hr.inv
  have key : ∀ ns c, CacheOk h.kids root c → ∃ bs, runQueries h root c ns = some bs ∧
      List.Forall₂ (fun n b => b = true ↔ Anc h.kids root n) ns bs := by
    intro ns
    induction ns with
    | nil => exact fun c _ => ⟨[], rfl, .nil⟩
    | cons n ns ih =>
      intro c hc
      obtain ⟨b, c', h1, h2, h3⟩ := isDescendant_ok v hc n
      obtain ⟨bs, h4, h5⟩ := ih c' h3
      exact ⟨b :: bs, by simp [runQueries, h1, h4], .cons h2 h5⟩
  exact key ns _ (cacheOk_new _ _)

example : runQueries exH 2 (.new 2) [4, 0, 5, 7, 2, 3, 4, 0] =
    some [true, false, true, false, true, false, true, false] := by decide +kernel

/-- A region used by several threads: the cache, the calls that have dropped the read lock and wait
for the write lock, and the answers given so far. -/
structure Shared where
  cache : Cache
  waiting : List (Nat × List Nat × Bool)
  answers : List (Nat × Bool)

/-- A step of one of the threads in `Region::is_descendant`, `src/view/region.rs` lines 49–95. The
parts under the two locks are not interrupted by a writer. A reader holds the read lock for its
whole computation, so it may be taken to happen at once. -/
inductive Shared.Step (h : Hierarchy) (root : Nat) : Shared → Shared → Prop
  | hit {s : Shared} {n : Nat} {b : Bool} : lookDescendant h root s.cache n = some (.hit b) →
      Step h root s { s with answers := (n, b) :: s.answers }
  | read {s : Shared} {n : Nat} {l : List Nat} {b : Bool} : lookDescendant h root s.cache n = some (.computed l b) →
      Step h root s { s with waiting := (n, l, b) :: s.waiting }
  | write {s : Shared} {n : Nat} {l : List Nat} {b : Bool} {w1 w2 : List (Nat × List Nat × Bool)} :
      s.waiting = w1 ++ (n, l, b) :: w2 →
      Step h root s ⟨storeDescendant l b s.cache, w1 ++ w2, (n, b) :: s.answers⟩

/-- **C38** With any number of threads, and any interleaving of their reads and writes, every answer
is right and no query panics. -/
theorem C38_region_threads (hr : Hier.Reach h) {root : Nat} {s : Shared}
    (hs : Relation.ReflTransGen (Shared.Step h root) ⟨.new root, [], []⟩ s) :
    (∀ n b, (n, b) ∈ s.answers → (b = true ↔ Anc h.kids root n)) ∧
      ∀ n, lookDescendant h root s.cache n ≠ none := by
  obtain ⟨v, -⟩ := hr.inv
  have key : CacheOk h.kids root s.cache ∧
      (∀ n l b, (n, l, b) ∈ s.waiting → (b = true ↔ Anc h.kids root n) ∧
        ∀ x ∈ l, x ≠ root ∧ (b = true ↔ Anc h.kids root x)) ∧
      ∀ n b, (n, b) ∈ s.answers → (b = true ↔ Anc h.kids root n) := by
    induction hs with
    | refl => exact ⟨cacheOk_new _ _, by simp, by simp⟩
    | tail _ hst ih =>
      obtain ⟨i1, i2, i3⟩ := ih
      cases hst with
      | @hit n b hl =>
        refine ⟨i1, i2, fun n' b' hm => ?_⟩
        rcases List.mem_cons.1 hm with hm | hm
        · cases hm
          rcases look_ok v i1 n with ⟨b2, g1, g2⟩ | ⟨l, b2, g1, g2, g3⟩
          · rw [hl] at g1; cases g1; exact g2
          · rw [hl] at g1; cases g1
        · exact i3 _ _ hm
      | @read n l b hl =>
        refine ⟨i1, fun n' l' b' hm => ?_, i3⟩
        rcases List.mem_cons.1 hm with hm | hm
        · cases hm
          rcases look_ok v i1 n with ⟨b2, g1, g2⟩ | ⟨l2, b2, g1, g2, g3⟩
          · rw [hl] at g1; cases g1
          · rw [hl] at g1; cases g1; exact ⟨g2, g3⟩
        · exact i2 _ _ _ hm
      | @write n l b w1 w2 hw =>
        have hmem := i2 n l b (by rw [hw]; simp)
        refine ⟨store_ok i1 hmem.2, fun n' l' b' hm => i2 n' l' b' ?_, fun n' b' hm => ?_⟩
        · rw [hw]
          rcases List.mem_append.1 hm with hm | hm <;> simp [hm]
        · rcases List.mem_cons.1 hm with hm | hm
          · cases hm; exact hmem.1
          · exact i3 _ _ hm
  refine ⟨key.2.2, fun n => ?_⟩
  rcases look_ok v key.1 n with ⟨b2, g1, g2⟩ | ⟨l2, b2, g1, g2, g3⟩ <;> simp [g1]

/-- Two threads ask about 4 and 5; both read before one writes. -/
theorem asked_both : ∃ s, Relation.ReflTransGen (Shared.Step exH 0) ⟨.new 0, [], []⟩ s ∧ s.answers = [(4, true), (5, true)] := by
  refine ⟨_, .tail (.tail (.tail (.tail .refl (.read (n := 4) (l := [4, 2]) (b := true) ?_))
    (.read (n := 5) (l := [5, 2]) (b := true) ?_)) (.write (w1 := []) rfl)) (.write (w1 := []) rfl), ?_⟩
  all_goals decide +kernel

/-- **C38 fails** for a clone made while the cache is locked: the new region starts with an empty
cache instead of one with the root, and then says of a child of the root that it is not inside.
The wrong answer is stored, so it is repeated. -/
theorem C38_witness_locked_clone : (runQueries exH 2 ((Cache.new 2).clone true) [4, 4, 5] = some [false, false, true]) ∧
    exH.parent 4 = some 2 ∧ runQueries exH 2 ((Cache.new 2).clone false) [4, 4, 5] = some [true, true, true] := by
  decide +kernel

/-- **C38** A clone made while the cache is not locked has the same cache, so its answers are right. -/
theorem C38_region_clone (hr : Hier.Reach h) {root : Nat} {s : Shared}
    (hs : Relation.ReflTransGen (Shared.Step h root) ⟨.new root, [], []⟩ s) {s' : Shared}
    (hs' : Relation.ReflTransGen (Shared.Step h root) ⟨s.cache.clone false, [], []⟩ s') (n : Nat) (b : Bool)
    (hm : (n, b) ∈ s'.answers) : b = true ↔ Anc h.kids root n := by
  have key : ∀ x y : Shared, Relation.ReflTransGen (Shared.Step h root) x y → ∀ w a,
      Relation.ReflTransGen (Shared.Step h root) ⟨x.cache, x.waiting ++ w, x.answers ++ a⟩
        ⟨y.cache, y.waiting ++ w, y.answers ++ a⟩ := by
    intro x y hxy w a
    induction hxy with
    | refl => exact .refl
    | @tail y z _ hst ih =>
      refine ih.tail ?_
      cases hst with
      | hit hl => exact .hit hl
      | read hl => exact .read hl
      | @write n l b w1 w2 hw =>
        have hw' := congrArg (· ++ w) hw
        simp only [List.append_assoc, List.cons_append] at hw'
        have := @Shared.Step.write h root ⟨y.cache, y.waiting ++ w, y.answers ++ a⟩ n l b w1 (w2 ++ w) hw'
        simpa using this
  have h2 := key _ _ hs' s.waiting s.answers
  exact (C38_region_threads hr (hs.trans h2)).1 n b (List.mem_append_left _ hm)

/-- **C38** A region contains exactly its root and the nodes below it, it shows the links of the
graph between these, and all its queries describe this graph. Here `inside` gives the answers of
`is_descendant`, see `C38_region_queries`. The nodes are assumed to be in the graph. -/
theorem C38_region (ok : G.Ok) (hr : Hier.Reach h) {root : Nat} {inside : Nat → Bool}
    (hins : ∀ n, inside n = true ↔ Anc h.kids root n) (hin : ∀ n, Anc h.kids root n → G.containsNode n = true) :
    ∃ nodes f0, (∀ f, f0 ≤ f → regionNodes h root f = some nodes) ∧ nodes.head? = some root ∧
      (∀ n, (G.region inside nodes).containsNode n = true ↔ Anc h.kids root n) ∧
      (∀ e f, (G.region inside nodes).Shows e f ↔ G.Shows e f ∧ (∃ n, G.On e n ∧ Anc h.kids root n) ∧
        ∃ n, G.On f n ∧ Anc h.kids root n) ∧
      (G.region inside nodes).Ok ∧ (G.region inside nodes).CountOk ∧ (G.region inside nodes).EmptyOk := by
  obtain ⟨nodes, f0, h1, h2, h3, h4, -⟩ := C26_descendants hr root
  have hin' : ∀ n, inside n = true → G.containsNode n = true := fun n hn => hin n ((hins n).1 hn)
  have hm : ∀ n, n ∈ nodes ↔ inside n = true := fun n => by rw [h4, hins]
  refine ⟨nodes, f0, h1, h2, hins, fun e f => ?_, restrict_ok ok false hin' h3 hm rfl,
    restrict_count ok false hin' h3 hm rfl, ?_⟩
  · unfold GView.region
    rw [restrict_shows_iff]
    simp only [hins]
  · show false = true ↔ ∀ n, inside n = false
    simp only [Bool.false_eq_true, false_iff]
    intro hall
    have := (hins root).2 (.refl _)
    rw [hall] at this; cases this

/-- The hypotheses can be met: all nodes of the forest are in the diamond. -/
example : (List.range 6).all exV.containsNode = true ∧ regionNodes exH 2 20 = some [2, 5, 4] ∧
    (exV.region (fun n => n == 2 || n == 5 || n == 4) [2, 5, 4]).outLinks = [] ∧
    (exV.region (fun n => decide (n < 6)) [0, 1, 2, 3, 5, 4]).linkCount = 5 := by decide +kernel
example : (exV.flatRegion exH 0 true).nodes = [0, 1, 2, 3] ∧ (exV.flatRegion exH 0 true).outLinks.length = 4 ∧
    (exV.flatRegion exH 0 false).outLinks = [(3, 6), (5, 7)] := by decide +kernel

/-- **C38 fails** for forests with nodes that are not in the graph: the region contains them. -/
theorem C38_witness_foreign : (ofPG .empty 0 0).containsNode 2 = false ∧
    ((ofPG .empty 0 0).flatRegion exH 0 false).containsNode 2 = true := by decide +kernel

/-- **C38** `subport_link` and `subports` of a region: for contained endpoints, the link is that shown
by the region. -/
theorem C38_subport_link (hm : G.MultiOk) {inside : Nat → Bool} {nodes : List Nat} {c : Nat} {b : Bool} {e f : E} {n : Nat}
    (he : G.On e n) (hn : inside n = true) :
    (G.restrict inside nodes c b).subportLink e = some f ↔ (G.restrict inside nodes c b).Shows e f := by
  rw [restrict_shows_iff, ← hm.sub_link]
  show (G.subportLink e).filter _ = some f ↔ _
  rw [Option.filter_eq_some_iff, insidePort_iff]
  exact ⟨fun ⟨h1, h2⟩ => ⟨h1, ⟨n, he, hn⟩, h2⟩, fun ⟨h1, _, h2⟩ => ⟨h1, h2⟩⟩

/-- From outside, `subport_link` looks into the region although the region does not show the link. -/
theorem C38_witness_subport_link : (exV.flatRegion exH 0 false).subportLink 0 = some 2 ∧
    (exV.flatRegion exH 0 false).portLinks 0 = [] := by decide +kernel

example := C38_subport_link exV_ok.2.2.2.1 (inside := fun n => n == 1 || n == 3) (nodes := [1, 3]) (c := 2) (b := false) (e := 3)
  (f := 6) (n := 1) (show exV.portNode 3 = some 1 by decide +kernel) rfl

example := C36_with_nodes exV_ok.1 (order := [3, 1]) (by decide +kernel)

example := C36_with_nodes_boundary exV_ok.1 (order := [3, 1]) 7

example := C36_with_nodes_links exV_ok.1 exV_ok.2.2.2.2 (order := [3, 1]) 3 6

example := C36_is_convex (by decide) Algo.dagG_reach Convex.dagG_acyclic (nodes := [1, 3]) (B := ⟨[7, 2], [9]⟩) (by decide +kernel)
  (by decide +kernel) (by decide +kernel)

example := C37_filtered_partial exV_ok.1 (· != 2) fun p => p != 0 && p != 2

example := C37_link_count_partial exV_ok.1 (· != 2) fun p => p != 0 && p != 2

example := C37_subport_link_partial exV_ok.2.2.2.1 (· != 2) fun p => p != 0 && p != 2

example := C38_flat_region exV_ok.1 exH_reach (root := 0) (withRoot := true) (fun _ => by decide +kernel) (by decide +kernel)

#print axioms view_of_portgraph
#print axioms views_no_panic
#print axioms C36_with_nodes
#print axioms C36_with_nodes_boundary
#print axioms C36_with_nodes_links
#print axioms C36_new_subgraph_partial
#print axioms C36_witness_boundary_link
#print axioms C36_witness_foreign
#print axioms C36_witness_outside_neighbours
#print axioms C36_is_convex
#print axioms C36_with_nodes_convex
#print axioms C37_filtered_partial
#print axioms C37_node_filtered
#print axioms C37_link_count_partial
#print axioms C37_subport_link_partial
#print axioms C37_subports
#print axioms C37_witness_link_count
#print axioms C37_witness_subport_link
#print axioms C38_flat_region
#print axioms C38_witness_flat_empty
#print axioms C38_region_queries
#print axioms C38_region_threads
#print axioms C38_region_clone
#print axioms C38_witness_locked_clone
#print axioms C38_region
#print axioms C38_witness_foreign
#print axioms C38_subport_link
#print axioms C38_witness_subport_link

end Verif.View
