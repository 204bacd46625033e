import Verif.Render.Dot
import Verif.Lca.Props
import Verif.Algo.TopoProps
import Verif.Multi.Props

/-!
# C44: the renderings draw each node and link once
-/

namespace Verif.Render

open Verif (Direction)
open Verif.View Verif.Hier Verif.PG Verif.Multi

variable {E : Type} {G : GView E}

/-! ## The queries of the explorer do not panic -/

theorem lca_total {h : Hierarchy} (hr : Hier.Reach h) {nodes : List Nat} (hnd : nodes.Nodup) :
    ∃ s, Lca.new nodes h = some s ∧ Lca.Good h.kids h.parent (Lca.Covered nodes h) s ∧
      ∀ a b, (s.lca h.fuel a b).isSome = true := by
  have T := Lca.tree_of_reach hr
  have hroot : ∀ n, h.isRoot n = true ↔ h.parent n = none := by
    intro n; simp [Hierarchy.isRoot, Hierarchy.parent, Option.isNone_iff_eq_none]
  obtain ⟨L, s, t, h1, h2, h3⟩ := Lca.roots_ok T (Nat.le_of_lt (Lca.lt_two_pow _)) (Lca.tree_size hr) hroot ⟨fun _ => 0, fun _ => 0, fun _ => []⟩ (fun _ => rfl)
    nodes [] (by simpa using hnd) [] _ 0 (Lca.Done.nil _ _ _ _) (by simp)
  have hc : ∀ x, Lca.Covered nodes h x ↔ x ∈ L := by
    intro x; rw [h3]; simp [Lca.Covered, hroot]
  obtain ⟨s', hs, Gd⟩ := Lca.new_ok hr hnd
  have hs' : Lca.new nodes h = some s := by simp [Lca.new, h1]
  rw [hs'] at hs
  cases hs
  have hun : ∀ x, ¬ Lca.Covered nodes h x → s.first x = 0 ∧ s.last x = 0 ∧ s.climb x = [] :=
    fun x hx => h2.keep x fun hm => hx ((hc x).2 hm)
  have hru : ∀ x, ¬ Lca.Covered nodes h x → s.root h.fuel x = some x := by
    intro x hx
    obtain ⟨f, hf⟩ : ∃ f, h.fuel = f + 1 := ⟨_, rfl⟩
    rw [hf]
    simp [Lca.LCA.root, (hun x hx).2.2]
  have hne : ∀ x y r, Lca.Covered nodes h x → ¬ Lca.Covered nodes h y → s.root h.fuel x = some r → r ≠ y := by
    rintro x y r hx hy hr' rfl
    obtain ⟨r', h4, -, h5⟩ := Lca.root_ok T Gd h.fuel x hx (T.depth x)
    rw [hr'] at h4
    cases h4
    exact hy (Gd.up x r hx h5)
  refine ⟨s, hs', Gd, fun a b => ?_⟩
  by_cases ha : Lca.Covered nodes h a
  · by_cases hb : Lca.Covered nodes h b
    · obtain ⟨o, h4, -⟩ := Lca.lca_ok T Gd ha hb
      rw [h4]; rfl
    · obtain ⟨r, h4, -, -⟩ := Lca.root_ok T Gd h.fuel a ha (T.depth a)
      unfold Lca.LCA.lca Lca.LCA.lcaWith
      split
      · rfl
      · split
        · rfl
        · rw [h4, hru b hb]
          simp only
          rw [if_pos (hne a b r ha hb h4)]
          rfl
  · by_cases hb : Lca.Covered nodes h b
    · obtain ⟨r, h4, -, -⟩ := Lca.root_ok T Gd h.fuel b hb (T.depth b)
      unfold Lca.LCA.lca Lca.LCA.lcaWith
      split
      · rfl
      · split
        · rfl
        · rw [h4, hru a ha]
          simp only
          rw [if_pos (hne b a r hb ha h4).symm]
          rfl
    · unfold Lca.LCA.lca Lca.LCA.lcaWith
      rw [if_pos]
      · rfl
      · simp [Lca.LCA.isAncestor, (hun a ha).1, (hun a ha).2.1, (hun b hb).1, (hun b hb).2.1]

theorem ctx_none (ok : G.Ok) : Ctx G noTree (fun _ => []) (fun _ => none) 1 where
  ok := ok
  tree := ⟨⟨fun _ => List.nodup_nil, fun _ _ _ h => by simp at h, fun _ _ h => by simp at h⟩, by simp,
    fun _ => rfl, by omega⟩
  kids := rfl
  leaf _ := by simp [noTree]
  root _ := by simp [noTree]
  closed _ _ c hc := by simp at hc
  lca _ _ := rfl

theorem ctx_tree (ok : G.Ok) {h : Hierarchy} (hr : Hier.Reach h)
    (hc : ∀ n c, G.containsNode n = true → h.parent c = some n → G.containsNode c = true) :
    ∃ T, GView.tree G h = some T ∧ Ctx G T h.kids h.parent h.fuel ∧
      ((∀ n, G.containsNode n = true → Lca.Covered G.nodes h n) → ∀ a b k, G.containsNode a = true →
        G.containsNode b = true → T.lca a b = some (some k) → Anc h.kids k a ∧ Anc h.kids k b) := by
  obtain ⟨s, h1, Gd, h2⟩ := lca_total hr ok.nodes_nodup
  have h3 := C23_forest_partial hr
  have tree := Lca.tree_of_reach hr
  refine ⟨_, by rw [GView.tree, h1]; rfl, ⟨ok, tree, rfl, ?_, ?_, ?_, h2⟩, ?_⟩
  · intro n
    have := (h3.2.2.1 n).2.2.2
    cases hb : h.hasChildren n with
    | true => simp [this.1 hb, hb]
    | false =>
      have : h.kids n = [] := by
        by_contra hk
        rw [this.2 hk] at hb; cases hb
      simp [this, hb]
  · intro n
    simp only [Hierarchy.isRoot]
    cases h.parent n with
    | none => simp
    | some p => cases hb : G.containsNode p <;> simp [Option.filter, hb]
  · exact fun n hn c hk => hc n c hn ((tree.par_iff c n).2 hk)
  · intro hcov a b k ha hb hl
    obtain ⟨o, h4, h5, -⟩ := Lca.lca_ok tree Gd (hcov a ha) (hcov b hb)
    rw [show s.lca h.fuel a b = some (some k) from hl] at h4
    cases h4
    exact ⟨(h5 k rfl).1, (h5 k rfl).2.1⟩

/-! ## Mermaid -/

/-- **C44** Without a hierarchy, for every view and whatever order the hash map is iterated in: the mermaid
output draws every node once and every link once, and each link after its ends. -/
theorem C44_mermaid_flat (ok : G.Ok) {order : Pending E → Pending E} (ho : ∀ es, (order es).Perm es) {fuel : Nat}
    (hf : 2 * G.nodes.length ≤ fuel) :
    ∃ out, mermaid G none order fuel = some out ∧ Drawing G (fun _ => none) out ∧ Placed (fun _ => []) out := by
  obtain ⟨out, h1, h2, h3⟩ := explore_ok (ctx_none ok) ho hf
  exact ⟨out, h1, h2, h3 fun a b k _ _ h => by cases h⟩

/-- **C44**, with a hierarchy made by any history of calls, for views that contain the children of their
nodes: the mermaid output is produced without a panic, draws every node of the view exactly once and inside
the subgraph of its parent, draws every link exactly once, and the subgraph markers are balanced. If also the
roots of all trees are in the view, then every link is drawn after its ends and only inside subgraphs that
contain both ends. Partial: for other views it is false, see the witnesses. -/
theorem C44_mermaid_partial (ok : G.Ok) {h : Hierarchy} (hr : Hier.Reach h)
    (hc : ∀ n c, G.containsNode n = true → h.parent c = some n → G.containsNode c = true)
    {order : Pending E → Pending E} (ho : ∀ es, (order es).Perm es) {fuel : Nat} (hf : 2 * G.nodes.length ≤ fuel) :
    ∃ out, mermaid G (some h) order fuel = some out ∧ Drawing G h.parent out ∧
      ((∀ n, G.containsNode n = true → Lca.Covered G.nodes h n) → Placed h.kids out) := by
  obtain ⟨T, h1, C, h2⟩ := ctx_tree ok hr hc
  obtain ⟨out, h3, h4, h5⟩ := explore_ok C ho hf
  exact ⟨out, by simp [mermaid, h1, h3], h4, fun hcov => h5 (h2 hcov)⟩

/-- **C44** For a hierarchy on the nodes of the view, all of this holds. -/
theorem C44_mermaid_whole (ok : G.Ok) {h : Hierarchy} (hr : Hier.Reach h)
    (hc : ∀ n c, h.parent c = some n → G.containsNode n = true ∧ G.containsNode c = true)
    {order : Pending E → Pending E} (ho : ∀ es, (order es).Perm es) {fuel : Nat} (hf : 2 * G.nodes.length ≤ fuel) :
    ∃ out, mermaid G (some h) order fuel = some out ∧ Drawing G h.parent out ∧ Placed h.kids out := by
  obtain ⟨out, h1, h2, h3⟩ := C44_mermaid_partial ok hr (fun n c _ h => (hc n c h).2) ho hf
  refine ⟨out, h1, h2, h3 fun n hn => ?_⟩
  have T := Lca.tree_of_reach hr
  obtain ⟨r, h4, h5⟩ := T.root_exists n
  have hrc : G.containsNode r = true := by
    rcases Lca.anc_child h5 with rfl | ⟨c, h6, -⟩
    · exact hn
    · exact (hc r c ((T.par_iff c r).2 h6)).1
  exact ⟨r, (ok.mem_nodes r).2 hrc, by simp [Hierarchy.isRoot, h4], h5⟩

/-- The output for the example: 1 to 3 in the subgraph of 0, and 5 and 4 in the subgraph of 2. -/
example : mermaid (ofPG Algo.dagG 0 0) (some exH) id 12 = some
    [.start 0, .leaf 1, .start 2, .leaf 5, .leaf 4, .stop, .leaf 3, .link ⟨0, 0, 1, 2⟩, .link ⟨0, 1, 2, 4⟩,
      .link ⟨1, 3, 3, 6⟩, .link ⟨2, 5, 3, 7⟩, .link ⟨3, 9, 4, 10⟩, .stop] := by decide +kernel

/-- The example meets the conditions. -/
example : ∃ out, mermaid (ofPG Algo.dagG 0 0) (some exH) id 12 = some out ∧ Drawing (ofPG Algo.dagG 0 0) exH.parent out ∧
    Placed exH.kids out := by
  refine C44_mermaid_whole (ofPG_ok (Algo.dagG_reach.inv (by decide)) 0 0) exH_reach ?_ (fun _ => .refl _) (by decide +kernel)
  intro n c hp
  have h1 : ∀ c < exH.data.data.length, ∀ n < 6, exH.parent c = some n → (ofPG Algo.dagG 0 0).containsNode n = true ∧
      (ofPG Algo.dagG 0 0).containsNode c = true := by decide +kernel
  have h2 : ∀ c < exH.data.data.length, ∀ n, exH.parent c = some n → n < 6 := by
    have : ∀ c < exH.data.data.length, (exH.parent c).all (· < 6) = true := by decide +kernel
    intro c hc n hn
    have := this c hc
    rw [hn] at this
    simpa using this
  have hc := exH_reach.inv.1.lt_of_mem ((Lca.tree_of_reach exH_reach).par_iff c n |>.1 hp)
  exact h1 c hc n (h2 c hc n hp) hp

/-- **C44 fails** for flat regions: the explorer also draws the grandchildren of the root, which are not in the
view. -/
theorem C44_witness_flat_region : ∃ out, mermaid ((ofPG Algo.dagG 0 0).flatRegion exH 0 true) (some exH) id 12 = some out ∧
    4 ∈ drawn out ∧ ((ofPG Algo.dagG 0 0).flatRegion exH 0 true).containsNode 4 = false := by
  refine ⟨[.start 0, .leaf 1, .start 2, .leaf 5, .leaf 4, .stop, .leaf 3, .link ⟨0, 0, 1, 2⟩, .link ⟨0, 1, 2, 4⟩,
      .link ⟨1, 3, 3, 6⟩, .link ⟨2, 5, 3, 7⟩, .stop], ?_, ?_, ?_⟩ <;> decide +kernel

/-- **C44 fails** for filtered graphs: if node 2 is filtered out, its children 5 and 4 are drawn as roots, and
then a second time below 2, which is drawn as well. -/
theorem C44_witness_filtered : ∃ out,
    mermaid ((ofPG Algo.dagG 0 0).filtered (· ≠ 2) fun _ => true) (some exH) id 12 = some out ∧
    ¬ (drawn out).Nodup ∧ 2 ∈ drawn out ∧ ((ofPG Algo.dagG 0 0).filtered (· ≠ 2) fun _ => true).containsNode 2 = false := by
  refine ⟨[.leaf 5, .leaf 4, .start 0, .leaf 1, .start 2, .leaf 5, .leaf 4, .stop, .leaf 3, .link ⟨0, 0, 1, 2⟩,
      .link ⟨1, 3, 3, 6⟩, .link ⟨3, 9, 4, 10⟩, .stop], ?_, ?_, ?_, ?_⟩ <;> decide +kernel

/-- A tree with root 5, the chain 0, 1, 2 below it, and 3 below 0 after 1. -/
def deepOps : List Hier.Op := [.pushChild 0 5, .pushChild 1 0, .pushChild 3 0, .pushChild 2 1]

def deepH : Hierarchy := ((Hier.runOps .new deepOps).getD ([], .new)).2

theorem deepH_reach : Hier.Reach deepH :=
  runOps_reach (ops := deepOps) (h' := deepH) (rs := List.replicate 4 (.ok none)) .new
    (by intro op hop; simp [deepOps] at hop; rcases hop with rfl | rfl | rfl | rfl <;> simp [Hier.Op.ok]) rfl

/-- **C44**, the placement of links, fails if the root of the tree is not in the view: the link from 1 to 3 is
drawn inside the subgraph of 1, where 3 does not belong, before 3 is drawn. -/
theorem C44_witness_link_place : ∃ out,
    mermaid ((ofPG Algo.dagG 0 0).filtered (· ≠ 5) fun _ => true) (some deepH) id 12 = some out ∧ ¬ Placed deepH.kids out := by
  refine ⟨[.leaf 4, .start 0, .start 1, .leaf 2, .link ⟨1, 3, 3, 6⟩, .stop, .leaf 3, .link ⟨0, 0, 1, 2⟩, .link ⟨0, 1, 2, 4⟩,
      .stop, .link ⟨2, 5, 3, 7⟩, .link ⟨3, 9, 4, 10⟩], ?_, ?_⟩
  · decide +kernel
  · intro h
    have := (h [.leaf 4, .start 0, .start 1, .leaf 2] _ ⟨1, 3, 3, 6⟩ rfl).2.1
    simp [drawn] at this

/-- The first part of `C44_mermaid_partial` still applies to this view. -/
theorem deepH_closed : ∀ n c, ((ofPG Algo.dagG 0 0).filtered (· ≠ 5) fun _ => true).containsNode n = true → deepH.parent c = some n →
    ((ofPG Algo.dagG 0 0).filtered (· ≠ 5) fun _ => true).containsNode c = true := by
  intro n c _ hp
  have hc := deepH_reach.inv.1.lt_of_mem ((Lca.tree_of_reach deepH_reach).par_iff c n |>.1 hp)
  have h1 : ∀ c < deepH.data.data.length, (deepH.parent c).isSome = true →
    ((ofPG Algo.dagG 0 0).filtered (· ≠ 5) fun _ => true).containsNode c = true := by decide +kernel
  exact h1 c hc (by rw [hp]; rfl)

example := C44_mermaid_partial (filtered_ok (ofPG_ok (Algo.dagG_reach.inv (by decide)) 0 0) (· ≠ 5) fun _ => true) deepH_reach deepH_closed
  (order := List.reverse) (fun l => l.reverse_perm) (fuel := 12) (by decide +kernel)

/-! ## Dot -/

/-- **C44** The dot output, for every view and every choice of hidden nodes and ports: one statement for each
node that is not hidden, showing its ports that are not hidden by their offsets; and exactly one edge for each
link that starts at a node that is not hidden, from the position of its outgoing port to the position of its
incoming port. -/
theorem C44_dot (ok : G.Ok) (off : OffsetsOk G) (forest : Option Hierarchy) (nodeHidden portHidden : Nat → Bool) :
    ∃ out, dot G forest nodeHidden portHidden = some out ∧
      ((dotNodes out).map (·.1)).Nodup ∧
      (∀ n, n ∈ (dotNodes out).map (·.1) ↔ G.containsNode n = true ∧ nodeHidden n = false) ∧
      (∀ x ∈ dotNodes out, ShowsPorts G portHidden x.1 .incoming x.2.1 ∧ ShowsPorts G portHidden x.1 .outgoing x.2.2) ∧
      ∃ ls : List (E × E), ls.Nodup ∧
        (∀ e f, (e, f) ∈ ls ↔ G.Shows e f ∧ G.portDirection (G.toPort e) = some .outgoing ∧ ∃ n, G.On e n ∧ nodeHidden n = false) ∧
        List.Forall₂ (Names G) ls (dotEdges out) := by
  obtain ⟨out, h1, h2, h3, -, -⟩ := nodesDot_ok (nodeHidden := nodeHidden) (portHidden := portHidden) ok off G.nodes
  have htail : ∀ t : List DStmt, (t = [] ∨ ∃ h, t = hierarchyDot G h) → dotNodes t = [] ∧ dotEdges t = [] := by
    rintro t (rfl | ⟨h, rfl⟩)
    · exact ⟨rfl, rfl⟩
    · exact ⟨(hierarchyDot_ok G h G.nodes).1, (hierarchyDot_ok G h G.nodes).2.1⟩
  obtain ⟨t, ht, ht'⟩ : ∃ t, dot G forest nodeHidden portHidden = some (out ++ t) ∧ (t = [] ∨ ∃ h, t = hierarchyDot G h) := by
    cases forest with
    | none => exact ⟨[], by simp [dot, h1], .inl rfl⟩
    | some h => exact ⟨_, by simp only [dot, h1]; rfl, .inr ⟨h, rfl⟩⟩
  obtain ⟨h4, h5⟩ := htail t ht'
  have e1 : dotNodes (out ++ t) = dotNodes out := by
    have : dotNodes (out ++ t) = dotNodes out ++ dotNodes t := List.filterMap_append
    rw [this, h4, List.append_nil]
  have e2 : dotEdges (out ++ t) = dotEdges out := by
    have : dotEdges (out ++ t) = dotEdges out ++ dotEdges t := List.filterMap_append
    rw [this, h5, List.append_nil]
  have hm : (dotNodes out).map (·.1) = G.nodes.filter fun n => !nodeHidden n := by
    rw [h2, List.map_map]
    exact List.map_id _
  refine ⟨_, ht, ?_, ?_, ?_, (G.nodes.filter fun n => !nodeHidden n).flatMap fun n => G.links n .outgoing, ?_, ?_, ?_⟩
  · rw [e1, hm]; exact ok.nodes_nodup.filter _
  · intro n
    rw [e1, hm]
    simp [ok.mem_nodes]
  · intro x hx
    rw [e1, h2] at hx
    obtain ⟨n, -, rfl⟩ := List.mem_map.1 hx
    exact ⟨shownPorts_ok .., shownPorts_ok ..⟩
  · rw [List.nodup_flatMap]
    refine ⟨fun n _ => ok.links_nodup' n _, (ok.nodes_nodup.filter _).imp ?_⟩
    rintro a b hab ⟨e, f⟩ hx hx'
    have h6 := (ok.mem_links.1 hx).2.1
    have h7 := (ok.mem_links.1 hx').2.1
    exact hab (Option.some.inj (h6.symm.trans h7))
  · intro e f
    simp only [List.mem_flatMap, List.mem_filter, ok.mem_nodes, Bool.not_eq_true']
    constructor
    · rintro ⟨n, ⟨-, h6⟩, h7⟩
      obtain ⟨h8, h9, h10⟩ := ok.mem_links.1 h7
      exact ⟨h8, h10, n, h9, h6⟩
    · rintro ⟨h6, h7, n, h8, h9⟩
      obtain ⟨n', -, -, h10, -, h11, -⟩ := ok.shows_dir _ _ h6
      have : some n' = some n := h10.symm.trans h8
      cases this
      exact ⟨n, ⟨h11, h9⟩, ok.mem_links.2 ⟨h6, h8, h7⟩⟩
  · rw [e2]; exact h3

/-- **C44** The dot output of the hierarchy: one statement per node, and one dashed edge for each node of the
view with a parent in the view. -/
theorem C44_dot_hierarchy (ok : G.Ok) (off : OffsetsOk G) {h : Hierarchy} (hr : Hier.Reach h) (nodeHidden portHidden : Nat → Bool) :
    ∃ out, dot G (some h) nodeHidden portHidden = some out ∧
      (dotTree out).Nodup ∧ (∀ n, n ∈ dotTree out ↔ G.containsNode n = true) ∧
      (dotTreeEdges out).Nodup ∧
      ∀ p c, (p, c) ∈ dotTreeEdges out ↔ h.parent c = some p ∧ G.containsNode p = true ∧ G.containsNode c = true := by
  obtain ⟨out, h1, -, -, h2, h3⟩ := nodesDot_ok (nodeHidden := nodeHidden) (portHidden := portHidden) ok off G.nodes
  obtain ⟨-, -, h4, h5⟩ := hierarchyDot_ok G h G.nodes
  have T := Lca.tree_of_reach hr
  have e1 : dotTree (out ++ hierarchyDot G h) = G.nodes := by
    have : dotTree (out ++ hierarchyDot G h) = dotTree out ++ dotTree (hierarchyDot G h) := List.filterMap_append
    rw [this, h2]; exact h4
  have e2 : dotTreeEdges (out ++ hierarchyDot G h) = G.nodes.flatMap fun n => ((h.kids n).filter G.containsNode).map (n, ·) := by
    have : dotTreeEdges (out ++ hierarchyDot G h) = dotTreeEdges out ++ dotTreeEdges (hierarchyDot G h) := List.filterMap_append
    rw [this, h3]; exact h5
  refine ⟨out ++ hierarchyDot G h, by simp only [dot, h1]; rfl, ?_, ?_, ?_, ?_⟩
  · rw [e1]; exact ok.nodes_nodup
  · rw [e1]; exact ok.mem_nodes
  · rw [e2, List.nodup_flatMap]
    refine ⟨fun n _ => ((T.forest.once n).filter _).map fun a b h => (Prod.mk.inj h).2, ok.nodes_nodup.imp ?_⟩
    rintro a b hab x hx hx'
    obtain ⟨c, -, rfl⟩ := List.mem_map.1 hx
    obtain ⟨c', -, h6⟩ := List.mem_map.1 hx'
    exact hab (Prod.mk.inj h6).1.symm
  · intro p c
    rw [e2]
    simp only [List.mem_flatMap, List.mem_map, List.mem_filter, ok.mem_nodes, Prod.mk.injEq, T.par_iff]
    constructor
    · rintro ⟨n, h6, c', ⟨h7, h8⟩, rfl, rfl⟩
      exact ⟨h7, h6, h8⟩
    · rintro ⟨h6, h7, h8⟩
      exact ⟨p, h7, c, ⟨h6, h8⟩, rfl, rfl⟩

/-- The example, with node 2 and port 0 hidden. -/
example : dot (ofPG Algo.dagG 0 0) (some exH) (· = 2) (· = 0) = some
    [.node 0 [] [1], .edge 0 0 1 0, .edge 0 1 2 0, .node 1 [0] [0], .edge 1 0 3 0, .node 3 [0, 1, 2] [0], .edge 3 0 4 0,
      .node 4 [0] [0], .node 5 [] [], .hnode 0, .hedge 0 1, .hedge 0 2, .hedge 0 3, .hnode 1, .hnode 2, .hedge 2 5, .hedge 2 4,
      .hnode 3, .hnode 4, .hnode 5] := by decide +kernel

example : (ofPG Algo.dagG 0 0).Ok ∧ OffsetsOk (ofPG Algo.dagG 0 0) :=
  ⟨ofPG_ok (Algo.dagG_reach.inv (by decide)) 0 0, offsets_pg (Algo.dagG_reach.inv (by decide)) 0 0⟩

/-- `NodeStyle::Hidden` (`src/render.rs` line 68) promises that no edges are connected to the node; but the dot
output has an edge from node 0 to the hidden node 2. -/
theorem C44_witness_hidden : ∃ out, dot (ofPG Algo.dagG 0 0) none (· = 2) (fun _ => false) = some out ∧
    ((0, 1), (2, 0)) ∈ dotEdges out ∧ 2 ∉ (dotNodes out).map (·.1) := by
  refine ⟨_, rfl, ?_, ?_⟩ <;> decide +kernel

example := C44_mermaid_flat (ofPG_ok (Algo.dagG_reach.inv (by decide)) 0 0) (order := List.reverse) (fun l => l.reverse_perm) (fuel := 12) (by decide +kernel)

example := C44_dot (ofPG_ok (Algo.dagG_reach.inv (by decide)) 0 0) (offsets_pg (Algo.dagG_reach.inv (by decide)) 0 0) (some exH) (· = 2) (· = 0)

end Verif.Render

#print axioms Verif.Render.C44_mermaid_flat
#print axioms Verif.Render.C44_mermaid_partial
#print axioms Verif.Render.C44_mermaid_whole
#print axioms Verif.Render.C44_witness_flat_region
#print axioms Verif.Render.C44_witness_filtered
#print axioms Verif.Render.C44_witness_link_place
#print axioms Verif.Render.C44_dot
#print axioms Verif.Render.C44_dot_hierarchy
#print axioms Verif.Render.C44_witness_hidden
