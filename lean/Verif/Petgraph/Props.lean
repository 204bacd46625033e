import Verif.Petgraph.Spec
import Verif.View.PropsCap
import Verif.Secondary.Props
import Verif.Multi.Check
import Verif.Multi.Props

/-!
# C43, C49, C50: the traits of `petgraph`
-/

namespace Verif.Pet

open Verif (Direction)
open Verif.View Verif.Secondary Verif.PG Verif.Multi

variable {E : Type}

/-! ## Visit maps -/

theorem marked_snoc {cs : List Call} {c : Call} {a : Nat} :
    Marked (cs ++ [c]) a ↔ c = .visit a ∨ Marked cs a ∧ c ≠ .unvisit a ∧ c ≠ .reset := by
  constructor
  · rintro ⟨l1, l2, h1, h2, h3⟩
    rcases List.eq_nil_or_concat l2 with rfl | ⟨l2, x, rfl⟩
    · left
      have := List.append_inj_right' (h1 : cs ++ [c] = l1 ++ [.visit a]) rfl
      simpa using this
    · right
      rw [List.concat_eq_append] at h1 h2 h3
      have h4 : cs ++ [c] = (l1 ++ .visit a :: l2) ++ [x] := by simpa using h1
      have h5 := List.append_inj_left' h4 rfl
      have h6 := List.append_inj_right' h4 rfl
      simp only [List.cons.injEq, and_true] at h6
      subst h6
      simp only [List.mem_append, List.mem_singleton, not_or] at h2 h3
      exact ⟨⟨l1, l2, h5, h2.1, h3.1⟩, fun h => h2.2 h.symm, fun h => h3.2 h.symm⟩
  · rintro (rfl | ⟨⟨l1, l2, rfl, h2, h3⟩, h4, h5⟩)
    · exact ⟨cs, [], rfl, by simp, by simp⟩
    · refine ⟨l1, l2 ++ [c], by simp, ?_, ?_⟩ <;> simp only [List.mem_append, List.mem_singleton, not_or]
      · exact ⟨h2, fun h => h4 h.symm⟩
      · exact ⟨h3, fun h => h5 h.symm⟩

/-- **C43** After any calls, `is_visited` tells whether the node was visited and not unvisited since,
and `unvisit` returns whether it was. -/
theorem C43_visit_map (cs : List Call) (a : Nat) :
    (isVisited (cs.foldl Call.apply visitMap) a = true ↔ Marked cs a) ∧
      ((unvisit (cs.foldl Call.apply visitMap) a).1 = true ↔ Marked cs a) := by
  suffices h : isVisited (cs.foldl Call.apply visitMap) a = true ↔ Marked cs a from ⟨h, h⟩
  induction cs using List.reverseRecOn with
  | nil =>
    refine ⟨fun h => by simp [isVisited, visitMap, Bits.get] at h, ?_⟩
    rintro ⟨l1, l2, h, -⟩
    simp at h
  | append_singleton cs c ih =>
    rw [marked_snoc, List.foldl_concat, ← ih]
    cases c with
    | visit b =>
      show Bits.get (Bits.set _ b true) a = true ↔ _
      rw [Bits.get_set]
      by_cases h : a = b
      · simp [h]
      · simp [h, Ne.symm h, isVisited]
    | unvisit b =>
      show Bits.get (Bits.set _ b false) a = true ↔ _
      rw [Bits.get_set]
      by_cases h : a = b
      · simp [h]
      · simp [h, isVisited]
        exact fun _ e => (h e.symm).elim
    | reset => simp [Call.apply, resetMap, isVisited, Bits.get]

/-- **C43** What `visit` returns: whether the node had been visited before. `petgraph` asks for the
opposite ("return true if this is the first visit"), so the claim fails for every call. -/
theorem C43_visit_opposite (cs : List Call) (a : Nat) :
    (visit (cs.foldl Call.apply visitMap) a).1 = true ↔ Marked cs a := (C43_visit_map cs a).1

/-- Failure of C43: the first visit of a node returns `false`, the second `true`. -/
theorem C43_witness_visit : (visit visitMap 3).1 = false ∧ (visit (visit visitMap 3).2 3).1 = true := by decide

/-! ## Node bounds -/

/-- **C43** `node_bound` is larger than all node indices exactly if the nodes are `0, …, count - 1`.
Missing: graphs with gaps in the indices, where the claim fails. -/
theorem C43_node_bound_partial {G : GView E} (ok : G.Ok) :
    (∀ n, G.containsNode n = true → n < nodeBound G) ↔ ∀ n, G.containsNode n = true ↔ n < nodeBound G := by
  refine ⟨fun h => ?_, fun h n hn => (h n).1 hn⟩
  have hsub : G.nodes ⊆ List.range G.nodes.length := fun n hn => by
    have := h n ((ok.mem_nodes n).1 hn)
    rw [nodeBound, ok.node_count] at this
    simpa using this
  have hp : G.nodes.Perm (List.range G.nodes.length) :=
    (List.subperm_of_subset ok.nodes_nodup hsub).perm_of_length_le (by simp)
  intro n
  rw [← ok.mem_nodes, hp.mem_iff, nodeBound, ok.node_count, List.mem_range]

/-- Failure of C43: after the removal of node 0 the bound is 1, but the node 1 is left. -/
theorem C43_witness_node_bound : ∃ g, PG.Reach 32767 g ∧ g.containsNode 1 = true ∧ nodeBound (ofPG g 0 0) = 1 :=
  ⟨(PG.run 32767 PG.empty [.addNode 0 0, .addNode 0 0, .removeNode 0]).getD PG.empty,
    checkedRun_reach .init (ops := [.addNode 0 0, .addNode 0 0, .removeNode 0]) (by decide), by decide, by decide⟩

/-! ## Neighbours -/

theorem far_node {G : GView E} (ok : G.Ok) {e f : E} (h : G.Shows e f) : ∃ b, G.On f b := by
  obtain ⟨n, d, m, -, -, -, h1, -⟩ := ok.shows_dir _ _ h
  exact ⟨m, h1⟩

theorem in_iff {G : GView E} (ok : G.Ok) {n : Nat} {e f : E} :
    (G.Shows e f ∧ G.On e n ∧ G.portDirection (G.toPort e) = some .incoming) ↔ ∃ b, Edge G b n f e := by
  constructor
  · rintro ⟨h1, h2, h3⟩
    obtain ⟨b, hb⟩ := far_node ok h1
    obtain ⟨n', d, m, -, h8, -, -, h9, -⟩ := ok.shows_dir _ _ h1
    rw [h3] at h8
    cases h8
    exact ⟨b, ok.shows_sym _ _ h1, h9, hb, h2⟩
  · rintro ⟨b, h1, h2, h3, h4⟩
    obtain ⟨n', d, m, -, h8, -, -, h9, -⟩ := ok.shows_dir _ _ h1
    rw [h2] at h8
    cases h8
    exact ⟨ok.shows_sym _ _ h1, h4, h9⟩

theorem refs_of {G : GView E} (ok : G.Ok) {l : List (E × E)} (h : ∀ e f, (e, f) ∈ l → G.Shows e f) :
    ∃ L, l.mapM (edgeRef G) = some L ∧ L.map (·.edge) = l ∧
      ∀ a b e f, ⟨a, b, (e, f)⟩ ∈ L ↔ (e, f) ∈ l ∧ G.On e a ∧ G.On f b := by
  induction l with
  | nil => exact ⟨[], rfl, rfl, by simp⟩
  | cons x l ih =>
    obtain ⟨L, h1, h2, h3⟩ := ih fun e f h' => h e f (List.mem_cons_of_mem _ h')
    obtain ⟨x, y⟩ := x
    obtain ⟨a, d, b, h4, -, -, h5, -⟩ := ok.shows_dir _ _ (h x y (by simp))
    have h4 : G.portNode (G.toPort x) = some a := h4
    have h5 : G.portNode (G.toPort y) = some b := h5
    refine ⟨⟨a, b, (x, y)⟩ :: L, ?_, by simp [h2], fun a' b' e f => ?_⟩
    · rw [List.mapM_cons, h1]
      simp [edgeRef, h4, h5]
    · rw [List.mem_cons, h3, List.mem_cons]
      constructor
      · rintro (h | ⟨h6, h7⟩)
        · cases h; exact ⟨.inl rfl, h4, h5⟩
        · exact ⟨.inr h6, h7⟩
      · rintro ⟨h | h6, h7, h8⟩
        · cases h
          unfold GView.On at h7 h8
          rw [h4] at h7; rw [h5] at h8
          cases h7; cases h8
          exact .inl rfl
        · exact .inr ⟨h6, h7, h8⟩

/-- **C49** `neighbors` and `neighbors_directed` list the node at the other end of each link of the node,
once per link: there is a list of the links with that direction without repetition. -/
theorem C49_neighbors {G : GView E} (ok : G.Ok) {n : Nat} (hn : G.containsNode n = true) :
    (∃ L : List (E × E), L.Nodup ∧ (∀ e f, (e, f) ∈ L ↔ ∃ b, Edge G n b e f) ∧
      (neighbors G n).map some = L.map fun l => G.portNode (G.toPort l.2)) ∧
    neighborsDirected G n .outgoing = neighbors G n ∧
    (∃ L : List (E × E), L.Nodup ∧ (∀ e f, (e, f) ∈ L ↔ ∃ b, Edge G b n f e) ∧
      (neighborsDirected G n .incoming).map some = L.map fun l => G.portNode (G.toPort l.2)) := by
  refine ⟨⟨G.links n .outgoing, ok.links_nodup' n _, fun e f => ?_, ok.neighbours_eq n _ hn⟩, rfl,
    ⟨G.links n .incoming, ok.links_nodup' n _, fun e f => ?_, ok.neighbours_eq n _ hn⟩⟩
  · rw [ok.mem_links]
    constructor
    · rintro ⟨h1, h2, h3⟩
      obtain ⟨b, hb⟩ := far_node ok h1
      exact ⟨b, h1, h3, h2, hb⟩
    · rintro ⟨b, h1, h2, h3, -⟩
      exact ⟨h1, h3, h2⟩
  · rw [ok.mem_links, ← in_iff ok]

/-! ## Edges -/

/-- **C49** The exact items of `edge_references`: each link twice, once from each end, with the node of
that end as source. `petgraph` asks for each edge once, from source to target. -/
theorem C49_edge_references_partial {G : GView E} (ok : G.Ok) :
    ∃ L, edgeReferences G = some L ∧ (L.map (·.edge)).Nodup ∧
      (∀ a b e f, ⟨a, b, (e, f)⟩ ∈ L ↔ Edge G a b e f ∨ Edge G b a f e) ∧
      ∀ l, G.ListsLinks l → L.length = 2 * l.length := by
  obtain ⟨L, h1, h2, h3⟩ := refs_of ok (l := G.portsIter.flatMap G.portLinks) (fun e f h => by
    obtain ⟨p, -, h⟩ := List.mem_flatMap.1 h
    have := ok.from_port _ _ _ h
    subst this
    exact h)
  have hmem : ∀ e f, (e, f) ∈ G.portsIter.flatMap G.portLinks ↔ G.Shows e f := by
    intro e f
    rw [List.mem_flatMap]
    constructor
    · rintro ⟨p, -, h⟩
      have := ok.from_port _ _ _ h
      subst this
      exact h
    · intro h
      obtain ⟨n, d, m, h4, -, h5, -⟩ := ok.shows_dir _ _ h
      exact ⟨_, (ok.mem_iter _).2 ((ok.port_iff _).2 ⟨n, h4, h5⟩), h⟩
  have hnd : (G.portsIter.flatMap G.portLinks).Nodup := ok.flat_nodup _ ok.iter_nodup
  refine ⟨L, h1, h2 ▸ hnd, fun a b e f => ?_, fun l hl => ?_⟩
  · rw [h3, hmem]
    constructor
    · rintro ⟨h4, h5, h6⟩
      obtain ⟨n, d, m, h7, h8, -, h9, h10, -⟩ := ok.shows_dir _ _ h4
      cases d with
      | outgoing => exact .inl ⟨h4, h8, h5, h6⟩
      | incoming => exact .inr ⟨ok.shows_sym _ _ h4, h10, h6, h5⟩
    · rintro (⟨h4, -, h5, h6⟩ | ⟨h4, -, h5, h6⟩)
      · exact ⟨h4, h5, h6⟩
      · exact ⟨ok.shows_sym _ _ h4, h6, h5⟩
  · have e1 : L.length = (G.portsIter.flatMap G.portLinks).length := by rw [← h2, List.length_map]
    have hp : (G.portsIter.flatMap G.portLinks).Perm ((G.nodes.flatMap fun n => G.links n .incoming) ++ G.outLinks) := by
      obtain ⟨i1, i2⟩ := ok.dir_list .incoming
      obtain ⟨o1, o2⟩ := ok.dir_list .outgoing
      rw [List.perm_ext_iff_of_nodup hnd]
      · rintro ⟨e, f⟩
        rw [hmem, List.mem_append, i2, GView.outLinks, o2]
        constructor
        · intro h
          obtain ⟨n, d, m, -, h8, -⟩ := ok.shows_dir _ _ h
          cases d with
          | incoming => exact .inl ⟨h, h8⟩
          | outgoing => exact .inr ⟨h, h8⟩
        · rintro (h | h) <;> exact h.1
      · rw [List.nodup_append]
        refine ⟨i1, o1, ?_⟩
        rintro ⟨e, f⟩ h4 ⟨e', f'⟩ h5 h6
        cases h6
        have h7 := ((i2 _ _).1 h4).2
        have h8 := ((o2 _ _).1 h5).2
        rw [h7] at h8
        cases h8
    rw [e1, hp.length_eq, List.length_append, ok.in_length, ok.lists_length hl ok.outLinks_lists]
    omega

/-- **C49** `node_identifiers` and `node_references` yield each node once. -/
theorem C49_node_identifiers {G : GView E} (ok : G.Ok) :
    (nodeIdentifiers G).Nodup ∧ ∀ n, n ∈ nodeIdentifiers G ↔ G.containsNode n = true := ⟨ok.nodes_nodup, ok.mem_nodes⟩

/-- **C49** `edge_count` is the number of links, for views that count their links right (all but
`FilteredGraph`, see C37). The length that `edge_references` announces is half of the number of its items. -/
theorem C49_edge_count_partial {G : GView E} (ok : G.Ok) (hc : G.CountOk) :
    (∀ l, G.ListsLinks l → edgeCount G = l.length) ∧
    ∃ L, edgeReferences G = some L ∧ L.length = 2 * edgeReferencesLen G := by
  obtain ⟨l, h1, h2⟩ := hc
  obtain ⟨L, h3, -, -, h4⟩ := C49_edge_references_partial ok
  refine ⟨fun l' h' => ?_, L, h3, ?_⟩
  · show G.linkCount = _
    rw [h2, ok.lists_length h1 h']
  · rw [h4 l h1, edgeReferencesLen, h2]

/-- **C49** The exact items of `edges`: the links from the node, and also the links to it from other
nodes, with the ends exchanged. `petgraph` asks for the links from the node only. -/
theorem C49_edges_partial {G : GView E} (ok : G.Ok) (n : Nat) :
    ∃ L, edges G n = some L ∧ (L.map (·.edge)).Nodup ∧
      ∀ a b e f, ⟨a, b, (e, f)⟩ ∈ L ↔ a = n ∧ (Edge G n b e f ∨ Edge G b n f e ∧ b ≠ n) := by
  have hmem : ∀ e f, (e, f) ∈ G.allLinks n ↔ (G.Shows e f ∧ G.On e n) ∧ ¬ (G.On f n ∧ G.portDirection (G.toPort f) = some .outgoing) := by
    intro e f
    rw [ok.all_links, List.mem_filter, ok.all_ports, List.flatMap_append, ← ok.links_eq, ← ok.links_eq, List.mem_append,
      ok.mem_links, ok.mem_links]
    simp only [Bool.not_eq_true', decide_eq_false_iff_not]
    refine and_congr ⟨?_, ?_⟩ Iff.rfl
    · rintro (⟨h1, h2, -⟩ | ⟨h1, h2, -⟩) <;> exact ⟨h1, h2⟩
    · rintro ⟨h1, h2⟩
      obtain ⟨n', d, m, h3, h4, -⟩ := ok.shows_dir _ _ h1
      cases d with
      | incoming => exact .inl ⟨h1, h2, h4⟩
      | outgoing => exact .inr ⟨h1, h2, h4⟩
  obtain ⟨L, h1, h2, h3⟩ := refs_of ok (l := G.allLinks n) (fun e f h => ((hmem e f).1 h).1.1)
  refine ⟨L, h1, ?_, fun a b e f => ?_⟩
  · rw [h2, ok.all_links]
    refine List.Nodup.filter _ (ok.flat_nodup _ ?_)
    rw [ok.all_ports, List.nodup_append]
    refine ⟨ok.ports_nodup _ _, ok.ports_nodup _ _, ?_⟩
    rintro p h4 q h5 rfl
    have h6 := ((ok.mem_ports _ _ _).1 h4).2
    rw [((ok.mem_ports _ _ _).1 h5).2] at h6
    cases h6
  · rw [h3, hmem]
    constructor
    · rintro ⟨⟨⟨h4, h5⟩, h6⟩, h7, h8⟩
      have : a = n := by
        have h5 : G.portNode _ = some n := h5
        have h7 : G.portNode _ = some a := h7
        rw [h5] at h7; simpa using h7.symm
      subst this
      refine ⟨rfl, ?_⟩
      obtain ⟨n', d, m, -, h9, -, -, h10, -⟩ := ok.shows_dir _ _ h4
      cases d with
      | outgoing => exact .inl ⟨h4, h9, h5, h8⟩
      | incoming => exact .inr ⟨⟨ok.shows_sym _ _ h4, h10, h8, h5⟩, fun hb => h6 ⟨hb ▸ h8, h10⟩⟩
    · rintro ⟨rfl, ⟨h4, h5, h6, h7⟩ | ⟨⟨h4, h5, h6, h7⟩, h8⟩⟩
      · refine ⟨⟨⟨h4, h6⟩, fun h => ?_⟩, h6, h7⟩
        obtain ⟨n', d, m, -, h9, -, -, h10, -⟩ := ok.shows_dir _ _ h4
        rw [h5] at h9
        cases h9
        rw [h.2] at h10
        cases h10
      · refine ⟨⟨⟨ok.shows_sym _ _ h4, h7⟩, fun h => h8 ?_⟩, h7, h6⟩
        have h9 : G.portNode _ = some a := h.1
        have h10 : G.portNode _ = some b := h6
        rw [h9] at h10
        simpa using h10.symm

/-- **C49** The items of `edges_directed` with `Outgoing`: the links from the node. -/
theorem C49_edges_outgoing {G : GView E} (ok : G.Ok) (n : Nat) :
    ∃ L, edgesDirected G n .outgoing = some L ∧ (L.map (·.edge)).Nodup ∧
      ∀ a b e f, ⟨a, b, (e, f)⟩ ∈ L ↔ a = n ∧ Edge G a b e f := by
  obtain ⟨L, h1, h2, h3⟩ := refs_of ok (l := G.links n .outgoing) (fun e f h => (ok.mem_links.1 h).1)
  refine ⟨L, h1, h2 ▸ ok.links_nodup' n _, fun a b e f => ?_⟩
  rw [h3, ok.mem_links]
  constructor
  · rintro ⟨⟨h4, h5, h6⟩, h7, h8⟩
    have : a = n := by
      have h5 : G.portNode _ = some n := h5
      have h7 : G.portNode _ = some a := h7
      rw [h5] at h7; simpa using h7.symm
    subst this
    exact ⟨rfl, h4, h6, h5, h8⟩
  · rintro ⟨rfl, h4, h5, h6, h7⟩
    exact ⟨⟨h4, h6, h5⟩, h6, h7⟩

/-- **C49** The exact items of `edges_directed` with `Incoming`: the links to the node, but with the node
as source and the other end as target. `petgraph` asks for `target() == n`. -/
theorem C49_edges_incoming_partial {G : GView E} (ok : G.Ok) (n : Nat) :
    ∃ L, edgesDirected G n .incoming = some L ∧ (L.map (·.edge)).Nodup ∧
      ∀ a b e f, ⟨a, b, (e, f)⟩ ∈ L ↔ a = n ∧ Edge G b n f e := by
  obtain ⟨L, h1, h2, h3⟩ := refs_of ok (l := G.links n .incoming) (fun e f h => (ok.mem_links.1 h).1)
  refine ⟨L, h1, h2 ▸ ok.links_nodup' n _, fun a b e f => ?_⟩
  rw [h3, ok.mem_links, in_iff ok]
  constructor
  · rintro ⟨⟨c, h4, h5, h6, h6'⟩, h7, h8⟩
    have : a = n := by
      have h5 : G.portNode _ = some n := h6'
      have h7 : G.portNode _ = some a := h7
      rw [h5] at h7; simpa using h7.symm
    subst this
    exact ⟨rfl, h4, h5, h8, h6'⟩
  · rintro ⟨rfl, h4⟩
    exact ⟨⟨b, h4⟩, h4.2.2.2, h4.2.2.1⟩

/-! ## Adjacency -/

theorem mem_adjacent {G : GView E} (ok : G.Ok) {a b : Nat} : (a, b) ∈ adjacentPairs G ↔ ∃ e f, Edge G a b e f := by
  unfold adjacentPairs
  simp only [List.mem_flatMap, List.mem_map, Prod.mk.injEq]
  constructor
  · rintro ⟨n, hn, m, hm, rfl, rfl⟩
    obtain ⟨⟨L, -, h2, h3⟩, -⟩ := C49_neighbors ok ((ok.mem_nodes n).1 hn)
    have : some m ∈ (neighbors G n).map some := List.mem_map.2 ⟨m, hm, rfl⟩
    rw [h3, List.mem_map] at this
    obtain ⟨⟨e, f⟩, h4, h5⟩ := this
    obtain ⟨b, h6, h7, h8, -⟩ := (h2 e f).1 h4
    exact ⟨e, f, h6, h7, h8, h5⟩
  · rintro ⟨e, f, h⟩
    obtain ⟨n, d, m, h1, -, h2, -⟩ := ok.shows_dir _ _ h.1
    have : n = a := by
      have h1 : G.portNode _ = some n := h1
      have h3 : G.portNode _ = some a := h.2.2.1
      rw [h1] at h3; simpa using h3
    subst this
    obtain ⟨⟨L, -, h4, h5⟩, -⟩ := C49_neighbors ok h2
    have : (fun l : E × E => G.portNode (G.toPort l.2)) (e, f) ∈ L.map fun l => G.portNode (G.toPort l.2) :=
      List.mem_map.2 ⟨_, (h4 e f).2 ⟨b, h⟩, rfl⟩
    rw [← h5, List.mem_map] at this
    obtain ⟨m', h6, h7⟩ := this
    have h8 : G.portNode (G.toPort f) = some b := h.2.2.2
    have h7 := h7.trans h8
    simp only [Option.some.injEq] at h7
    subst h7
    exact ⟨n, (ok.mem_nodes n).2 h2, m', h6, rfl, rfl⟩

theorem setBits_ok {S : Nat} (xs : List (Nat × Nat)) (m : List Bool) (h : ∀ x ∈ xs, x.1 * S + x.2 < m.length) :
    ∃ m', xs.foldlM (fun m (x : Nat × Nat) => setBit m (x.1 * S + x.2)) m = some m' ∧ m'.length = m.length ∧
      ∀ k, k < m.length → (m'[k]? = some true ↔ m[k]? = some true ∨ ∃ x ∈ xs, x.1 * S + x.2 = k) := by
  induction xs generalizing m with
  | nil => exact ⟨m, rfl, rfl, by simp⟩
  | cons x xs ih =>
    have hx := h x (by simp)
    obtain ⟨m', h1, h2, h3⟩ := ih (m.set (x.1 * S + x.2) true) (by simpa using fun a b hab => h (a, b) (by simp [hab]))
    refine ⟨m', ?_, by simpa using h2, fun k hk => ?_⟩
    · rw [List.foldlM_cons, setBit, if_pos hx]
      exact h1
    · rw [h3 k (by simpa using hk), List.getElem?_set]
      simp only [List.mem_cons, exists_eq_or_imp]
      by_cases h4 : x.1 * S + x.2 = k
      · subst h4; simp [hx]
      · simp [h4]

/-- **C50** The matrix of a graph whose node indices are below its `node_capacity`: making it and asking
it for indices below the capacity does not panic, and the answer tells whether there is a link. -/
theorem C50_matrix {G : GView E} (ok : G.Ok) (hcap : ∀ n, G.containsNode n = true → n < G.nodeCapacity) :
    ∃ M, adjacencyMatrix G = some M ∧ ∀ a b, a < G.nodeCapacity → b < G.nodeCapacity →
      ∃ r, isAdjacent M a b = some r ∧ (r = true ↔ ∃ e f, Edge G a b e f) := by
  have hlt : ∀ {a b S}, a < S → b < S → a * S + b < S * S := fun {a b S} h1 h2 => by
    have h3 : (a + 1) * S ≤ S * S := Nat.mul_le_mul_right S h1
    rw [Nat.add_mul, Nat.one_mul] at h3
    exact Nat.lt_of_lt_of_le (Nat.add_lt_add_left h2 _) h3
  have hedge : ∀ {a b e f}, Edge G a b e f → a < G.nodeCapacity ∧ b < G.nodeCapacity := fun {a b e f} h => by
    obtain ⟨n, d, m, h1, -, h2, h3, -, h4⟩ := ok.shows_dir _ _ h.1
    have e1 : n = a := by
      have h1 : G.portNode _ = some n := h1
      have h5 : G.portNode _ = some a := h.2.2.1
      rw [h1] at h5; simpa using h5
    have e2 : m = b := by
      have h1 : G.portNode _ = some m := h3
      have h5 : G.portNode _ = some b := h.2.2.2
      rw [h1] at h5; simpa using h5
    exact ⟨hcap _ (e1 ▸ h2), hcap _ (e2 ▸ h4)⟩
  obtain ⟨m, h1, h2, h3⟩ := setBits_ok (S := G.nodeCapacity) (adjacentPairs G) (List.replicate (G.nodeCapacity * G.nodeCapacity) false) (by
    rintro ⟨a, b⟩ hx
    obtain ⟨e, f, h⟩ := (mem_adjacent ok).1 hx
    rw [List.length_replicate]
    exact hlt (hedge h).1 (hedge h).2)
  refine ⟨(m, G.nodeCapacity), ?_, fun a b ha hb => ?_⟩
  · simp only [adjacencyMatrix]
    rw [h1]
    rfl
  · have hk : a * G.nodeCapacity + b < m.length := by rw [h2, List.length_replicate]; exact hlt ha hb
    refine ⟨m[a * G.nodeCapacity + b], List.getElem?_eq_getElem hk, ?_⟩
    have := h3 (a * G.nodeCapacity + b) (by rw [List.length_replicate]; exact hlt ha hb)
    rw [List.getElem?_eq_getElem hk] at this
    simp only [Option.some.injEq] at this
    rw [this, ← mem_adjacent ok]
    constructor
    · rintro (h | ⟨⟨a', b'⟩, h4, h5⟩)
      · rw [List.getElem?_replicate] at h
        split at h <;> simp at h
      · obtain ⟨e, f, h6⟩ := (mem_adjacent ok).1 h4
        obtain ⟨i1, i2⟩ := hedge h6
        simp only at h5
        have e1 : a' = a := by
          have h7 : (a' * G.nodeCapacity + b') / G.nodeCapacity = (a * G.nodeCapacity + b) / G.nodeCapacity := by rw [h5]
          rwa [Nat.mul_comm a', Nat.mul_comm a, Nat.mul_add_div (by omega), Nat.mul_add_div (by omega),
            Nat.div_eq_of_lt i2, Nat.div_eq_of_lt hb] at h7
        subst e1
        have e2 : b' = b := by omega
        subst e2
        exact h4
    · intro h
      exact .inr ⟨_, h, rfl⟩

/-- **C50** The matrix of a reachable `PortGraph` is right for all its nodes. -/
theorem C50_matrix_portgraph {maxOff : Nat} (hmax : maxOff ≤ 32767) {g : PG} (hg : PG.Reach maxOff g) {cn cp : Nat}
    (hcn : g.nodeMeta.length ≤ cn) :
    ∃ M, adjacencyMatrix (ofPG g cn cp) = some M ∧ ∀ a b, g.containsNode a = true → g.containsNode b = true →
      ∃ r, isAdjacent M a b = some r ∧ (r = true ↔ ∃ e f, Edge (ofPG g cn cp) a b e f) := by
  have ok := ofPG_ok (hg.inv hmax) cn cp
  have hcap : ∀ n, g.containsNode n = true → n < cn := fun n hn => by
    have := (ok.mem_nodes n).2 hn
    have := List.mem_range.1 (List.mem_filter.1 this).1
    omega
  obtain ⟨M, h1, h2⟩ := C50_matrix ok hcap
  exact ⟨M, h1, fun a b ha hb => h2 a b (hcap a ha) (hcap b hb)⟩

/-- **C50** The matrix of a reachable `MultiPortGraph`. Missing: graphs with node indices of at least
`node_capacity`, which is smaller than the number of slots by the number of helper nodes; there the
claim fails (`C50_witness_multiport`). -/
theorem C50_matrix_multiport_partial {maxOff : Nat} (h2m : 2 ≤ maxOff) (hmax : maxOff ≤ 32767) {m : MG} (hm : MReach maxOff m)
    {cn cp : Nat} (hcn : ∀ n, m.containsNode n = true → n + m.copyCount < cn) :
    ∃ M, adjacencyMatrix (ofMG m cn cp) = some M ∧ ∀ a b, m.containsNode a = true → m.containsNode b = true →
      ∃ r, isAdjacent M a b = some r ∧ (r = true ↔ ∃ e f, Edge (ofMG m cn cp) a b e f) := by
  have ok := ofMG_ok (hm.ok h2m hmax) cn cp
  have hcap : ∀ n, m.containsNode n = true → n < cn - m.copyCount := fun n hn => by
    have := hcn n hn
    omega
  obtain ⟨M, h1, h2⟩ := C50_matrix ok hcap
  exact ⟨M, h1, fun a b ha hb => h2 a b (hcap a ha) (hcap b hb)⟩

/-- **C50** The set of pairs used by the other views is right for all nodes. -/
theorem C50_set {G : GView E} (ok : G.Ok) (a b : Nat) :
    isAdjacentSet (adjacencySet G) a b = true ↔ ∃ e f, Edge G a b e f := by
  rw [← mem_adjacent ok]
  have : ∀ (xs m : List (Nat × Nat)) x, x ∈ xs.foldl HSet.insert m ↔ x ∈ m ∨ x ∈ xs := by
    intro xs
    induction xs with
    | nil => simp
    | cons y xs ih =>
      intro m x
      rw [List.foldl_cons, ih, HSet.insert]
      split
      · rename_i h
        simp only [List.contains_iff_mem] at h
        grind
      · grind
  simp [isAdjacentSet, adjacencySet, this]

/-! ## Examples and failures -/

/-- The hypotheses can be met, and the iterators are not empty. -/
example : (ofPG Algo.dagG 8 16).Ok ∧ neighbors (ofPG Algo.dagG 8 16) 0 = [1, 2] ∧
    (∀ n < 6, n < (ofPG Algo.dagG 8 16).nodeCapacity) ∧ Algo.dagG.nodeMeta.length = 6 := by
  refine ⟨ofPG_ok (Algo.dagG_reach.inv (by decide)) _ _, by decide +kernel⟩

/-- Two nodes and a link from the first to the second. -/
def exE : PG := (PG.run 32767 PG.empty [.addNode 0 1, .addNode 1 0, .linkPorts 0 1]).getD PG.empty

theorem exE_reach : PG.Reach 32767 exE :=
  checkedRun_reach .init (ops := [.addNode 0 1, .addNode 1 0, .linkPorts 0 1]) (by decide)

/-- Failure of C49: `edge_references` yields the only link twice, although its length is 1. -/
theorem C49_witness_edge_references : PG.Reach 32767 exE ∧ edgeCount (ofPG exE 2 2) = 1 ∧ edgeReferencesLen (ofPG exE 2 2) = 1 ∧
    (edgeReferences (ofPG exE 2 2)).getD [] = [⟨0, 1, (0, 1)⟩, ⟨1, 0, (1, 0)⟩] := ⟨exE_reach, by decide +kernel⟩

/-- Failure of C49: `edges` of the second node yields the link to it, as if it started there; so does
`edges_directed` with `Incoming`. -/
theorem C49_witness_edges : PG.Reach 32767 exE ∧ (edges (ofPG exE 2 2) 1).getD [] = [⟨1, 0, (1, 0)⟩] ∧
    (edgesDirected (ofPG exE 2 2) 1 .incoming).getD [] = [⟨1, 0, (1, 0)⟩] ∧ neighbors (ofPG exE 2 2) 1 = [] :=
  ⟨exE_reach, by decide +kernel⟩

/-- Three nodes with two links from port 0 to port 1, for which the flat graph has two helper nodes, and
a link from node 0 to the node 4. -/
def exN : MG := built [.addNode 0 2, .addNode 1 0, .linkPorts 0 2, .linkPorts 0 2, .addNode 1 0, .linkPorts 1 9]

/-- Failure of C50: the flat graph has five slots for nodes, two of which are helper nodes, so the rows of
the matrix have three columns. The bit for the link from node 0 to node 4 is read as a link from
node 1 to itself, and asking for node 4 panics. -/
theorem C50_witness_multiport : MReach 32767 exN ∧ exN.nodes = [0, 1, 4] ∧ exN.graph.nodeMeta.length = 5 ∧
    ((adjacencyMatrix (ofMG exN 5 16)).bind fun M => isAdjacent M 1 1) = some true ∧ neighbors (ofMG exN 5 16) 1 = [] ∧
    (adjacencyMatrix (ofMG exN 5 16)).isSome = true ∧ ((adjacencyMatrix (ofMG exN 5 16)).bind fun M => isAdjacent M 4 0) = none :=
  ⟨built_reach _, by decide +kernel⟩

/-- Four nodes; the helper nodes come before node 4, which has a link to the first node. -/
def exN2 : MG := built [.addNode 1 1, .addNode 1 0, .linkPorts 1 2, .linkPorts 1 2, .addNode 0 1, .linkPorts 9 0]

/-- Failure of C50: making the matrix panics. -/
theorem C50_witness_multiport_panic : MReach 32767 exN2 ∧ exN2.graph.nodeMeta.length = 5 ∧
    (adjacencyMatrix (ofMG exN2 5 16)).isNone = true := ⟨built_reach _, by decide +kernel⟩

example := C43_node_bound_partial (ofPG_ok (exG_reach.inv (by decide)) 4 16)

example := C49_neighbors (ofPG_ok (Algo.dagG_reach.inv (by decide)) 8 16) (n := 0) (by decide +kernel)

example := C49_edge_references_partial (ofPG_ok (Algo.dagG_reach.inv (by decide)) 8 16)

example := C49_node_identifiers (ofPG_ok (Algo.dagG_reach.inv (by decide)) 8 16)

example := C49_edges_partial (ofPG_ok (Algo.dagG_reach.inv (by decide)) 8 16) 3

example := C49_edges_outgoing (ofPG_ok (Algo.dagG_reach.inv (by decide)) 8 16) 3

example := C49_edges_incoming_partial (ofPG_ok (Algo.dagG_reach.inv (by decide)) 8 16) 3

example := C49_edge_count_partial (ofPG_ok (Algo.dagG_reach.inv (by decide)) 8 16) (ofPG_count (Algo.dagG_reach.inv (by decide)) 8 16)

example := C50_matrix_portgraph (by decide) Algo.dagG_reach (cn := 8) (cp := 16) (by decide +kernel)

example := C50_matrix_multiport_partial (by decide) (by decide) (built_reach _ : MReach 32767 exN) (cn := 16) (cp := 16) (by
  intro n hn
  have h : exN.graph.containsNode n = true := by simp only [MG.containsNode, Bool.and_eq_true] at hn; exact hn.1
  have h1 : n < exN.graph.nodeMeta.length := PG.node?_lt (show (exN.graph.node? n).isSome = true from h)
  have h2 : exN.graph.nodeMeta.length = 5 ∧ exN.copyCount = 2 := by decide +kernel
  show n + exN.copyCount < 16
  omega)

end Verif.Pet

open Verif.Pet
#print axioms C43_visit_map
#print axioms C43_visit_opposite
#print axioms C43_witness_visit
#print axioms C43_node_bound_partial
#print axioms C43_witness_node_bound
#print axioms C49_neighbors
#print axioms C49_node_identifiers
#print axioms C49_edge_count_partial
#print axioms C49_edge_references_partial
#print axioms C49_edges_partial
#print axioms C49_edges_outgoing
#print axioms C49_edges_incoming_partial
#print axioms C49_witness_edge_references
#print axioms C49_witness_edges
#print axioms C50_matrix
#print axioms C50_matrix_portgraph
#print axioms C50_matrix_multiport_partial
#print axioms C50_set
#print axioms C50_witness_multiport
#print axioms C50_witness_multiport_panic
