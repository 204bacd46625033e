import Verif.CopyIn.Hosts
import Verif.Multi.Check
import Verif.PortGraph.Example

/-!
# C45: `copy_in_parent` copies the subgraph
-/

namespace Verif.CopyIn

open Verif (Direction)
open Verif.PG Verif.Multi Verif.View

/-! ## `PortGraph` -/

/-- A subgraph of a `PortGraph` without boundary links: `copy_in_parent` succeeds, in whatever order the
node map is iterated; the result maps each node to a new node with the same ports, each link of the
subgraph is copied exactly once, and the old nodes, ports and links are as before. Missing: a node
with more than 32767 ports in one direction (`C45_witness_wide_node`), and sets with indices that
are no nodes (`C45_witness_foreign`). -/
theorem C45_portgraph_partial {maxOff : Nat} (hmax : maxOff ≤ 32767) {g : PG} (hg : PG.Reach maxOff g) {nodes : List Nat}
    (hnd : nodes.Nodup) (hin : ∀ n ∈ nodes, g.containsNode n = true) (hle : ∀ n ∈ nodes, ∀ d, g.numPorts n d ≤ maxOff)
    {order undo : List (Nat × Nat) → List (Nat × Nat)} (hord : ∀ l, (order l).Perm l) (hundo : ∀ l, (undo l).Perm l)
    (hb : ∀ p q, ¬ BoundaryLink id (pgObs g) nodes p q) :
    ∃ M g', copyInParent (pgHost maxOff) order undo nodes g = some (.ok M, g') ∧ PG.Reach maxOff g' ∧
      Copied id (pgObs g) (pgObs g') nodes M :=
  (copyInParent_ok (pg_law hmax) hg hnd hin hle (fun _ _ => trivial) hord hundo).1 (.inr hb)

theorem Same.queries {g g' : PG} (hI : Inv g) (hI' : Inv g') (h : Same (pgObs g) (pgObs g')) :
    (∀ n, g'.containsNode n = g.containsNode n) ∧ (∀ p, g'.containsPort p = g.containsPort p) ∧
    (∀ p, g'.portNode p = g.portNode p) ∧ (∀ p, g'.portOffset p = g.portOffset p) ∧
    (∀ p, g'.portDirection p = g.portDirection p) ∧ (∀ n d k, g'.portIndex n d k = g.portIndex n d k) ∧
    (∀ p, g'.portLink? p = g.portLink? p) ∧ (∀ n d, g'.numPorts n d = g.numPorts n d) ∧
    g'.nodeCount = g.nodeCount ∧ g'.portCount = g.portCount ∧ g'.linkCount = g.linkCount := by
  have hat : ∀ p e, At g' p e ↔ At g p e := fun p e => by rw [← pg_pos hI, ← pg_pos hI', h.pos]
  have hlk : ∀ p q, g'.portLink? p = some (some q) ↔ g.portLink? p = some (some q) := h.link
  have hnode : ∀ n, g'.containsNode n = g.containsNode n := fun n => by rw [Bool.eq_iff_iff]; exact h.node n
  have hlive : ∀ p, (g'.port? p).isSome ↔ (g.port? p).isSome := fun p => by
    rw [live_at hI, live_at hI']; exact exists_congr fun e => hat p e
  have hport : ∀ p, g'.port? p = g.port? p := by
    intro p
    cases hp : g.port? p with
    | none =>
      cases hp' : g'.port? p with
      | none => rfl
      | some x => have := (hlive p).1 (by rw [hp']; rfl); rw [hp] at this; cases this
    | some x =>
      obtain ⟨e, he⟩ := (live_at hI).1 (show (g.port? p).isSome by rw [hp]; rfl)
      rw [← hp, he.port hI, ((hat p e).2 he).port hI']
  have hlink : ∀ p, g'.portLink? p = g.portLink? p := by
    intro p
    cases hp : g.port? p with
    | none => simp [PG.portLink?, hport, hp]
    | some x =>
      obtain ⟨e, he⟩ := (live_at hI).1 (show (g.port? p).isSome by rw [hp]; rfl)
      by_cases hl : ∃ q, Lk g p q
      · obtain ⟨q, hq⟩ := hl
        exact ((hlk p q).2 hq).trans (show g.portLink? p = some (some q) from hq).symm
      · rw [(no_link hI he).2 fun q hq => hl ⟨q, hq⟩, (no_link hI' ((hat p e).2 he)).2 fun q hq => hl ⟨q, (hlk p q).1 hq⟩]
  have ok := ofPG_ok hI 0 0
  have ok' := ofPG_ok hI' 0 0
  refine ⟨hnode, fun p => by simp [PG.containsPort, hport], fun p => by simp [PG.portNode, hport], ?_,
    fun p => by simp [PG.portDirection, hport], ?_, hlink, ?_, ?_, ?_, ?_⟩
  · intro p
    cases hp : g.port? p with
    | none => simp [PG.portOffset, hport, hp]
    | some x =>
      obtain ⟨e, he⟩ := (live_at hI).1 (show (g.port? p).isSome by rw [hp]; rfl)
      rw [At.portOffset hI he, At.portOffset hI' ((hat p e).2 he)]
  · intro n d k
    apply Option.ext
    intro p
    rw [at_index, at_index, hat]
  · intro n d
    apply lt_iff_eq
    intro j
    rw [← at_iff_lt, ← at_iff_lt]
    exact exists_congr fun p => hat p _
  · rw [show g'.nodeCount = _ from ok'.node_count, show g.nodeCount = _ from ok.node_count]
    refine List.Perm.length_eq ((List.perm_ext_iff_of_nodup ok'.nodes_nodup ok.nodes_nodup).2 fun n => ?_)
    rw [ok.mem_nodes, ok'.mem_nodes]
    show g'.containsNode n = true ↔ g.containsNode n = true
    rw [hnode]
  · rw [show g'.portCount = _ from ok'.port_count, show g.portCount = _ from ok.port_count]
    refine List.Perm.length_eq ((List.perm_ext_iff_of_nodup ok'.iter_nodup ok.iter_nodup).2 fun n => ?_)
    rw [ok.mem_iter, ok'.mem_iter]
    show g'.containsPort n = true ↔ g.containsPort n = true
    simp [PG.containsPort, hport]
  · obtain ⟨l, h1, h2⟩ := ofPG_count hI 0 0
    obtain ⟨l', h1', h2'⟩ := ofPG_count hI' 0 0
    rw [show g'.linkCount = _ from h2', show g.linkCount = _ from h2]
    refine List.Perm.length_eq ((List.perm_ext_iff_of_nodup h1'.nodup h1.nodup).2 fun x => ?_)
    obtain ⟨e, f⟩ := x
    rw [h1.mem, h1'.mem, shows_pg, shows_pg, hlink]
    show _ ∧ g'.portDirection e = _ ↔ _ ∧ g.portDirection e = _
    simp [PG.portDirection, hport]

/-- A subgraph of a `PortGraph` with a boundary link: `copy_in_parent` returns `CantCopyBoundary` for
one of these links, and no query of the graph changes its answer. -/
theorem C45_portgraph_boundary_partial {maxOff : Nat} (hmax : maxOff ≤ 32767) {g : PG} (hg : PG.Reach maxOff g) {nodes : List Nat}
    (hnd : nodes.Nodup) (hin : ∀ n ∈ nodes, g.containsNode n = true) (hle : ∀ n ∈ nodes, ∀ d, g.numPorts n d ≤ maxOff)
    {order undo : List (Nat × Nat) → List (Nat × Nat)} (hord : ∀ l, (order l).Perm l) (hundo : ∀ l, (undo l).Perm l)
    (hb : ∃ p q, BoundaryLink id (pgObs g) nodes p q) :
    ∃ p q g', copyInParent (pgHost maxOff) order undo nodes g = some (.error (.cantCopyBoundary p q), g') ∧
      BoundaryLink id (pgObs g) nodes p q ∧ PG.Reach maxOff g' ∧
      (∀ n, g'.containsNode n = g.containsNode n) ∧ (∀ p, g'.containsPort p = g.containsPort p) ∧
      (∀ p, g'.portNode p = g.portNode p) ∧ (∀ p, g'.portOffset p = g.portOffset p) ∧
      (∀ p, g'.portDirection p = g.portDirection p) ∧ (∀ n d k, g'.portIndex n d k = g.portIndex n d k) ∧
      (∀ p, g'.portLink? p = g.portLink? p) ∧ (∀ n d, g'.numPorts n d = g.numPorts n d) ∧
      g'.nodeCount = g.nodeCount ∧ g'.portCount = g.portCount ∧ g'.linkCount = g.linkCount := by
  obtain ⟨p, q, g', h1, h2, h3, h4⟩ :=
    (copyInParent_ok (pg_law hmax) hg hnd hin hle (fun _ _ => trivial) hord hundo).2 ⟨trivial, hb⟩
  exact ⟨p, q, g', h1, h2, h3, h4.queries (hg.inv hmax) (h3.inv hmax)⟩

/-! ## `MultiPortGraph` -/

/-- A subgraph of a `MultiPortGraph`: `copy_in_parent` succeeds, each link inside is copied once, and each
boundary link is copied with the same outside port. It is asked that no port has so many subports
that there is no room for the new links. Missing: as for `PortGraph`, nodes with more than 32767
ports in one direction, and indices that are no nodes. -/
theorem C45_multiport_partial {maxOff : Nat} (h2m : 2 ≤ maxOff) (hmax : maxOff ≤ 32767) {m : MG} (hm : MReach maxOff m)
    {nodes : List Nat} (hnd : nodes.Nodup) (hin : ∀ n ∈ nodes, m.containsNode n = true)
    (hle : ∀ n ∈ nodes, ∀ d, m.graph.numPorts n d ≤ maxOff)
    {R : Nat} (hR : (nodes.map fun n => ((m.allLinks? n).getD []).length).sum ≤ R) (hR' : R ≤ 32766)
    (hroom : ∀ p L, m.containsPort p = true → m.subportsAt? p = some L → L.length + R ≤ 32767)
    {order undo : List (Nat × Nat) → List (Nat × Nat)} (hord : ∀ l, (order l).Perm l) (hundo : ∀ l, (undo l).Perm l) :
    ∃ M m', copyInParent (mgHost maxOff) order undo nodes m = some (.ok M, m') ∧ MReach maxOff m' ∧
      Copied Prod.fst (mgObs m) (mgObs m') nodes M := by
  have h := hm.ok h2m hmax
  refine (copyInParent_ok (mg_law h2m hmax) hm hnd hin hle (fun r hr => ?_) hord hundo).1 (.inl id)
  have hlen : (linkLists (mgHost maxOff) m nodes).length ≤ R := by
    unfold linkLists
    rw [List.length_flatMap]
    exact hR
  refine ⟨by omega, fun p k hk => ?_⟩
  obtain ⟨hp, L, hL, -⟩ := id hk
  obtain ⟨q, hq⟩ := (obs_sub h).1 hk
  have h1 := sub_length h hL hq
  have h2 := hroom p L hp hL
  omega

/-! ## Examples and witnesses -/

/-- Two links from node 0 to node 1 and one back, and node 2 without links. -/
def exC : PG := (PG.run 32767 PG.empty [.addNode 1 2, .addNode 2 1, .addNode 1 1, .linkPorts 1 3, .linkPorts 2 4, .linkPorts 5 0]).getD PG.empty

theorem exC_reach : PG.Reach 32767 exC := checkedRun_reach .init (by
  show checkedRun 32767 PG.empty [.addNode 1 2, .addNode 2 1, .addNode 1 1, .linkPorts 1 3, .linkPorts 2 4, .linkPorts 5 0] = some exC
  decide)

/-- What a graph shows, as a list of links. -/
def pgLinks (g : PG) : List (Nat × Nat) := linkedPairs g ((List.range g.nodeMeta.length).flatMap g.allPorts)

example : (∀ n ∈ [0, 1], exC.containsNode n = true) ∧ (∀ n ∈ [0, 1], exC.numPorts n .incoming ≤ 32767 ∧ exC.numPorts n .outgoing ≤ 32767) ∧
    (copyInParent (pgHost 32767) List.reverse id [0, 1] exC).map (fun x => (x.1.toOption, pgLinks x.2)) =
      some (some [(0, 3), (1, 4)], [(0, 5), (1, 3), (2, 4), (3, 1), (4, 2), (5, 0), (8, 13), (9, 11), (10, 12), (11, 9), (12, 10), (13, 8)]) := by
  decide +kernel

theorem exC_inside : ∀ p q, ¬ BoundaryLink id (pgObs exC) [0, 1] p q := by
  rintro p q ⟨h1, -, h2⟩
  apply h2
  have h1 : exC.portLink? p = some (some q) := h1
  have hlt : p < 8 := by
    rcases Nat.lt_or_ge p 8 with h | h
    · exact h
    · have : exC.port? p = none := by
        unfold PG.port?
        rw [List.getElem?_eq_none (by show exC.portMeta.length ≤ p; exact Nat.le_trans (by decide) h)]
      simp [PG.portLink?, this] at h1
  have key : ∀ p < 8, ∀ q < 8, exC.portLink? p = some (some q) → exC.endpoint q ≠ none ∧
      ((exC.portNode q = some 0 ∨ exC.portNode q = some 1)) ∧ (exC.portOffset q).join.isSome := by decide +kernel
  have hq : q < 8 := by
    have : ∀ p < 8, ∀ q, exC.portLink? p = some (some q) → q < 8 := by
      intro p hp q hq
      have h3 : ∀ p < 8, (exC.portLink? p).join.all (· < 8) := by decide +kernel
      have := h3 p hp
      rw [hq] at this
      simpa using this
    exact this p hlt q h1
  obtain ⟨-, h3, h4⟩ := key p hlt q hq h1
  obtain ⟨⟨d, k⟩, h5⟩ := Option.isSome_iff_exists.1 h4
  have h6 : exC.portOffset q = some (some (d, k)) := by
    cases h7 : exC.portOffset q with
    | none => rw [h7] at h5; cases h5
    | some x => rw [h7] at h5; simp only [Option.join_some] at h5; rw [h5]
  rcases h3 with h3 | h3
  · exact ⟨0, by simp, d, k, h3, h6⟩
  · exact ⟨1, by simp, d, k, h3, h6⟩

/-- The link of the ports 0 and 5 leads out of the nodes 0 and 2. -/
theorem exC_boundary : BoundaryLink id (pgObs exC) [0, 2] 0 5 := by
  refine ⟨show exC.portLink? 0 = some (some 5) by decide +kernel, ⟨0, by simp, .incoming, 0, by decide +kernel, by decide +kernel⟩, ?_⟩
  rintro ⟨n, hn, d, k, h1, -⟩
  have : exC.portNode 5 = some 1 := by decide +kernel
  simp only [id] at h1
  rw [this] at h1
  simp only [Option.some.injEq] at h1
  subst h1
  simp at hn

example : (copyInParent (pgHost 32767) id id [0, 2] exC).map (fun x => (x.1.toOption.isNone, pgLinks x.2)) = some (true, pgLinks exC) := by
  decide +kernel

/-- A multigraph with a link from node 0 to node 1 and two from node 1 to node 2. -/
def exD : MG := built [.addNode 0 1, .addNode 1 1, .addNode 1 0, .linkPorts 0 1, .linkPorts 2 3, .linkPorts 2 3]

/-- Nodes 0 and 1 are copied to 5 and 6; the two boundary links are copied to further subports of port 3. -/
example : MReach 32767 exD ∧ ([0, 1].map fun n => ((exD.allLinks? n).getD []).length).sum = 4 ∧
    (exD.portsIter.all fun p => ((exD.subportsAt? p).getD []).length + 4 ≤ 32767) ∧
    (copyInParent (mgHost 32767) List.reverse id [0, 1] exD).map (fun x => (x.1.toOption.getD [], x.2.nodes, x.2.linkCount)) =
      some ([(0, 5), (1, 6)], [0, 1, 2, 5, 6], 6) ∧
    ((copyInParent (mgHost 32767) List.reverse id [0, 1] exD).bind (fun x => x.2.portLinks? 3)).getD [] =
      [((3, 0), (2, 0)), ((3, 1), (2, 1)), ((3, 2), (12, 0)), ((3, 3), (12, 1))] :=
  ⟨built_reach _, by decide +kernel, by decide +kernel, by decide +kernel, by decide +kernel⟩

/-- Failure: an index that is no node is "copied" to a new node without ports. -/
theorem C45_witness_foreign : exC.containsNode 77 = false ∧
    (copyInParent (pgHost 32767) id id [77] exC).map (fun x => (x.1.toOption, x.2.nodeCount)) = some (some [(77, 3)], 4) := by
  decide +kernel

/-- Failure: a node that `set_num_ports` has given 32768 ports cannot be copied, `add_node` panics. -/
theorem C45_witness_wide_node : ∃ g, PG.Reach 32767 g ∧ g.containsNode 0 = true ∧
    ∀ order undo, copyInParent (pgHost 32767) order undo [0] g = none := by
  obtain ⟨g1, h1⟩ : ∃ g1, PG.empty.addNode 32767 0 0 = some (0, g1) := ⟨_, rfl⟩
  have r1 : PG.Reach 32767 g1 := .step .init (op := .addNode 0 0) ⟨by omega, by omega⟩ (by simp [PG.step, h1])
  have c1 : g1.containsNode 0 = true := by cases h1; rfl
  have hok : PG.Op.ok 32767 g1 (.setNumPorts 0 32768 0) := ⟨by omega, by omega, .inl (by omega)⟩
  obtain ⟨g2, h2, -⟩ := step_ok (maxOff := 32767) (op := .setNumPorts 0 32768 0) (by omega) (r1.inv (by omega)) hok
  have r2 : PG.Reach 32767 g2 := .step r1 hok h2
  obtain ⟨⟨g2', tr⟩, h3, h4⟩ := Option.map_eq_some_iff.1 h2
  simp only at h4
  subst h4
  obtain ⟨-, hnum, -⟩ := resize_flat (r1.inv (by omega)) c1 h3
  have hn : g2'.numPorts 0 .incoming = 32768 := by rw [hnum]; simp [newCount]
  refine ⟨g2', r2, ?_, fun order undo => ?_⟩
  · obtain ⟨q, hq⟩ := at_iff_lt.2 (show 0 < g2'.numPorts 0 .incoming by omega)
    exact At.contains hq
  · unfold copyInParent
    have : addCopies (pgHost 32767) [0] g2' = none := by
      unfold addCopies
      have : (pgHost 32767).addNode g2' ((pgHost 32767).numPorts g2' 0 .incoming) ((pgHost 32767).numPorts g2' 0 .outgoing) = none := by
        show g2'.addNode 32767 (g2'.numPorts 0 .incoming) _ = none
        exact C08_add_node_rejects _ (.inl (by omega))
      rw [this]
    rw [this]

example := C45_portgraph_partial (by decide) exC_reach (nodes := [0, 1]) (by decide) (by decide +kernel)
  (fun n hn d => by cases d <;> revert n <;> decide +kernel) (order := List.reverse) (undo := id) (fun l => l.reverse_perm) (fun _ => .refl _) exC_inside

example := C45_portgraph_boundary_partial (by decide) exC_reach (nodes := [0, 2]) (by decide) (by decide +kernel)
  (fun n hn d => by cases d <;> revert n <;> decide +kernel) (order := List.reverse) (undo := id) (fun l => l.reverse_perm)
  (fun _ => .refl _) ⟨0, 5, exC_boundary⟩

end Verif.CopyIn

#print axioms Verif.CopyIn.C45_portgraph_partial
#print axioms Verif.CopyIn.C45_portgraph_boundary_partial
#print axioms Verif.CopyIn.C45_multiport_partial
#print axioms Verif.CopyIn.C45_witness_foreign
#print axioms Verif.CopyIn.C45_witness_wide_node
