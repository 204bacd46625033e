import Verif.CopyIn.Hosts
import Verif.PortGraph.PropsInsert
import Verif.Gen.Lemmas
import Verif.Multi.Props

/-!
# C60: the generators of random graphs
-/

namespace Verif.Gen

open Verif (Direction)
open Verif.PG Verif.Multi Verif.CopyIn Verif.View

theorem flatMap_length_const {α β : Type} (f : α → List β) (c : Nat) (l : List α) (h : ∀ x ∈ l, (f x).length = c) :
    (l.flatMap f).length = l.length * c := by
  induction l with
  | nil => simp
  | cons x l ih =>
    rw [List.flatMap_cons, List.length_append, h x (by simp), ih fun y hy => h y (List.mem_cons_of_mem _ hy), List.length_cons,
      Nat.add_mul]
    omega

section

variable {E : Type} {tp : E → Nat} {o : GObs E} {edges : List Edge} {M : List (Nat × Nat)}

theorem Drawn.count_nodes (D : Drawn tp o edges M) {l : List Nat} (hnd : l.Nodup) (hl : ∀ n, n ∈ l ↔ o.node n) : l.length = M.length := by
  have := ((List.perm_ext_iff_of_nodup hnd D.nodup).2 fun n => by rw [hl, D.node]).length_eq
  simpa using this

theorem Drawn.count_ports (D : Drawn tp o edges M) (hone : ∀ p q x, o.pos p x → o.pos q x → p = q)
    (hnode : ∀ p x, o.pos p x → o.node x.1) {l : List Nat} (hnd : l.Nodup) (hl : ∀ p, p ∈ l ↔ ∃ x, o.pos p x) {k : Nat}
    (hk : ∀ e ∈ edges, e.srcP < k ∧ e.tgtP < k) : l.length ≤ k * 2 * M.length := by
  classical
  let pos : Nat → Endpoint := fun p => if h : ∃ x, o.pos p x then h.choose else (0, .incoming, 0)
  have hpos : ∀ p ∈ l, o.pos p (pos p) := by
    intro p hp
    have h := (hl p).1 hp
    simp only [pos, dif_pos h]
    exact h.choose_spec
  have hnd' : (l.map pos).Nodup := by
    refine List.Nodup.map_on ?_ hnd
    intro p hp q hq he
    exact hone p q _ (hpos p hp) (by rw [he]; exact hpos q hq)
  let all : List Endpoint := M.flatMap fun x => (List.range k).map (fun j => (x.2, Direction.incoming, j)) ++
    (List.range k).map fun j => (x.2, Direction.outgoing, j)
  have hsub : l.map pos ⊆ all := by
    intro y hy
    obtain ⟨p, hp, rfl⟩ := List.mem_map.1 hy
    have h1 := hpos p hp
    generalize pos p = y at h1
    obtain ⟨n, d, j⟩ := y
    obtain ⟨⟨v, n'⟩, hm, hn⟩ := List.mem_map.1 ((D.node n).1 (hnode _ _ h1))
    simp only at hn; subst hn
    refine List.mem_flatMap.2 ⟨_, hm, ?_⟩
    rw [List.mem_append]
    cases d with
    | incoming =>
      obtain ⟨e, he, -, hj⟩ := (D.inputs v n' hm j).1 ⟨p, h1⟩
      have := hk e he
      exact .inl (List.mem_map.2 ⟨j, List.mem_range.2 (by omega), rfl⟩)
    | outgoing =>
      obtain ⟨e, he, -, hj⟩ := (D.outputs v n' hm j).1 ⟨p, h1⟩
      have := hk e he
      exact .inr (List.mem_map.2 ⟨j, List.mem_range.2 (by omega), rfl⟩)
  have hlen := (List.subperm_of_subset hnd' hsub).length_le
  rw [List.length_map] at hlen
  have hall : all.length = M.length * (k * 2) := flatMap_length_const _ _ _ fun x _ => by simp; omega
  rw [hall, Nat.mul_comm] at hlen
  exact hlen

theorem Drawn.count_links (D : Drawn tp o edges M) (hfun : ∀ p x y, o.pos p x → o.pos p y → x = y)
    {l : List (E × E)} (hnd : l.Nodup) (hl : ∀ e f, (e, f) ∈ l ↔ o.link e f ∧ ∃ n k, o.pos (tp e) (n, .outgoing, k)) :
    l.length = edges.length := by
  obtain ⟨N, h1, h2, h3⟩ := D.links
  have hN : N.Nodup := by
    rw [List.nodup_append] at h2
    exact List.Nodup.of_map _ h2.1
  have hdir : ∀ u ∈ N, (∃ n k, o.pos (tp u.1) (n, .outgoing, k)) ∧ ∃ n k, o.pos (tp u.2) (n, .incoming, k) := by
    intro u hu
    obtain ⟨i, hi, rfl⟩ := List.mem_iff_getElem.1 hu
    have hlen := h1.length_eq
    obtain ⟨a, b, -, -, h5, h6⟩ := (List.forall₂_iff_get.1 h1).2 i (by omega) hi
    exact ⟨⟨_, _, h5⟩, _, _, h6⟩
  rw [h1.length_eq]
  refine ((List.perm_ext_iff_of_nodup hnd hN).2 ?_).length_eq
  rintro ⟨e, f⟩
  rw [hl, h3]
  constructor
  · rintro ⟨h4 | h4, n, k, h5⟩
    · exact h4
    · obtain ⟨-, n', k', h6⟩ := hdir _ h4
      have := hfun _ _ _ h5 h6
      simp at this
  · exact fun h4 => ⟨.inl h4, (hdir _ h4).1⟩

end

/-! ## `graph_from_edges` -/

theorem pg_edges {maxOff : Nat} (hmax : maxOff ≤ 32767) {edges : List Edge} {vs : List Nat} (hvs : Vertices edges vs)
    (hoff : ∀ e ∈ edges, e.srcP < maxOff ∧ e.tgtP < maxOff)
    (hsrc : (edges.map fun e => (e.srcV, e.srcP)).Nodup) (htgt : (edges.map fun e => (e.tgtV, e.tgtP)).Nodup) :
    ∃ g M, graphFromEdges (pgHost maxOff) PG.empty vs edges = some g ∧ PG.Reach maxOff g ∧ True ∧ Drawn id (pgObs g) edges M :=
  graphFromEdges_ok (pg_law hmax) .init trivial hvs hoff (fun _ => ⟨hsrc, htgt⟩)
    (by intro n; show ¬ PG.empty.containsNode n = true; simp [PG.containsNode, PG.node?, PG.empty])
    (by intro z w; show ¬ PG.empty.portLink? z = some (some w); simp [PG.portLink?, PG.port?, PG.empty])

/-- **C60** For all edges with different source offsets and different target offsets, in every order
of the vertices, `graph_from_edges` builds a `PortGraph` without panic. It has one node for each
vertex, the ports up to the largest used offset, and one link for each edge. -/
theorem C60_portgraph_from_edges {maxOff : Nat} (hmax : maxOff ≤ 32767) {edges : List Edge} {vs : List Nat} (hvs : Vertices edges vs)
    (hoff : ∀ e ∈ edges, e.srcP < maxOff ∧ e.tgtP < maxOff)
    (hsrc : (edges.map fun e => (e.srcV, e.srcP)).Nodup) (htgt : (edges.map fun e => (e.tgtV, e.tgtP)).Nodup) :
    ∃ g M, graphFromEdges (pgHost maxOff) PG.empty vs edges = some g ∧ PG.Reach maxOff g ∧ Drawn id (pgObs g) edges M :=
  let ⟨g, M, h1, h2, _, h3⟩ := pg_edges hmax hvs hoff hsrc htgt
  ⟨g, M, h1, h2, h3⟩

theorem empty_shows {maxOff : Nat} (hmax : maxOff ≤ 32767) : (∀ n, ¬ (MG.ofGraph PG.empty).obs.node n) ∧
    (∀ z w, ¬ (MG.ofGraph PG.empty).obs.link z w) ∧ ∀ z, ¬ (MG.ofGraph PG.empty).obs.sub z := by
  obtain ⟨h1, -, h3, h4⟩ := C39_from_portgraph hmax (PG.Reach.init (maxOff := maxOff))
  refine ⟨fun n => ?_, fun z w => ?_, fun z => ?_⟩
  · rw [h1]; simp [PG.containsNode, PG.node?, PG.empty]
  · rw [h3]; simp [PG.portLink?, PG.port?, PG.empty]
  · rw [h4]; simp [PG.containsPort, PG.port?, PG.empty]

theorem mg_edges {maxOff : Nat} (h2m : 2 ≤ maxOff) (hmax : maxOff ≤ 32767) {edges : List Edge} {vs : List Nat}
    (hvs : Vertices edges vs) (hoff : ∀ e ∈ edges, e.srcP < maxOff ∧ e.tgtP < maxOff) (hlen : edges.length ≤ 32766) :
    ∃ m M, graphFromEdges (mgHost maxOff) (MG.ofGraph PG.empty) vs edges = some m ∧ MReach maxOff m ∧ MgRoom m 0 ∧
      Drawn (fun e => e.1) (mgObs m) edges M := by
  obtain ⟨h1, h2, h3⟩ := empty_shows hmax
  exact graphFromEdges_ok (mg_law h2m hmax) (.init .init) ⟨hlen, fun p k hk => absurd hk (h3 _)⟩ hvs hoff (fun h => h.elim) h1 h2

/-- **C60** The same for a `MultiPortGraph` with all edges, also repeated ones, up to 32766 of them:
each edge gets its own link. -/
theorem C60_multiportgraph_from_edges {maxOff : Nat} (h2m : 2 ≤ maxOff) (hmax : maxOff ≤ 32767) {edges : List Edge} {vs : List Nat}
    (hvs : Vertices edges vs) (hoff : ∀ e ∈ edges, e.srcP < maxOff ∧ e.tgtP < maxOff) (hlen : edges.length ≤ 32766) :
    ∃ m M, graphFromEdges (mgHost maxOff) (MG.ofGraph PG.empty) vs edges = some m ∧ MReach maxOff m ∧
      Drawn (fun e => e.1) (mgObs m) edges M := by
  obtain ⟨m, M, h1, h2, -, h3⟩ := mg_edges h2m hmax hvs hoff hlen
  exact ⟨m, M, h1, h2, h3⟩

/-! ## The generators -/

theorem zipEdges_in {outs ins : List (Nat × Nat)} {e : Edge} (h : e ∈ zipEdges outs ins) :
    (e.srcV, e.srcP) ∈ outs ∧ (e.tgtV, e.tgtP) ∈ ins := by
  obtain ⟨⟨x, y⟩, hm, rfl⟩ := List.mem_map.1 h
  exact List.of_mem_zip hm

theorem joins_eq {edges : List Edge} {outs ins : List (Nat × Nat)} (h : Joins edges outs ins) : edges = zipEdges outs ins := by
  have h1 : edges = (edges.map (fun e => ((e.srcV, e.srcP), (e.tgtV, e.tgtP)))).map
      (fun x => ⟨x.1.1, x.1.2, x.2.1, x.2.2⟩) := by
    rw [List.map_map]
    exact (List.map_id' edges).symm
  rw [h1, h]; rfl

theorem zipEdges_src (outs ins : List (Nat × Nat)) :
    ((zipEdges outs ins).map fun e => (e.srcV, e.srcP)) = outs.take ins.length ∧
    ((zipEdges outs ins).map fun e => (e.tgtV, e.tgtP)) = ins.take outs.length := by
  induction outs generalizing ins with
  | nil => simp [zipEdges]
  | cons x outs ih =>
    cases ins with
    | nil => simp [zipEdges]
    | cons y ins =>
      have := ih ins
      simp only [zipEdges, List.map_map] at this
      simp [zipEdges, this]

theorem verts_bound {edges : List Edge} {M : List (Nat × Nat)} {k : Nat} (h : Vertices edges (M.map (·.1)))
    (hk : ∀ e ∈ edges, (1 ≤ e.srcV ∧ e.srcV < k) ∧ 1 ≤ e.tgtV ∧ e.tgtV < k) (hk0 : 1 ≤ k) : M.length ≤ k ∧ (edges ≠ [] → 1 ≤ M.length) := by
  constructor
  · have : M.map (·.1) ⊆ List.range k := by
      intro v hv
      obtain ⟨e, he, h1⟩ := (h.2 v).1 hv
      have := hk e he
      rw [List.mem_range]
      rcases h1 with rfl | rfl <;> omega
    have := (List.subperm_of_subset h.1 this).length_le
    simpa using this
  · intro hne
    obtain ⟨e, he⟩ := List.exists_mem_of_ne_nil _ hne
    have := (h.2 e.srcV).2 ⟨e, he, .inl rfl⟩
    have := List.length_pos_of_mem this
    rw [List.length_map] at this
    exact this

/-- The counters are the numbers of what is shown. -/
def Counts {S E : Type} (H : Host S E) (o : GObs E) (nodes ports links : Nat) : Prop :=
  (∃ l : List Nat, l.Nodup ∧ (∀ n, n ∈ l ↔ o.node n) ∧ nodes = l.length) ∧
  (∃ l : List Nat, l.Nodup ∧ (∀ p, p ∈ l ↔ ∃ x, o.pos p x) ∧ ports = l.length) ∧
  ∃ l : List (E × E), l.Nodup ∧ (∀ e f, (e, f) ∈ l ↔ o.link e f ∧ ∃ n k, o.pos (H.toPort e) (n, .outgoing, k)) ∧ links = l.length

theorem gen_ok {S E : Type} {H : Host S E} {Good : S → Prop} {obs : S → GObs E} {cap : S → Nat → Prop} {single : Prop}
    {maxOff : Nat} (L : Law H Good obs cap single maxOff) {nodes ports links : S → Nat}
    (hC : ∀ s, Good s → Counts H (obs s) (nodes s) (ports s) (links s))
    {maxNodes maxPorts maxEdges : Nat} (hN : 1 ≤ maxNodes) (hP : maxPorts ≤ maxOff) {outs ins : List (Nat × Nat)}
    (hol : outs.length ≤ maxEdges) (hor : InRanges maxNodes maxPorts outs) (hir : InRanges maxNodes maxPorts ins)
    {s0 : S} {vs : List Nat}
    (hgraph : (∀ e ∈ zipEdges outs ins, e.srcP < maxOff ∧ e.tgtP < maxOff) → (zipEdges outs ins).length ≤ maxEdges →
      ∃ s M, graphFromEdges H s0 vs (zipEdges outs ins) = some s ∧ Good s ∧ cap s 0 ∧ Drawn H.toPort (obs s) (zipEdges outs ins) M) :
    ∃ s, (graphFromEdges H s0 vs (zipEdges outs ins)).bind (ensureNonEmpty H nodes) = some s ∧ Good s ∧
      1 ≤ nodes s ∧ nodes s ≤ maxNodes ∧ links s ≤ maxEdges ∧ ports s ≤ maxPorts * 2 * nodes s ∧
      if zipEdges outs ins = [] then OneNode (obs s) else ∃ M, Drawn H.toPort (obs s) (zipEdges outs ins) M := by
  have hoff : ∀ e ∈ zipEdges outs ins, e.srcP < maxPorts ∧ e.tgtP < maxPorts := fun e he =>
    ⟨(hor _ (zipEdges_in he).1).2.2, (hir _ (zipEdges_in he).2).2.2⟩
  have hlen : (zipEdges outs ins).length ≤ maxEdges := by simp [zipEdges]; omega
  obtain ⟨s, M, h1, h2, h0, D⟩ := hgraph (fun e he => by have := hoff e he; omega) hlen
  obtain ⟨⟨l1, a1, a2, a3⟩, ⟨l2, b1, b2, b3⟩, l3, c1, c2, c3⟩ := hC s h2
  have hn : nodes s = M.length := by rw [a3]; exact D.count_nodes a1 a2
  obtain ⟨v1, v2⟩ := verts_bound D.vertices (fun e he =>
    ⟨⟨(hor _ (zipEdges_in he).1).1, (hor _ (zipEdges_in he).1).2.1⟩, (hir _ (zipEdges_in he).2).1, (hir _ (zipEdges_in he).2).2.1⟩) hN
  rw [h1]
  by_cases he : zipEdges outs ins = []
  · have hM : M = [] := by
      cases M with
      | nil => rfl
      | cons x M =>
        have := (D.vertices.2 x.1).1 (by simp)
        simp [he] at this
    obtain ⟨n, s', k1, k2, -, k4, k5, k6, k7, k8, k9⟩ := L.add s h2 0 h0 0 0 (by omega) (by omega)
    have hnone : ∀ x, ¬ (obs s).node x := fun x => by rw [D.node, hM]; simp
    have hpos : ∀ p x, ¬ (obs s').pos p x := by
      rintro p ⟨x, d, k⟩ hp
      by_cases hx : x = n
      · subst hx
        cases d with
        | incoming => have := (k7 k).1 ⟨p, hp⟩; omega
        | outgoing => have := (k8 k).1 ⟨p, hp⟩; omega
      · exact hnone _ (L.pos_node s h2 _ _ ((k6 p (x, d, k) hx).1 hp))
    have hlnk : ∀ e f, ¬ (obs s').link e f := fun e f hef => by
      obtain ⟨x, hx⟩ := L.link_port s' k2 e f hef
      exact hpos _ _ hx
    obtain ⟨⟨l1', a1', a2', a3'⟩, ⟨l2', b1', b2', b3'⟩, l3', c1', c2', c3'⟩ := hC s' k2
    have e1 : nodes s' = 1 := by
      rw [a3']
      have := ((List.perm_ext_iff_of_nodup a1' (l₂ := [n]) (by simp)).2 fun x => by rw [a2', k5]; simp [hnone]).length_eq
      simpa using this
    have e2 : ports s' = 0 := by
      rw [b3', List.length_eq_zero_iff, List.eq_nil_iff_forall_not_mem]
      intro p hp
      obtain ⟨x, hx⟩ := (b2' p).1 hp
      exact hpos _ _ hx
    have e3 : links s' = 0 := by
      rw [c3', List.length_eq_zero_iff, List.eq_nil_iff_forall_not_mem]
      rintro ⟨e, f⟩ hp
      exact hlnk _ _ ((c2' e f).1 hp).1
    refine ⟨s', ?_, k2, by omega, by omega, by omega, by omega,
      by rw [if_pos he]; exact ⟨⟨n, fun x => by rw [k5]; simp [hnone]⟩, hpos, hlnk⟩⟩
    show ensureNonEmpty _ _ s = _
    rw [ensureNonEmpty, if_pos (by rw [hn, hM]; rfl), k1]
    rfl
  · refine ⟨s, ?_, h2, by have := v2 he; omega, by omega, ?_, ?_, by rw [if_neg he]; exact ⟨M, D⟩⟩
    · show ensureNonEmpty _ _ s = _
      rw [ensureNonEmpty, if_neg (by have := v2 he; omega)]
    · rw [c3, D.count_links (L.pos_fun s h2) c1 c2]
      exact hlen
    · rw [hn, b3]
      exact D.count_ports (L.pos_one s h2) (L.pos_node s h2) b1 b2 hoff

theorem pg_counts {maxOff : Nat} (hmax : maxOff ≤ 32767) {g : PG} (hg : PG.Reach maxOff g) :
    Counts (pgHost maxOff) (pgObs g) g.nodeCount g.portCount g.linkCount := by
  have hI := hg.inv hmax
  have ok := ofPG_ok hI 0 0
  obtain ⟨l, l1, l2⟩ := ofPG_count hI 0 0
  refine ⟨⟨_, ok.nodes_nodup, fun n => ok.mem_nodes n, ok.node_count⟩, ⟨_, ok.iter_nodup, fun p => ?_, ok.port_count⟩,
    l, l1.nodup, fun e f => ?_, l2⟩
  · rw [ok.mem_iter]
    show g.containsPort p = true ↔ _
    rw [PG.containsPort, live_at hI]
    exact exists_congr fun x => (pg_pos hI).symm
  · rw [l1.mem, shows_pg]
    refine and_congr_right fun hlk => ?_
    show g.portDirection e = some .outgoing ↔ ∃ n k, (pgObs g).pos e (n, .outgoing, k)
    obtain ⟨⟨n, d, k⟩, hx⟩ := (pg_law hmax).link_port g hg e f hlk
    rw [At.portDirection (p := e) hI ((pg_pos hI).1 hx)]
    constructor
    · intro h; simp at h; subst h; exact ⟨n, k, hx⟩
    · rintro ⟨n', k', h⟩
      rw [(pg_law hmax).pos_fun g hg _ _ _ hx h]

theorem mg_counts {maxOff : Nat} (h2m : 2 ≤ maxOff) (hmax : maxOff ≤ 32767) {m : MG} (hm : MReach maxOff m) :
    Counts (mgHost maxOff) (mgObs m) m.nodeCount m.portCount m.linkCount := by
  have h := hm.ok h2m hmax
  obtain ⟨-, h1, h2, l, l1, l2, l3⟩ := C40_counts_partial h2m hmax hm
  refine ⟨h1, h2, l, l1, fun e f => ?_, l3⟩
  rw [l2]
  refine and_congr_right fun hlk => ?_
  show m.graph.portDirection e.1 = some .outgoing ↔ ∃ n k, m.obs.pos e.1 (n, .outgoing, k)
  obtain ⟨⟨n, d, k⟩, hx⟩ := (mg_law h2m hmax).link_port m hm e f hlk
  rw [At.portDirection (p := e.1) h.inv ((obs_pos h).1 hx).1]
  constructor
  · intro h; simp at h; subst h; exact ⟨n, k, hx⟩
  · rintro ⟨n', k', h'⟩
    rw [(mg_law h2m hmax).pos_fun m hm _ _ _ hx h']

/-- **C60** `gen_portgraph`: whatever sets of ports are drawn from the ranges, and whatever order the
hash set of vertices has, the graph is built without panic. It has at least one and at most
`maxNodes` nodes, at most `2 * maxPorts` ports per node and at most `maxEdges` links, and it shows
exactly the drawn edges (one node if there are none). -/
theorem C60_gen_portgraph {maxOff : Nat} (hmax : maxOff ≤ 32767) {maxNodes maxPorts maxEdges : Nat} (hN : 1 ≤ maxNodes)
    (hP : maxPorts ≤ maxOff) {outs ins : List (Nat × Nat)} (ho : outs.Nodup) (hi : ins.Nodup)
    (hol : outs.length ≤ maxEdges) (hor : InRanges maxNodes maxPorts outs) (hir : InRanges maxNodes maxPorts ins)
    {edges : List Edge} (he : Joins edges outs ins) {vs : List Nat} (hvs : Vertices edges vs) :
    ∃ g, genPortgraph maxOff vs outs ins = some g ∧ PG.Reach maxOff g ∧
      1 ≤ g.nodeCount ∧ g.nodeCount ≤ maxNodes ∧ g.linkCount ≤ maxEdges ∧ g.portCount ≤ maxPorts * 2 * g.nodeCount ∧
      if edges = [] then OneNode (pgObs g) else ∃ M, Drawn id (pgObs g) edges M := by
  obtain rfl := joins_eq he
  obtain ⟨s1, s2⟩ := zipEdges_src outs ins
  exact gen_ok (pg_law hmax) (fun _ => pg_counts hmax) hN hP hol hor hir fun h _ =>
    pg_edges hmax hvs h (by rw [s1]; exact ho.sublist (List.take_sublist ..))
      (by rw [s2]; exact hi.sublist (List.take_sublist ..))

/-- **C60** `gen_multiportgraph`: the same for all lists of ports drawn from the ranges. -/
theorem C60_gen_multiportgraph {maxOff : Nat} (h2m : 2 ≤ maxOff) (hmax : maxOff ≤ 32767) {maxNodes maxPorts maxEdges : Nat}
    (hN : 1 ≤ maxNodes) (hP : maxPorts ≤ maxOff) (hE : maxEdges ≤ 32766) {outs ins : List (Nat × Nat)}
    (hol : outs.length ≤ maxEdges) (hor : InRanges maxNodes maxPorts outs) (hir : InRanges maxNodes maxPorts ins)
    {edges : List Edge} (he : Joins edges outs ins) {vs : List Nat} (hvs : Vertices edges vs) :
    ∃ m, genMultiportgraph maxOff vs outs ins = some m ∧ MReach maxOff m ∧
      1 ≤ m.nodeCount ∧ m.nodeCount ≤ maxNodes ∧ m.linkCount ≤ maxEdges ∧ m.portCount ≤ maxPorts * 2 * m.nodeCount ∧
      if edges = [] then OneNode (mgObs m) else ∃ M, Drawn (fun e => e.1) (mgObs m) edges M := by
  obtain rfl := joins_eq he
  exact gen_ok (mg_law h2m hmax) (fun _ => mg_counts h2m hmax)
    hN hP hol hor hir fun h h' =>
    mg_edges h2m hmax hvs h (by omega)

/-- **C60** `gen_node_index`, lines 100–109: for every reachable graph, the numbers drawn below
`node_count` index the collected nodes without panic, and pick exactly the nodes. -/
theorem C60_gen_node_index {maxOff : Nat} (hmax : maxOff ≤ 32767) {g : PG} (hg : PG.Reach maxOff g) :
    ∃ l, g.nodesList = some l ∧ (∀ i, i < g.nodeCount → ∃ n, l[i]? = some n) ∧
      ∀ n, g.containsNode n = true ↔ ∃ i, i < g.nodeCount ∧ l[i]? = some n := by
  have hI := hg.inv hmax
  have hl := nodesList_eq hI
  have hlen : g.nodeCount = ((List.range g.nodeMeta.length).filter g.containsNode).length := (nodesIter_R hI).2
  refine ⟨_, hl, fun i hi => ⟨_, List.getElem?_eq_getElem (by omega)⟩, fun n => ?_⟩
  have : g.containsNode n = true ↔ n ∈ (List.range g.nodeMeta.length).filter g.containsNode := by
    rw [List.mem_filter, List.mem_range]
    exact ⟨fun h => ⟨PG.node?_lt (containsNode_iff.1 h), h⟩, fun h => h.2⟩
  rw [this, List.mem_iff_getElem?]
  constructor
  · rintro ⟨i, hi⟩
    exact ⟨i, by rw [hlen]; exact (List.getElem?_eq_some_iff.1 hi).1, hi⟩
  · rintro ⟨i, -, hi⟩
    exact ⟨i, hi⟩

/-! ## Examples -/

private def outs0 : List (Nat × Nat) := [(1, 0), (1, 2), (3, 1)]
private def ins0 : List (Nat × Nat) := [(3, 1), (1, 0), (2, 0), (5, 5)]

example : outs0.Nodup ∧ ins0.Nodup ∧ InRanges 6 6 outs0 ∧ InRanges 6 6 ins0 := by
  refine ⟨by decide, by decide, ?_, ?_⟩
  · unfold InRanges; decide
  · unfold InRanges; decide

example : Joins (zipEdges outs0 ins0) outs0 ins0 := rfl

theorem verts0 : Vertices (zipEdges outs0 ins0) [3, 1, 2] := by
  refine ⟨by decide, fun v => ?_⟩
  simp only [outs0, ins0, zipEdges, List.zip_cons_cons, List.zip_nil_left, List.map_cons, List.map_nil, List.mem_cons,
    List.not_mem_nil, or_false]
  constructor
  · rintro (rfl | rfl | rfl) <;> simp
  · rintro ⟨e, (rfl | rfl | rfl), h⟩ <;> simp only at h <;> omega

/-- Three nodes, ports up to the largest offset, one link per edge, one of them at a single node. -/
example : (genPortgraph 32767 [3, 1, 2] outs0 ins0).map (fun g =>
    (g.nodeCount, g.portCount, g.linkCount, g.numPorts 0 .incoming, g.numPorts 1 .outgoing)) = some (3, 9, 3, 2, 3) := by
  decide +kernel

/-- A repeated edge gives two links of a multiport graph; a `PortGraph` would panic. -/
example : (genMultiportgraph 32767 [1, 2] [(1, 0), (1, 0)] [(2, 3), (2, 3)]).map (fun m => (m.nodeCount, m.portCount, m.linkCount)) =
    some (2, 5, 2) ∧ (genPortgraph 32767 [1, 2] [(1, 0), (1, 0)] [(2, 3), (2, 3)]).isNone := by decide +kernel

/-- No edges: one node. -/
example : (genPortgraph 32767 [] [] ins0).map (fun g => (g.nodeCount, g.portCount, g.linkCount)) = some (1, 0, 0) := by decide +kernel

example := C60_portgraph_from_edges (maxOff := 32767) (by decide) verts0 (by decide) (by decide) (by decide)

example := C60_multiportgraph_from_edges (maxOff := 32767) (by decide) (by decide) verts0 (by decide) (by decide)

example := C60_gen_portgraph (maxOff := 32767) (by decide) (maxNodes := 6) (maxPorts := 6) (maxEdges := 4) (by decide) (by decide)
  (outs := outs0) (ins := ins0) (by decide) (by decide) (by decide) (by unfold InRanges; decide) (by unfold InRanges; decide) (edges := zipEdges outs0 ins0) rfl verts0

example := C60_gen_multiportgraph (maxOff := 32767) (by decide) (by decide) (maxNodes := 6) (maxPorts := 6) (maxEdges := 4) (by decide)
  (by decide) (by decide) (outs := outs0) (ins := ins0) (by decide) (by unfold InRanges; decide) (by unfold InRanges; decide) (edges := zipEdges outs0 ins0) rfl verts0

end Verif.Gen

#print axioms Verif.Gen.C60_portgraph_from_edges
#print axioms Verif.Gen.C60_multiportgraph_from_edges
#print axioms Verif.Gen.C60_gen_portgraph
#print axioms Verif.Gen.C60_gen_multiportgraph
#print axioms Verif.Gen.C60_gen_node_index
