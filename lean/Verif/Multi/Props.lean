import Verif.Multi.Check
import Verif.Multi.ViewOk

/-!
# Properties of `MultiPortGraph` (C39–C41)

`MReach maxOff m` says that `m` arises from a reachable `PortGraph` (in particular from the empty
one) by calls whose arguments meet `MOp.ok`; `maxOff` is the largest port offset, 32767 in a debug
build. Missing for the full claims: the histories that `MOp.ok` excludes. For some of them the claims
are false, see the witnesses at the end.
-/

namespace Verif.Multi

open Verif (Direction)
open Verif.PG Verif.View

variable {maxOff : Nat} {m : MG}

/-! ## C39 the multigraph -/

/-- At every moment the queries show a well-formed multigraph, and all of them describe the same
one: the nodes, the ports and the links listed by every iterator are those of `m.obs`. -/
theorem C39_shows_a_multigraph_partial (h2m : 2 ≤ maxOff) (hmax : maxOff ≤ 32767) (h : MReach maxOff m) (cn cp : Nat) :
    m.obs.Wf ∧ (ofMG m cn cp).Ok ∧ (ofMG m cn cp).MultiOk ∧
      (∀ e f, (ofMG m cn cp).Shows e f ↔ m.obs.link e f) ∧
      (∀ n, n ∈ m.nodes ↔ m.obs.node n) ∧ (∀ p, p ∈ m.portsIter ↔ ∃ x, m.obs.pos p x) := by
  have hM := h.ok h2m hmax
  refine ⟨obs_wf hM, ofMG_ok hM cn cp, ofMG_multi hM cn cp, fun e f => ?_, fun n => mem_nodes_mg n, fun p => ?_⟩
  · rw [shows_iff hM, obs_link hM]
  · rw [mem_portsIter_mg, port_vat hM]
    exact exists_congr fun x => (obs_pos hM).symm

/-- Every admissible call returns without panic, what it does to the multigraph is what `Effect`
says, and the result is again such a multigraph. -/
theorem C39_calls_partial (h2m : 2 ≤ maxOff) (hmax : maxOff ≤ 32767) (h : MReach maxOff m) {op : MOp} (hok : op.ok maxOff m) :
    ∃ r m', m.step maxOff op = some (r, m') ∧ Effect m.obs m'.obs op r ∧ MReach maxOff m' := by
  obtain ⟨r, m', h1, -, h3⟩ := step_eff h2m hmax (h.ok h2m hmax) hok
  exact ⟨r, m', h1, h3, .step h hok h1⟩

/-- `MultiPortGraph::from(g)` shows the graph `g`. -/
theorem C39_from_portgraph {maxOff : Nat} (hmax : maxOff ≤ 32767) {g : PG} (hg : PG.Reach maxOff g) :
    (∀ n, (MG.ofGraph g).obs.node n ↔ g.containsNode n = true) ∧
    (∀ p e, (MG.ofGraph g).obs.pos p e ↔ g.portNode p = some e.1 ∧ g.portOffset p = some (some e.2)) ∧
    (∀ e f, (MG.ofGraph g).obs.link e f ↔ e.2 = 0 ∧ f.2 = 0 ∧ g.portLink? e.1 = some (some f.1)) ∧
    (∀ e, (MG.ofGraph g).obs.sub e ↔ g.containsPort e.1 = true ∧ e.2 = 0) := by
  have hI := hg.inv hmax
  have hM := ofGraph_ok hI
  have hs : ∀ q e, Sub (MG.ofGraph g) q e ↔ e = (q, 0) ∧ ∃ x, At g q x := by
    intro q e
    unfold Sub
    simp only [MG.ofGraph, Bool.false_eq_true, false_and, or_false, true_and]
    constructor
    · rintro ⟨n, d, k, h1, h2⟩; exact ⟨h2, _, h1⟩
    · rintro ⟨h1, ⟨n, d, k⟩, h2⟩; exact ⟨n, d, k, h2, h1⟩
  refine ⟨fun n => ?_, fun p e => ?_, fun e f => ?_, fun e => ?_⟩
  · rw [obs_node]; exact ⟨fun h => h.1, fun h => ⟨h, rfl⟩⟩
  · constructor
    · exact fun h => h.2
    · rintro ⟨h1, h2⟩
      refine ⟨?_, h1, h2⟩
      show (match g.portNode p with | none => false | some n => !false) = true
      rw [h1]; rfl
  · rw [obs_link hM]
    unfold ShowsR
    constructor
    · rintro ⟨q, r, h1, h2, h3⟩
      obtain ⟨rfl, -⟩ := (hs _ _).1 h1
      obtain ⟨rfl, -⟩ := (hs _ _).1 h2
      exact ⟨rfl, rfl, h3⟩
    · rintro ⟨h1, h2, h3⟩
      have h3 : Lk g e.1 f.1 := h3
      obtain ⟨x, y, hx, hy, -⟩ := h3.at hI
      exact ⟨e.1, f.1, (hs _ _).2 ⟨Prod.ext rfl h1, x, hx⟩, (hs _ _).2 ⟨Prod.ext rfl h2, y, hy⟩, h3⟩
  · rw [obs_sub hM]
    have hc : g.containsPort e.1 = true ↔ ∃ x, At g e.1 x := by
      rw [← live_at hI]; rfl
    rw [hc]
    constructor
    · rintro ⟨q, h1⟩
      obtain ⟨rfl, h2⟩ := (hs _ _).1 h1
      exact ⟨h2, rfl⟩
    · rintro ⟨h1, h2⟩
      exact ⟨e.1, (hs _ _).2 ⟨Prod.ext rfl h2, h1⟩⟩

/-- Helpers never occur in an answer about what is shown: listed nodes, ports, links and neighbours
are shown ones. -/
theorem C39_helpers_hidden (h2m : 2 ≤ maxOff) (hmax : maxOff ≤ 32767) (h : MReach maxOff m) {n : Nat}
    (hn : m.containsNode n = true) (d : Direction) :
    (∀ p ∈ m.graph.ports n d, m.containsPort p = true) ∧
    (∀ L, m.links? n d = some L → ∀ l ∈ L, m.containsPort l.1.1 = true ∧ m.containsPort l.2.1 = true) ∧
    (∀ L, m.allLinks? n = some L → ∀ l ∈ L, m.containsPort l.1.1 = true ∧ m.containsPort l.2.1 = true) ∧
    (∀ L, m.neighbours? n d = some L → ∀ x ∈ L, m.containsNode x = true) ∧
    (∀ L, m.allNeighbours? n = some L → ∀ x ∈ L, m.containsNode x = true) := by
  have hM := h.ok h2m hmax
  have ok := ofMG_ok hM 0 0
  have hport : ∀ p k, m.graph.portNode p = some k → m.containsNode k = true → m.containsPort p = true :=
    fun p k h1 h2 => (ok.port_iff p).2 ⟨k, h1, h2⟩
  have hshow : ∀ e f, (ofMG m 0 0).Shows e f → (m.containsPort e.1 = true ∧ m.containsPort f.1 = true) ∧
      ∀ k, m.graph.portNode f.1 = some k → m.containsNode k = true := by
    intro e f hs
    obtain ⟨a, d, b, h1, -, h3, h4, -, h6⟩ := ok.shows_dir e f hs
    refine ⟨⟨hport _ a h1 h3, hport _ b h4 h6⟩, fun k hk => ?_⟩
    rw [show m.graph.portNode f.1 = some b from h4] at hk; cases hk; exact h6
  have hlinks : ∀ l ∈ (ofMG m 0 0).links n d, (ofMG m 0 0).Shows l.1 l.2 := by
    intro l hl
    rw [ok.links_eq, List.mem_flatMap] at hl
    obtain ⟨p, -, hl⟩ := hl
    unfold GView.Shows
    rwa [ok.from_port p l.1 l.2 hl]
  have hall : ∀ l ∈ (ofMG m 0 0).allLinks n, (ofMG m 0 0).Shows l.1 l.2 := by
    intro l hl
    rw [ok.all_links, List.mem_filter, List.mem_flatMap] at hl
    obtain ⟨⟨p, -, hl⟩, -⟩ := hl
    unfold GView.Shows
    rwa [ok.from_port p l.1 l.2 hl]
  have e1 : ∀ L, m.links? n d = some L → (ofMG m 0 0).links n d = L := by
    intro L hL
    show (if m.containsNode n then (m.links? n d).getD [] else []) = L
    rw [if_pos hn, hL]; rfl
  have e2 : ∀ L, m.allLinks? n = some L → (ofMG m 0 0).allLinks n = L := by
    intro L hL
    show (if m.containsNode n then (m.allLinks? n).getD [] else []) = L
    rw [if_pos hn, hL]; rfl
  have e3 : ∀ L, m.neighbours? n d = some L → (ofMG m 0 0).neighbours n d = L := by
    intro L hL
    show (if m.containsNode n then (m.neighbours? n d).getD [] else []) = L
    rw [if_pos hn, hL]; rfl
  have e4 : ∀ L, m.allNeighbours? n = some L → (ofMG m 0 0).allNeighbours n = L := by
    intro L hL
    show (if m.containsNode n then (m.allNeighbours? n).getD [] else []) = L
    rw [if_pos hn, hL]; rfl
  refine ⟨fun p hp => ?_, fun L hL l hl => ?_, fun L hL l hl => ?_, fun L hL x hx => ?_, fun L hL x hx => ?_⟩
  · exact hport p n ((ok.mem_ports n d p).1 hp).1 hn
  · rw [← e1 L hL] at hl; exact (hshow _ _ (hlinks l hl)).1
  · rw [← e2 L hL] at hl; exact (hshow _ _ (hall l hl)).1
  · rw [← e3 L hL] at hx
    have : some x ∈ ((ofMG m 0 0).neighbours n d).map some := List.mem_map.2 ⟨x, hx, rfl⟩
    rw [ok.neighbours_eq n d hn] at this
    obtain ⟨l, hl, hl'⟩ := List.mem_map.1 this
    exact (hshow _ _ (hlinks l hl)).2 x hl'
  · rw [← e4 L hL] at hx
    have : some x ∈ ((ofMG m 0 0).allNeighbours n).map some := List.mem_map.2 ⟨x, hx, rfl⟩
    rw [ok.all_neighbours n hn] at this
    obtain ⟨l, hl, hl'⟩ := List.mem_map.1 this
    exact (hshow _ _ (hall l hl)).2 x hl'

/-! ## C40 the counters -/

/-- The subtractions do not underflow, and the counts are the numbers of shown nodes, ports and
links (each link listed once, from its outgoing end). -/
theorem C40_counts_partial (h2m : 2 ≤ maxOff) (hmax : maxOff ≤ 32767) (h : MReach maxOff m) :
    (m.copyCount ≤ m.graph.nodeCount ∧ m.subCount + m.copyCount ≤ m.graph.portCount ∧ m.copyCount ≤ m.graph.linkCount) ∧
    (∃ L : List Nat, L.Nodup ∧ (∀ n, n ∈ L ↔ m.obs.node n) ∧ m.nodeCount = L.length) ∧
    (∃ L : List Nat, L.Nodup ∧ (∀ p, p ∈ L ↔ ∃ x, m.obs.pos p x) ∧ m.portCount = L.length) ∧
    (∃ L : List (Subport × Subport), L.Nodup ∧
      (∀ e f, (e, f) ∈ L ↔ m.obs.link e f ∧ m.graph.portDirection e.1 = some .outgoing) ∧ m.linkCount = L.length) := by
  have hM := h.ok h2m hmax
  obtain ⟨L1, a1, a2, a3⟩ := (nodeCount_ok hM).2
  obtain ⟨L2, b1, b2, b3⟩ := (portCount_ok hM).2
  obtain ⟨L3, c1, c2⟩ := ofMG_count hM 0 0
  refine ⟨⟨(nodeCount_ok hM).1, (portCount_ok hM).1, (linkCount_ok hM).1⟩, ⟨L1, a1, a2, a3.symm⟩,
    ⟨L2, b1, fun p => ?_, b3.symm⟩, ⟨L3, c1.nodup, fun e f => ?_, c2⟩⟩
  · rw [b2]
    show m.containsPort p = true ↔ _
    rw [port_vat hM]
    exact exists_congr fun x => (obs_pos hM).symm
  · rw [c1.mem, shows_iff hM, obs_link hM]; rfl

/-- `is_empty` says that no node is shown. -/
theorem C40_is_empty (h2m : 2 ≤ maxOff) (hmax : maxOff ≤ 32767) (h : MReach maxOff m) :
    m.nodeCount = 0 ↔ ∀ n, ¬ m.obs.node n := by
  have := ofMG_empty (h.ok h2m hmax) 0 0
  unfold GView.EmptyOk at this
  rw [← decide_eq_true_iff (p := m.nodeCount = 0)]
  rw [show (decide (m.nodeCount = 0)) = (ofMG m 0 0).isEmpty from rfl, this]
  refine forall_congr' fun n => ?_
  show m.containsNode n = false ↔ ¬ m.containsNode n = true
  simp

theorem counted_eq {P Q : Nat → Prop} {n k : Nat} (h1 : ∃ L : List Nat, L.Nodup ∧ (∀ x, x ∈ L ↔ P x) ∧ n = L.length)
    (h2 : ∃ L : List Nat, L.Nodup ∧ (∀ x, x ∈ L ↔ Q x) ∧ k = L.length) (h : ∀ x, Q x ↔ P x) : k = n := by
  obtain ⟨L, a1, a2, rfl⟩ := h1
  obtain ⟨L', b1, b2, rfl⟩ := h2
  exact ((List.perm_ext_iff_of_nodup b1 a1).2 fun x => by rw [a2, b2, h]).length_eq

/-- A successful `link_ports` adds one to `link_count` and nothing to the other counts. -/
theorem C40_link_ports (h2m : 2 ≤ maxOff) (hmax : maxOff ≤ 32767) (h : MReach maxOff m) {a b : Nat}
    (hok : (MOp.linkPorts a b).ok maxOff m) {e f : Subport} {m' : MG} (hr : m.linkPorts maxOff a b = some (.ok (e, f), m')) :
    m'.linkCount = m.linkCount + 1 ∧ m'.nodeCount = m.nodeCount ∧ m'.portCount = m.portCount := by
  obtain ⟨r, m1, h1, h2, h3⟩ := C39_calls_partial h2m hmax h hok
  have hs : m.step maxOff (.linkPorts a b) = some (.link (.ok (e, f)), m') := by simp [MG.step, hr]
  rw [hs] at h1; cases h1
  obtain ⟨hN, hP, hE⟩ := h2
  obtain ⟨-, n1, p1, L, l1, l2, l3⟩ := C40_counts_partial h2m hmax h
  obtain ⟨-, n2, p2, L', l1', l2', l3'⟩ := C40_counts_partial h2m hmax h3
  refine ⟨?_, counted_eq n1 n2 hN, counted_eq p1 p2 fun p => exists_congr fun x => hP p x⟩
  have hM := h.ok h2m hmax
  have hM' := h3.ok h2m hmax
  obtain ⟨x, hx⟩ := (port_vat hM).1 hok.1
  obtain ⟨y, hy⟩ := (port_vat hM).1 hok.2.1
  have hd : x.2.1 ≠ y.2.1 := by
    intro hc
    obtain ⟨i, j, hij⟩ := ((hE x y ((obs_pos hM).2 hx) ((obs_pos hM).2 hy)).2 hc).1
    cases hij
  obtain ⟨k, l, hkl, ⟨f1, f2, -, f4⟩, -⟩ := (hE x y ((obs_pos hM).2 hx) ((obs_pos hM).2 hy)).1 hd
  cases hkl
  have hdir : ∀ p z, VAt m p z → m'.graph.portDirection p = some z.2.1 ∧ m.graph.portDirection p = some z.2.1 := by
    intro p z hz
    have hz' : VAt m' p z := (obs_pos hM').1 ((hP p z).2 ((obs_pos hM).2 hz))
    exact ⟨At.portDirection hM'.inv hz'.1, At.portDirection hM.inv hz.1⟩
  have hsame : ∀ p z, VAt m p z → (m'.graph.portDirection p = some .outgoing ↔ m.graph.portDirection p = some .outgoing) := by
    intro p z hz
    obtain ⟨h1, h2⟩ := hdir p z hz
    rw [h1, h2]
  obtain ⟨da, -⟩ := hdir a x hx
  obtain ⟨db, -⟩ := hdir b y hy
  have hlk : ∀ z w, m.obs.link z w → ∃ q, VAt m z.1 q := fun z w hz => (shows_vat hM ((obs_link hM).1 hz)).1
  -- the new link, seen from its outgoing end
  have key : ∀ u v : Subport, (∀ z, ¬ m.obs.link u z) → m'.graph.portDirection u.1 = some .outgoing →
      m'.graph.portDirection v.1 ≠ some .outgoing →
      (∀ z w, m'.obs.link z w ↔ m.obs.link z w ∨ (z = u ∧ w = v) ∨ (z = v ∧ w = u)) →
      L'.length = L.length + 1 := by
    intro u v hu du dv hl
    have hnd : ((u, v) :: L).Nodup := by
      rw [List.nodup_cons]
      exact ⟨fun hc => hu v ((l2 u v).1 hc).1, l1⟩
    have := ((List.perm_ext_iff_of_nodup l1' hnd).2 ?_).length_eq
    · simpa using this
    · rintro ⟨z, w⟩
      rw [l2', hl, List.mem_cons, l2]
      constructor
      · rintro ⟨h5 | ⟨rfl, rfl⟩ | ⟨rfl, rfl⟩, h6⟩
        · obtain ⟨q, hq⟩ := hlk z w h5
          exact .inr ⟨h5, (hsame _ q hq).1 h6⟩
        · exact .inl rfl
        · exact absurd h6 dv
      · rintro (h5 | ⟨h5, h6⟩)
        · cases h5
          exact ⟨.inr (.inl ⟨rfl, rfl⟩), du⟩
        · obtain ⟨q, hq⟩ := hlk z w h5
          exact ⟨.inl h5, (hsame _ q hq).2 h6⟩
  rw [l3, l3']
  cases hxd : x.2.1 with
  | outgoing =>
    refine key (a, k) (b, l) f1 (by rw [da, hxd]) (fun hc => ?_) f4
    rw [db] at hc
    simp only [Option.some.injEq] at hc
    exact hd (by rw [hxd, hc])
  | incoming =>
    refine key (b, l) (a, k) f2 ?_ ?_ fun z w => ?_
    · rw [db]
      cases hyd : y.2.1 with
      | outgoing => rfl
      | incoming => exact absurd (by rw [hxd, hyd]) hd
    · rw [da, hxd]; simp
    · rw [f4]
      exact or_congr_right or_comm

/-! ## C41 edits and queries -/

/-- Every query about a shown node, port or subport returns. -/
theorem C41_queries_work_partial (h2m : 2 ≤ maxOff) (hmax : maxOff ≤ 32767) (h : MReach maxOff m) :
    (∀ p, m.containsPort p = true → (m.portLinks? p).isSome = true ∧ (m.subportsAt? p).isSome = true) ∧
    (∀ e, m.obs.sub e → (m.subportLink? e).isSome = true) ∧
    (∀ n d, m.containsNode n = true → (m.links? n d).isSome = true ∧ (m.allLinks? n).isSome = true ∧
      (m.neighbours? n d).isSome = true ∧ (m.allNeighbours? n).isSome = true ∧
      (m.subportsOf? (m.graph.ports n d)).isSome = true ∧ (m.subportsOf? (m.graph.allPorts n)).isSome = true ∧
      ∀ b, (m.connections? n b).isSome = true) := by
  have hM := h.ok h2m hmax
  refine ⟨fun p hp => ?_, fun e he => ?_, fun n d hn => ?_⟩
  · obtain ⟨L, h1, -⟩ := portLinks_spec hM hp
    obtain ⟨L', h2, -⟩ := subportsAt_spec hM hp
    simp [h1, h2]
  · obtain ⟨q, hq⟩ := (obs_sub hM).1 he
    rw [(hM.subportLink_eq hq).1]; rfl
  · have hc := (contains_iff.1 hn).2
    have hl : ∀ d, (m.links? n d).isSome = true := by
      intro d
      unfold MG.links?
      rw [linksOf_flatMap (cn := 0) (cp := 0) hM (ports_vis hc)]; rfl
    obtain ⟨S, s1, -, -, s4, -⟩ := subports_spec (cn := 0) (cp := 0) hM hn d
    obtain ⟨S', t1, -, t3, -⟩ := allSubports_spec hM hn
    obtain ⟨N, n1, -⟩ := neighbours_list hM (S := S) (fun e he => ((s4 e).1 he).2) n false
    obtain ⟨N', n1', -⟩ := neighbours_list hM (S := S') (fun e he => ((t3 e).1 he).2) n true
    refine ⟨hl d, ?_, ?_, ?_, by rw [s1]; rfl, by rw [t1]; rfl, fun b => ?_⟩
    · unfold MG.allLinks?
      rw [linksOf_flatMap (cn := 0) (cp := 0) hM (allPorts_vis hc)]; rfl
    · unfold MG.neighbours?; rw [s1]; simp only [n1]; rfl
    · unfold MG.allNeighbours?; rw [t1]; simp only [n1']; rfl
    · unfold MG.connections?
      obtain ⟨L, hL⟩ := Option.isSome_iff_exists.1 (hl .outgoing)
      rw [hL]; rfl

/-- `remove_node` removes the node with its ports and their links, and nothing else; the graph
after it is again one to which all theorems apply. -/
theorem C41_remove_node (h2m : 2 ≤ maxOff) (hmax : maxOff ≤ 32767) (h : MReach maxOff m) {n : Nat}
    (hn : m.containsNode n = true) : ∃ m', m.removeNode n = some m' ∧ MReach maxOff m' ∧
      (∀ x, m'.obs.node x ↔ m.obs.node x ∧ x ≠ n) ∧ (∀ p e, m'.obs.pos p e ↔ m.obs.pos p e ∧ e.1 ≠ n) ∧
      (∀ e f, m'.obs.link e f ↔ m.obs.link e f ∧ m.graph.portNode e.1 ≠ some n ∧ m.graph.portNode f.1 ≠ some n) ∧
      ∀ z, m'.obs.sub z ↔ m.obs.sub z ∧ m.graph.portNode z.1 ≠ some n := by
  have hok : (MOp.removeNode n).ok maxOff m := .inl hn
  obtain ⟨r, m', h1, h2, h3⟩ := C39_calls_partial h2m hmax h hok
  obtain ⟨m1, h4, h5⟩ := Option.map_eq_some_iff.1 h1
  obtain ⟨rfl, rfl⟩ := Prod.mk.inj h5
  obtain ⟨h6, h7, h8, h8'⟩ := h2
  have hM := h.ok h2m hmax
  refine ⟨m1, h4, h3, h6, h7, fun e f => ?_, fun z => ?_⟩
  rotate_left
  · rw [h8']
    refine and_congr_right fun hz => ?_
    obtain ⟨q, hs⟩ := (obs_sub hM).1 hz
    obtain ⟨x, c, d, k, l, a1, a2, -⟩ := hM.sub_vis hs
    rw [At.portNode hM.inv a1]
    constructor
    · intro h9; simpa using h9 _ ((obs_pos hM).2 ⟨a1, a2⟩)
    · intro h9 y hy
      rw [((obs_pos hM).1 hy).1.inj hM.inv a1]; simpa using h9
  rw [h8]
  refine and_congr_right fun hl => ?_
  obtain ⟨⟨x, hx⟩, y, hy⟩ := shows_vat hM ((obs_link hM).1 hl)
  rw [At.portNode hM.inv hx.1, At.portNode hM.inv hy.1]
  constructor
  · rintro ⟨h9, h10⟩
    exact ⟨by simpa using h9 x ((obs_pos hM).2 hx), by simpa using h10 y ((obs_pos hM).2 hy)⟩
  · rintro ⟨h9, h10⟩
    refine ⟨fun z hz => ?_, fun z hz => ?_⟩
    · rw [((obs_pos hM).1 hz).1.inj hM.inv hx.1]; simpa using h9
    · rw [((obs_pos hM).1 hz).1.inj hM.inv hy.1]; simpa using h10

/-- `unlink_port` removes all links of the port and all its subports but one, and nothing else. -/
theorem C41_unlink_port (h2m : 2 ≤ maxOff) (hmax : maxOff ≤ 32767) (h : MReach maxOff m) {p : Nat}
    (hp : m.containsPort p = true) : ∃ r m', m.unlinkPort p = some (r, m') ∧ MReach maxOff m' ∧
      (∀ x, m'.obs.node x ↔ m.obs.node x) ∧ (∀ p e, m'.obs.pos p e ↔ m.obs.pos p e) ∧
      (∀ e f, m'.obs.link e f ↔ m.obs.link e f ∧ e.1 ≠ p ∧ f.1 ≠ p) ∧
      ∀ z, m'.obs.sub z ↔ m.obs.sub z ∧ (z.1 = p → z.2 = 0) := by
  have hok : (MOp.unlinkPort p).ok maxOff m := .inl hp
  obtain ⟨r, m', h1, h2, h3⟩ := C39_calls_partial h2m hmax h hok
  obtain ⟨⟨r1, m1⟩, h4, h5⟩ := Option.map_eq_some_iff.1 h1
  obtain ⟨rfl, rfl⟩ := Prod.mk.inj h5
  obtain ⟨h6, h7, h8, -, h9⟩ := h2
  exact ⟨r1, m1, h4, h3, h6, h7, h8, h9⟩

/-- `set_num_ports`, when no removed port has several subports: the ports that stay keep their
positions and all links among each other, and move as reported.

Missing for the full claim: removed ports with several subports. Then it depends on whether a port
moves into the place of the removed one (`MOp.ok` excludes only that); if so, the claim is false,
see `C41_witness_shrink_links` and `C41_witness_stale_flag`. -/
theorem C41_set_num_ports_partial (h2m : 2 ≤ maxOff) (hmax : maxOff ≤ 32767) (h : MReach maxOff m) {n i o : Nat}
    (hn : m.containsNode n = true) (htot : i + o ≤ 32768)
    (hsingle : ∀ p e, m.obs.pos p e → Cut n i o e → ¬ m.obs.sub (p, 1)) :
    ∃ m' tr, m.setNumPorts n i o = some (m', tr) ∧ MReach maxOff m' ∧ Effect m.obs m'.obs (.setNumPorts n i o) (.ports tr) := by
  have hM := h.ok h2m hmax
  have hok : (MOp.setNumPorts n i o).ok maxOff m := by
    refine ⟨.inl hn, htot, fun g tr hg x y r L hx hy hL => ?_⟩
    obtain ⟨-, -, π, -, -, -, tr1, l, rfl, hC⟩ := resize_flat hM.inv (contains_iff.1 hn).1 hg
    have : (y, PortOp.removed r) ∈ tr1 := by
      rcases List.mem_append.1 hy with hy | hy
      · exact hy
      · obtain ⟨z, -, hz⟩ := List.mem_map.1 hy; cases hz
    obtain ⟨e, h1, h2⟩ := (hC.mem_drop y).1 (List.mem_map.2 ⟨_, this, rfl⟩)
    have hv : VAt m y e := ⟨h1, by rw [h2.1]; exact (contains_iff.1 hn).2⟩
    have hno := hsingle y e ((obs_pos hM).2 hv) (cut_iff'.2 h2)
    rw [obs_sub hM, sub_one_iff hM hv] at hno
    have : m.subportsAt? y = some [(y, 0)] := by simp [MG.subportsAt?, hno]
    rw [hL] at this; cases this; simp
  obtain ⟨r, m', h1, h2, h3⟩ := C39_calls_partial h2m hmax h hok
  obtain ⟨⟨m1, tr⟩, h4, h5⟩ := Option.map_eq_some_iff.1 h1
  obtain ⟨rfl, rfl⟩ := Prod.mk.inj h5
  exact ⟨m1, tr, h4, h3, h2⟩

/-! ## Where the claims fail -/

/-- A node with an incoming and an outgoing port; both have two links. -/
def exShrink : MG :=
  built [.addNode 1 1, .addNode 0 2, .addNode 2 0, .linkPorts 2 0, .linkPorts 3 0, .linkPorts 1 4, .linkPorts 1 5]

/-- The claim for `set_num_ports` fails: after the incoming port is removed, the outgoing port takes
its place, and its links are lost: instead the port appears to be linked to itself, and the ports on
the other side to something that is no outgoing port with that link. -/
theorem C41_witness_shrink_links : MReach 32767 exShrink ∧
    exShrink.portLinks? 1 = some [((1, 0), (4, 0)), ((1, 1), (5, 0))] ∧
    (exShrink.setNumPorts 0 0 1).map (fun x => (x.2, x.1.portLinks? 0)) =
      some ([(0, .removed (some 8)), (1, .moved 0)], some [((0, 0), (0, 0))]) :=
  ⟨built_reach _, by decide +kernel, by decide +kernel⟩

/-- Then `link_count` is not the number of shown links: the two outgoing ports of node 1 have none any
more, and port 0 shows one. -/
theorem C40_witness_shrink : MReach 32767 exShrink ∧
    (exShrink.setNumPorts 0 0 1).map (fun x => (x.1.nodes, x.1.linkCount,
      x.1.nodes.map fun n => ((x.1.links? n .outgoing).getD []).length)) = some ([0, 1, 2], 2, [1, 0, 0]) :=
  ⟨built_reach _, by decide +kernel⟩

/-- A node with an incoming and an outgoing port; the incoming port has two links. -/
def exStale : MG := built [.addNode 1 1, .addNode 0 2, .linkPorts 2 0, .linkPorts 3 0]

/-- After such a call the flag of the freed slot stays set: a port of a node added later has the
flag, and queries about it panic. -/
theorem C41_witness_stale_flag : MReach 32767 exStale ∧
    ((exStale.setNumPorts 0 0 1).bind fun x => (x.1.removeNode 0).bind fun m => (m.addNode 32767 0 2)).map
      (fun x => (x.1, x.2.containsPort 1, (x.2.portLinks? 1).isSome, (x.2.links? x.1 .outgoing).isSome)) =
      some (0, true, false, false) :=
  ⟨built_reach _, by decide +kernel⟩

/-- Port 0 with two links. -/
def exTwo : MG := built [.addNode 0 1, .addNode 2 0, .linkPorts 0 1, .linkPorts 0 2]

/-- `unlink_port` returns "the port it was linked to" wrongly: for a port with two links it returns
the port itself, and at the other end of one of these links it returns a hidden port. -/
theorem C41_witness_unlink_result : MReach 32767 exTwo ∧
    exTwo.portLinks? 0 = some [((0, 0), (1, 0)), ((0, 1), (2, 0))] ∧
    (exTwo.unlinkPort 0).map (·.1) = some (some (0, 0)) ∧
    (exTwo.unlinkPort 1).map (·.1) = some (some (4, 0)) ∧ exTwo.containsPort 4 = false :=
  ⟨built_reach _, by decide +kernel, by decide +kernel, by decide +kernel, by decide +kernel⟩

/-- Ports 0 and 1 with one link. -/
def exOne : MG := built [.addNode 0 1, .addNode 1 0, .linkPorts 0 1]

/-- `link_ports(0, 2)`, where 2 is no port: the helper port that the call creates for port 0 has index
2, so that the call succeeds instead of returning `UnknownPort`; afterwards port 0 is gone. With 3
instead of 2 it fails, but port 0 appears to be linked to a hidden port. -/
theorem C39_witness_unknown_port : MReach 32767 exOne ∧ exOne.containsPort 2 = false ∧
    exOne.graph.containsPort 2 = false ∧ exOne.containsPort 0 = true ∧
    (exOne.linkPorts 32767 0 2).map (fun x => (x.1.toOption, x.2.containsPort 0)) = some (some ((0, 1), (2, 0)), false) ∧
    (exOne.linkPorts 32767 0 3).map (fun x => (x.1.toOption.isSome, (x.2.portLinks? 0).getD [], x.2.containsPort 3)) =
      some (false, [((0, 0), (3, 0))], false) :=
  ⟨built_reach _, by decide +kernel, by decide +kernel, by decide +kernel, by decide +kernel, by decide +kernel⟩

/-- Queries that are passed on to the port graph answer for helper nodes: node 2 is not contained,
but has ports. -/
theorem C39_witness_helpers_answer : MReach 32767 exTwo ∧ exTwo.containsNode 2 = false ∧
    exTwo.graph.ports 2 .outgoing = [4, 5] ∧ exTwo.graph.numPorts 2 .outgoing = 2 ∧ exTwo.graph.portNode 4 = some 2 ∧
    exTwo.containsPort 4 = false :=
  ⟨built_reach _, by decide +kernel, by decide +kernel, by decide +kernel, by decide +kernel, by decide +kernel⟩

/-- Compaction counts helpers: afterwards the three nodes are 0, 1 and 4. -/
def exGap : MG := built [.addNode 0 1, .addNode 1 0, .addNode 0 0, .linkPorts 0 1, .linkPorts 0 1, .addNode 0 0, .removeNode 2]

theorem C39_witness_compact_gaps : MReach 32767 exGap ∧ exGap.nodes = [0, 1, 5] ∧ exGap.nodeCount = 3 ∧
    (exGap.compactNodes).map (fun x => x.1.nodes) = some [0, 1, 4] :=
  ⟨built_reach _, by decide +kernel, by decide +kernel, by decide +kernel⟩

/-! ## Examples -/

/-- Three nodes; ports 0, 1 and 3 have several links. -/
def exM : MG := built [.addNode 0 1, .addNode 1 1, .addNode 2 0, .linkPorts 0 1, .linkPorts 0 3, .linkPorts 2 3, .linkPorts 0 1]

example : MReach 32767 exM ∧ exM.nodes = [0, 1, 2] ∧ exM.portsIter = [0, 1, 2, 3, 4] ∧ exM.copyCount = 3 ∧
    exM.nodeCount = 3 ∧ exM.portCount = 5 ∧ exM.linkCount = 4 :=
  ⟨built_reach _, by decide +kernel, by decide +kernel, by decide +kernel, by decide +kernel, by decide +kernel,
    by decide +kernel⟩

example : exM.portLinks? 0 = some [((0, 0), (1, 0)), ((0, 1), (3, 0)), ((0, 2), (1, 1))] ∧
    exM.neighbours? 0 .outgoing = some [1, 2, 1] := ⟨by decide +kernel, by decide +kernel⟩

/-- Arguments for `C39_calls_partial` and `C40_link_ports`. -/
example : (MOp.linkPorts 2 4).ok 32767 exM ∧ (MOp.setNumPorts 1 2 1).ok 32767 exM ∧ MOp.compactPorts.ok 32767 exM ∧
    (MOp.unlinkSubport (0, 1)).ok 32767 exM ∧ (MOp.linkSubports (2, 0) (4, 0)).ok 32767 exM ∧
    (MOp.swapNodes 0 2).ok 32767 exM :=
  ⟨check_ok (by decide +kernel), check_ok (by decide +kernel), check_ok (by decide +kernel), check_ok (by decide +kernel),
    check_ok (by decide +kernel), check_ok (by decide +kernel)⟩

example : (exM.linkPorts 32767 2 4).map (fun x => (x.1.toOption, x.2.linkCount)) = some (some ((2, 1), (4, 0)), 5) := by
  decide +kernel

/-- Arguments for `C41_set_num_ports_partial`: the dropped port 4 has one subport. -/
example : exM.containsNode 2 = true ∧ exM.graph.ports 2 .incoming = [3, 4] ∧ exM.subportsAt? 4 = some [(4, 0)] ∧
    (exM.setNumPorts 2 1 0).map (fun x => (x.2, x.1.portLinks? 3)) =
      some ([(4, .removed none)], some [((3, 0), (0, 1)), ((3, 1), (2, 0))]) :=
  ⟨by decide +kernel, by decide +kernel, by decide +kernel, by decide +kernel⟩

/-- `C41_remove_node` and `C41_unlink_port`. -/
example : exM.containsNode 1 = true ∧ (exM.removeNode 1).map (fun m => (m.portLinks? 0, m.linkCount)) =
    some (some [((0, 1), (3, 0))], 1) := ⟨by decide +kernel, by decide +kernel⟩

example : exM.containsPort 1 = true ∧ (exM.unlinkPort 1).map (fun x => (x.2.portLinks? 0, x.2.linkCount)) =
    some (some [((0, 1), (3, 0))], 2) := ⟨by decide +kernel, by decide +kernel⟩

/-- `C39_from_portgraph`. -/
example : PG.Reach 32767 exG := exG_reach

example := C39_shows_a_multigraph_partial (by decide) (by decide) (built_reach _ : MReach 32767 exM) 8 16

example := C39_calls_partial (by decide) (by decide) (built_reach _ : MReach 32767 exM) (op := .setNumPorts 1 2 1) (check_ok (by decide +kernel))

example := C39_from_portgraph (by decide) exG_reach

example := C39_helpers_hidden (by decide) (by decide) (built_reach _ : MReach 32767 exM) (n := 0) (by decide +kernel) .outgoing

example := C40_counts_partial (by decide) (by decide) (built_reach _ : MReach 32767 exM)

example := C40_is_empty (by decide) (by decide) (built_reach _ : MReach 32767 exM)

example := C40_link_ports (by decide) (by decide) (built_reach _ : MReach 32767 exM) (a := 2) (b := 4) (check_ok (by decide +kernel))
  (e := (2, 1)) (f := (4, 0)) (m' := ((exM.linkPorts 32767 2 4).getD (.ok ((0, 0), (0, 0)), exM)).2) rfl

example := C41_queries_work_partial (by decide) (by decide) (built_reach _ : MReach 32767 exM)

example := C41_remove_node (by decide) (by decide) (built_reach _ : MReach 32767 exM) (n := 1) (by decide +kernel)

example := C41_unlink_port (by decide) (by decide) (built_reach _ : MReach 32767 exM) (p := 0) (by decide +kernel)

#print axioms C39_shows_a_multigraph_partial
#print axioms C39_calls_partial
#print axioms C39_from_portgraph
#print axioms C39_helpers_hidden
#print axioms C40_counts_partial
#print axioms C40_is_empty
#print axioms C40_link_ports
#print axioms C41_queries_work_partial
#print axioms C41_remove_node
#print axioms C41_unlink_port
#print axioms C41_set_num_ports_partial
#print axioms C41_witness_shrink_links
#print axioms C41_witness_stale_flag
#print axioms C40_witness_shrink
#print axioms C41_witness_unlink_result
#print axioms C39_witness_unknown_port
#print axioms C39_witness_helpers_answer
#print axioms C39_witness_compact_gaps

end Verif.Multi
