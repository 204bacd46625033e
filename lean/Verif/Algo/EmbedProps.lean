import Verif.Algo.Embed
import Verif.Algo.DomProps
import Verif.Algo.TopoRun
import Verif.PortGraph.PropsCompact
import Verif.PortGraph.PropsInsert

/-!
# C77: the traversals do not depend on the numbers of nodes and ports

A graph may hold a copy of another one: node `n` of the first is node `ρ n` of the second, with as
many ports, and the links at offsets are those of `n` with the nodes renamed. Port numbers, spare
slots and other parts of the second graph are arbitrary. The topological sort, the post-order
traversal and the dominator tree of the copy are those of the origin with the nodes renamed.
-/

namespace Verif.Algo

open Verif (Direction)
open Verif.PG
open Verif.PG.AGraph (mapNode Renamed)

/-- `B` holds a copy of `A`: node `n` of `A` is node `ρ n` of `B`. -/
structure Copied (ρ : Nat → Nat) (A B : AGraph) : Prop where
  inj : ∀ a b, (A.counts a).isSome → (A.counts b).isSome → ρ a = ρ b → a = b
  counts : ∀ n c, A.counts n = some c → B.counts (ρ n) = some c
  link : ∀ n x, (A.counts n).isSome → B.link (ρ n, x) = (A.link (n, x)).map (mapNode ρ)

/-- The filters answer alike on node `n` and on node `ρ n`, and on ports at equal offsets of them. -/
structure SameFilters (ρ : Nat → Nat) (g g' : PG) (F F' : Filter) : Prop where
  node : ∀ n, g.containsNode n = true → F'.node (ρ n) = F.node n
  port : ∀ n d k p p', g.portIndex n d k = some p → g'.portIndex (ρ n) d k = some p' → F'.port (ρ n) p' = F.port n p

/-- The port of the copy at the endpoint of `p`. -/
def copyPort (ρ : Nat → Nat) (g g' : PG) (p : Nat) : Nat :=
  match g.endpoint p with
  | none => 0
  | some e => (g'.portIndex (ρ e.1) e.2.1 e.2.2).getD 0

theorem node_counts {g : PG} {n : Nat} : (g.abs.counts n).isSome = g.containsNode n := by
  rw [abs_counts, PG.containsNode]; cases g.node? n <;> rfl

theorem ports_get {g : PG} {n : Nat} {d : Direction} (k : Nat) : (g.ports n d)[k]? = g.portIndex n d k := by
  unfold PG.ports PG.portIndex
  cases h : g.node? n with
  | none => simp
  | some m => rfl

section

variable {ρ : Nat → Nat} {g g' : PG}

theorem copy_at (hI : PG.Inv g) (_hI' : PG.Inv g') (hC : Copied ρ g.abs g'.abs) {p n d k} (h : At g p (n, d, k)) :
    At g' (copyPort ρ g g' p) (ρ n, d, k) := by
  have h1 : g'.abs.Has (ρ n, d, k) := by
    have h0 := h.hasEnd
    obtain ⟨m, hm, -⟩ := h
    have hc : g.abs.counts n = some (m.incoming, m.outgoing) := by rw [abs_counts, hm]; rfl
    unfold AGraph.Has AGraph.arity at h0 ⊢
    simp only [hc] at h0
    simp only [hC.counts n _ hc]
    exact h0
  obtain ⟨q, hq⟩ := abs_has.1 h1
  have : copyPort ρ g g' p = q := by simp only [copyPort, h.endpoint hI, at_index.2 hq, Option.getD_some]
  rw [this]; exact hq

theorem copy_back (hI : PG.Inv g) (hI' : PG.Inv g') (hC : Copied ρ g.abs g'.abs) {n d k q} (hn : g.containsNode n = true)
    (h : At g' q (ρ n, d, k)) : ∃ p, At g p (n, d, k) ∧ q = copyPort ρ g g' p := by
  have h1 : g.abs.Has (n, d, k) := by
    have h0 := h.hasEnd
    obtain ⟨m, hm⟩ := Option.isSome_iff_exists.1 hn
    have hc : g.abs.counts n = some (m.incoming, m.outgoing) := by rw [abs_counts, hm]; rfl
    unfold AGraph.Has AGraph.arity at h0 ⊢
    simp only [hC.counts n _ hc] at h0
    simp only [hc]
    exact h0
  obtain ⟨p, hp⟩ := abs_has.1 h1
  exact ⟨p, hp, h.unique (copy_at hI hI' hC hp)⟩

theorem containsPort_at (hI : PG.Inv g) {p : Nat} : g.containsPort p = true ↔ ∃ n d k, At g p (n, d, k) := by
  constructor
  · intro h
    obtain ⟨⟨n, d⟩, h⟩ := Option.isSome_iff_exists.1 h
    obtain ⟨m, _, _, h⟩ := port_at hI h
    exact ⟨n, d, _, h⟩
  · rintro ⟨n, d, k, h⟩
    rw [PG.containsPort, h.port hI]; rfl

theorem at_live {p : Nat} {n d k} (h : At g p (n, d, k)) : g.containsNode n = true := by
  obtain ⟨m, hm, -⟩ := h
  simp only at hm
  rw [PG.containsNode, hm]; rfl

theorem embeds_of_copied (hI : PG.Inv g) (hI' : PG.Inv g') (hC : Copied ρ g.abs g'.abs) :
    Embeds (ofPG g) (ofPG g') ρ (copyPort ρ g g') (fun n => g.containsNode n = true) (fun p => g.containsPort p = true) where
  injN a b ha hb h := hC.inj a b (by rw [node_counts]; exact ha) (by rw [node_counts]; exact hb) h
  injP a b ha hb h := by
    obtain ⟨n, d, k, ha⟩ := (containsPort_at hI).1 ha
    obtain ⟨m, d', k', hb⟩ := (containsPort_at hI).1 hb
    have h1 := copy_at hI hI' hC ha
    have h2 := copy_at hI hI' hC hb
    rw [h] at h1
    have h3 := h1.inj hI' h2
    simp only [Prod.mk.injEq] at h3
    obtain ⟨e1, rfl, rfl⟩ := h3
    have := hC.inj n m (by rw [node_counts]; exact at_live ha) (by rw [node_counts]; exact at_live hb) e1
    subst this
    exact ha.unique hb
  ports n d hn := by
    apply List.ext_getElem?
    intro k
    rw [List.getElem?_map]
    simp only [ofPG, ports_get]
    cases h : g.portIndex n d k with
    | some p => exact at_index.2 (copy_at hI hI' hC (at_index.1 h))
    | none =>
      cases h' : g'.portIndex (ρ n) d k with
      | none => rfl
      | some q =>
        obtain ⟨p, hp, -⟩ := copy_back hI hI' hC hn (at_index.1 h')
        rw [at_index.2 hp] at h; cases h
  portsMem n d hn p hp := by
    obtain ⟨k, hp⟩ := mem_ports.1 hp
    refine ⟨(containsPort_at hI).2 ⟨n, d, k, hp⟩, ?_⟩
    simp only [ofPG, PG.portNode, hp.port hI, Option.map_some]
  iter p hp := by
    obtain ⟨n, d, k, h⟩ := (containsPort_at hI).1 hp
    have h' := copy_at hI hI' hC h
    simp only [ofPG, List.mem_filter, List.mem_range]
    exact ⟨⟨port?_lt (h.port hI), hp⟩, port?_lt (h'.port hI'), (containsPort_at hI').2 ⟨_, _, _, h'⟩⟩
  node p hp := by
    obtain ⟨n, d, k, h⟩ := (containsPort_at hI).1 hp
    refine ⟨n, at_live h, ?_, ?_⟩
    · simp only [ofPG, PG.portNode, h.port hI, Option.map_some]
    · simp only [ofPG, PG.portNode, (copy_at hI hI' hC h).port hI', Option.map_some]
  links p hp := by
    obtain ⟨n, d, k, h⟩ := (containsPort_at hI).1 hp
    have h' := copy_at hI hI' hC h
    have hl := hC.link n (d, k) (by rw [node_counts]; exact at_live h)
    simp only [ofPG, portLink?_eq hI (by rw [h.port hI]; rfl), portLink?_eq hI' (by rw [h'.port hI']; rfl), Option.join_some]
    cases e : g.lk p with
    | none =>
      have : g.abs.link (n, d, k) = none := by
        cases e' : g.abs.link (n, d, k) with
        | none => rfl
        | some f =>
          obtain ⟨p', q, h1, h2, -⟩ := (abs_link hI).1 e'
          rw [h1.unique h, e] at h2; cases h2
      rw [this] at hl
      cases e' : g'.lk (copyPort ρ g g' p) with
      | none => rfl
      | some q =>
        obtain ⟨_, m, hm⟩ := lk_at hI' (h'.port hI') e'
        obtain ⟨x, _, _, hx⟩ := port_at hI' hm
        have := (abs_link hI').2 ⟨_, q, h', e', hx⟩
        rw [hl] at this; cases this
    | some q =>
      obtain ⟨_, m, hm⟩ := lk_at hI (h.port hI) e
      obtain ⟨x, _, _, hx⟩ := port_at hI hm
      have h1 := (abs_link hI).2 ⟨p, q, h, e, hx⟩
      rw [h1] at hl
      obtain ⟨p', q', h2, h3, h4⟩ := (abs_link hI').1 hl
      rw [h2.unique h'] at h3
      rw [h3]
      have := h4.unique (copy_at hI hI' hC hx)
      simp [this]
  linksMem p hp q hq := by
    obtain ⟨⟨n, d⟩, hp'⟩ := Option.isSome_iff_exists.1 hp
    rw [ofPG_links hI hp] at hq
    obtain ⟨m, hm, _⟩ := lk_port hI hp' hq
    show (g.port? q).isSome = true
    rw [hm]; rfl

theorem filters_of_same (hI : PG.Inv g) (hI' : PG.Inv g') (hC : Copied ρ g.abs g'.abs) {F F' : Filter} (hF : SameFilters ρ g g' F F') :
    Filters (ofPG g) F F' ρ (copyPort ρ g g') (fun n => g.containsNode n = true) (fun p => g.containsPort p = true) where
  node := hF.node
  port n p hn hp h := by
    obtain ⟨m, d, k, hp⟩ := (containsPort_at hI).1 hp
    simp only [ofPG, PG.portNode, hp.port hI, Option.map_some, Option.some.injEq] at h
    subst h
    exact hF.port m d k p _ (at_index.2 hp) (at_index.2 (copy_at hI hI' hC hp))

theorem copied_live (hC : Copied ρ g.abs g'.abs) {n : Nat} (h : g.containsNode n = true) : g'.containsNode (ρ n) = true := by
  rw [← node_counts] at h ⊢
  obtain ⟨c, hc⟩ := Option.isSome_iff_exists.1 h
  rw [hC.counts n c hc]; rfl

theorem live_lt {cap : Nat} (hcap : g.nodeMeta.length ≤ cap) {n : Nat} (h : g.containsNode n = true) : n < cap := by
  obtain ⟨m, hm⟩ := Option.isSome_iff_exists.1 h
  exact Nat.lt_of_lt_of_le (node?_lt hm) hcap

/-- **C77** The topological sort of a copy, from the copies of the sources, lists the copies of
the nodes in the same order, and marks the ports at the same offsets. -/
theorem C77_toposort {maxOff : Nat} (hmax : maxOff ≤ 32767) (hg : PG.Reach maxOff g) (hg' : PG.Reach maxOff g')
    (hC : Copied ρ g.abs g'.abs) {F F' : Filter} (hF : SameFilters ρ g g' F F') (d : Direction) (dflt : Bool) {S : List Nat}
    (hS : S.Nodup) (hlive : ∀ n ∈ S, g.containsNode n = true) :
    ∃ l s s', toposort (ofPG g) F d dflt S = some (l, s) ∧ toposort (ofPG g') F' d dflt (S.map ρ) = some (l.map ρ, s') ∧
      ∀ n d k p p', g.portIndex n d k = some p → g'.portIndex (ρ n) d k = some p' →
        (p' ∈ Topo.portsRemaining (ofPG g') s' ↔ p ∈ Topo.portsRemaining (ofPG g) s) := by
  have hI := hg.inv hmax
  have hI' := hg'.inv hmax
  have E := embeds_of_copied hI hI' hC
  have hS' : (S.map ρ).Nodup := by
    rw [List.nodup_map_iff_inj_on hS]
    exact fun a ha b hb h => E.injN a b (hlive a ha) (hlive b hb) h
  obtain ⟨l, s, e1, -⟩ := toposort_ok (ofPG_wf hI) F (ofPG_single.to d) dflt hS
  obtain ⟨l', s', e2, -⟩ := toposort_ok (ofPG_wf hI') F' (ofPG_single.to d) dflt hS'
  obtain ⟨rfl, hR⟩ := toposort_rel E (filters_of_same hI hI' hC hF) d dflt dflt hlive rfl e1 e2
  refine ⟨l, s, s', e1, e2, ?_⟩
  intro n d' k p p' hp hp'
  have h1 := at_index.1 hp
  have h2 := (at_index.1 hp').unique (copy_at hI hI' hC h1)
  subst h2
  have hP := (containsPort_at hI).2 ⟨_, _, _, h1⟩
  simp only [Topo.portsRemaining, List.mem_filter, E.iter p hP, hR.visited p hP]

/-- **C77** The post-order traversal of a copy lists the copies of the nodes in the same order. The
bit maps may have different lengths. -/
theorem C77_postorder {maxOff : Nat} (hmax : maxOff ≤ 32767) (hg : PG.Reach maxOff g) (hg' : PG.Reach maxOff g')
    (hC : Copied ρ g.abs g'.abs) {F F' : Filter} (hF : SameFilters ρ g g' F F') (d : Direction) {cap cap' : Nat}
    (hcap : g.nodeMeta.length ≤ cap) (hcap' : g'.nodeMeta.length ≤ cap') {S : List Nat}
    (hlive : ∀ n ∈ S, g.containsNode n = true) :
    ∃ l s s', postorder (ofPG g) F d cap S = some (l, s) ∧ postorder (ofPG g') F' d cap' (S.map ρ) = some (l.map ρ, s') := by
  have hI := hg.inv hmax
  have hI' := hg'.inv hmax
  have hlt : ∀ n, g.containsNode n = true → n < cap ∧ ρ n < cap' :=
    fun n hn => ⟨live_lt hcap hn, live_lt hcap' (copied_live hC hn)⟩
  obtain ⟨l, s, e1, -⟩ := C28_filtered hmax hg F d hcap (S := S) (fun n hn => (hlt n (hlive n hn)).1)
  obtain ⟨l', s', e2, -⟩ := C28_filtered hmax hg' F' d hcap' (S := S.map ρ) (by
    intro n hn
    obtain ⟨a, ha, rfl⟩ := List.mem_map.1 hn
    exact (hlt a (hlive a ha)).2)
  obtain ⟨rfl, -⟩ := postorder_rel (embeds_of_copied hI hI' hC) (filters_of_same hI hI' hC hF) d hlt hlive e1 e2
  exact ⟨l, s, s', e1, e2⟩

/-- **C77** `dominators` of a copy panics or loops exactly if it does on the origin. Otherwise the
immediate dominators of the copies are the copies of the immediate dominators. -/
theorem C77_dominators {maxOff : Nat} (hmax : maxOff ≤ 32767) (hg : PG.Reach maxOff g) (hg' : PG.Reach maxOff g')
    (hC : Copied ρ g.abs g'.abs) {F F' : Filter} (hF : SameFilters ρ g g' F F') (d : Direction) {cap cap' : Nat}
    (hcap : g.nodeMeta.length ≤ cap) (hcap' : g'.nodeMeta.length ≤ cap') {entry : Nat} (he : g.containsNode entry = true) :
    (Dom.dominators (ofPG g) F d cap entry = none ∧ Dom.dominators (ofPG g') F' d cap' (ρ entry) = none) ∨
    ∃ T T', Dom.dominators (ofPG g) F d cap entry = some T ∧ Dom.dominators (ofPG g') F' d cap' (ρ entry) = some T' ∧
      T'.root = ρ T.root ∧ ∀ n, g.containsNode n = true → T'.idom (ρ n) = (T.idom n).map ρ := by
  have hI := hg.inv hmax
  have hI' := hg'.inv hmax
  obtain ⟨l, s, s', e1, e2⟩ := C77_postorder hmax hg hg' hC hF d hcap hcap' (S := [entry]) (by simpa using he)
  exact dominators_rel (embeds_of_copied hI hI' hC) (filters_of_same hI hI' hC hF) d
    (fun n hn => ⟨live_lt hcap hn, live_lt hcap' (copied_live hC hn)⟩) he (by rw [e1]; rfl)
    (by simp only [List.map_cons, List.map_nil] at e2; rw [e2]; rfl)

/-! ### Where copies come from -/

theorem link_live (hI : PG.Inv g) {e f : Endpoint} (h : g.abs.link e = some f) : g.containsNode e.1 = true := by
  obtain ⟨p, q, h, -⟩ := (abs_link hI).1 h
  obtain ⟨n, d, k⟩ := e
  exact at_live h

/-- A renamed graph is a copy. -/
theorem copied_of_renamed (hI : PG.Inv g) (h : Renamed ρ g.abs g'.abs) : Copied ρ g.abs g'.abs where
  inj := h.inj
  counts n c hn := (h.counts _ _).2 ⟨n, rfl, hn⟩
  link n x hn := by
    have key : ∀ f, g'.abs.link (ρ n, x) = some f ↔ (g.abs.link (n, x)).map (mapNode ρ) = some f := by
      intro f
      rw [h.link, Option.map_eq_some_iff]
      constructor
      · rintro ⟨⟨a, y⟩, f', h1, h2, h3⟩
        simp only [mapNode, Prod.mk.injEq] at h1
        obtain ⟨h1, rfl⟩ := h1
        have := h.inj a n (by rw [node_counts]; exact link_live hI h3) hn h1
        subst this
        exact ⟨f', h3, h2⟩
      · rintro ⟨f', h1, h2⟩
        exact ⟨(n, x), f', rfl, h2, h1⟩
    cases hf : (g.abs.link (n, x)).map (mapNode ρ) with
    | some f => exact (key f).2 hf
    | none =>
      cases hf' : g'.abs.link (ρ n, x) with
      | none => rfl
      | some f => rw [(key f).1 hf'] at hf; cases hf

theorem map_id_nodes (o : Option Endpoint) : o.map (mapNode id) = o := by
  cases o <;> rfl

end

/-- With filters that answer alike, the traversals of `g'` from renamed live sources are those of
`g`, renamed. -/
structure SameTraversals (ρ : Nat → Nat) (g g' : PG) : Prop where
  live : ∀ n, g.containsNode n = true → g'.containsNode (ρ n) = true
  toposort : ∀ F F', SameFilters ρ g g' F F' → ∀ d dflt (S : List Nat), S.Nodup → (∀ n ∈ S, g.containsNode n = true) →
    ∃ l s s', toposort (ofPG g) F d dflt S = some (l, s) ∧ Algo.toposort (ofPG g') F' d dflt (S.map ρ) = some (l.map ρ, s')
  postorder : ∀ F F', SameFilters ρ g g' F F' → ∀ d cap cap', g.nodeMeta.length ≤ cap → g'.nodeMeta.length ≤ cap' →
    ∀ S : List Nat, (∀ n ∈ S, g.containsNode n = true) →
    ∃ l s s', postorder (ofPG g) F d cap S = some (l, s) ∧ Algo.postorder (ofPG g') F' d cap' (S.map ρ) = some (l.map ρ, s')
  dominators : ∀ F F', SameFilters ρ g g' F F' → ∀ d cap cap', g.nodeMeta.length ≤ cap → g'.nodeMeta.length ≤ cap' →
    ∀ entry, g.containsNode entry = true →
    (Dom.dominators (ofPG g) F d cap entry = none ∧ Dom.dominators (ofPG g') F' d cap' (ρ entry) = none) ∨
    ∃ T T', Dom.dominators (ofPG g) F d cap entry = some T ∧ Dom.dominators (ofPG g') F' d cap' (ρ entry) = some T' ∧
      T'.root = ρ T.root ∧ ∀ n, g.containsNode n = true → T'.idom (ρ n) = (T.idom n).map ρ

theorem sameTraversals {maxOff : Nat} (hmax : maxOff ≤ 32767) {ρ : Nat → Nat} {g g' : PG} (hg : PG.Reach maxOff g)
    (hg' : PG.Reach maxOff g') (hC : Copied ρ g.abs g'.abs) : SameTraversals ρ g g' where
  live _ h := copied_live hC h
  toposort F F' hF d dflt S hS hlive := by
    obtain ⟨l, s, s', h1, h2, -⟩ := C77_toposort hmax hg hg' hC hF d dflt hS hlive
    exact ⟨l, s, s', h1, h2⟩
  postorder F F' hF d cap cap' h1 h2 S hlive := C77_postorder hmax hg hg' hC hF d h1 h2 hlive
  dominators F F' hF d cap cap' h1 h2 entry he := C77_dominators hmax hg hg' hC hF d h1 h2 he

/-- **C77** Two graphs with the same nodes, port counts and links, whatever calls produced them, have
the same traversals. -/
theorem C77_same_graph {maxOff : Nat} (hmax : maxOff ≤ 32767) {g g' : PG} (hg : PG.Reach maxOff g) (hg' : PG.Reach maxOff g')
    (h : g'.abs = g.abs) : SameTraversals id g g' :=
  sameTraversals hmax hg hg' ⟨fun _ _ _ _ h => h, fun _ _ hc => by rw [h]; exact hc,
    fun _ _ _ => by rw [h]; exact (map_id_nodes _).symm⟩

/-- **C77** `compact_nodes` renames the results of the traversals by the renaming it reports. -/
theorem C77_compact_nodes {maxOff : Nat} (hmax : maxOff ≤ 32767) {g : PG} (hg : PG.Reach maxOff g) :
    ∃ g' tr, g.compactNodes = some (g', tr) ∧ ∀ ρ, (∀ x ∈ tr, ρ x.1 = x.2) → SameTraversals ρ g g' := by
  obtain ⟨g', tr, h1, -, -, -, h2, -⟩ := C15_compact_nodes hmax hg
  have hg' : PG.Reach maxOff g' := .step (op := .compactNodes) hg trivial (by simp [PG.step, h1])
  exact ⟨g', tr, h1, fun ρ hρ => sameTraversals hmax hg hg' (copied_of_renamed (hg.inv hmax) (h2 ρ hρ).1)⟩

/-- **C77** `compact_ports` does not change the traversals, if no node without ports owns slots (the
case where it breaks the graph, `C16_compact_ports_breaks`). -/
theorem C77_compact_ports {maxOff : Nat} (hmax : maxOff ≤ 32767) {g : PG} (hg : PG.Reach maxOff g)
    (h0 : ∀ n, g.numPorts n .incoming + g.numPorts n .outgoing = 0 → g.nodePortCapacity n = 0) :
    ∃ g' tr, g.compactPorts = some (g', tr) ∧ SameTraversals id g g' := by
  obtain ⟨g', tr, h1, h2, -, -, -, h3, -⟩ := C16_compact_ports_partial hmax hg
  exact ⟨g', tr, h1, C77_same_graph hmax hg (h2 h0) h3⟩

/-- **C77** `swap_nodes` exchanges the two nodes in the results of the traversals. -/
theorem C77_swap_nodes {maxOff : Nat} (hmax : maxOff ≤ 32767) {g : PG} (hg : PG.Reach maxOff g) {a b : Nat}
    (hab : g.swappable a b = true) : ∃ g', g.swapNodes a b = some g' ∧ SameTraversals (exchange a b) g g' := by
  obtain ⟨g', h1, h2, h3, -⟩ := C17_swap_nodes_partial hmax hg hab
  exact ⟨g', h1, sameTraversals hmax hg h2 (copied_of_renamed (hg.inv hmax) h3)⟩

/-- **C77** After `insert_graph` the inserted graph is traversed as before, with its nodes renamed by
the returned map, and the nodes that were there are traversed as before. -/
theorem C77_insert_graph {maxOff : Nat} (hmax : maxOff ≤ 32767) {g other : PG} (hg : PG.Reach maxOff g)
    (ho : PG.Reach maxOff other) (hoff : ∀ n d, other.numPorts n d ≤ maxOff) :
    ∃ rk g', g.insertGraph maxOff other = some (.ok rk, g') ∧ SameTraversals id g g' ∧
      ∀ ρ, (∀ x ∈ rk, ρ x.1 = x.2) → SameTraversals ρ other g' := by
  obtain ⟨rk, g', h1, h2, h3, h4, h5, h6, -⟩ := C20_insert_graph hmax hg ho hoff
  refine ⟨rk, g', h1, sameTraversals hmax hg h2 ⟨fun _ _ _ _ h => h, ?_, ?_⟩, fun ρ hρ => sameTraversals hmax ho h2 ⟨?_, ?_, ?_⟩⟩
  · intro n c hc
    rw [id, h4, hc]
  · intro n x hn
    rw [id, h5 n x (by rw [← node_counts]; exact hn), map_id_nodes]
  · intro a b ha hb h
    rw [node_counts] at ha hb
    obtain ⟨m, hm⟩ := (h3.total a).2 ha
    obtain ⟨m', hm'⟩ := (h3.total b).2 hb
    have e1 := hρ _ hm
    have e2 := hρ _ hm'
    simp only at e1 e2
    rw [e1, e2] at h
    subst h
    exact h3.injective a b m hm hm'
  · intro n c hc
    obtain ⟨m, hm⟩ := (h3.total n).2 (by rw [← node_counts, hc]; rfl)
    have e1 := hρ _ hm
    simp only at e1
    rw [e1, h4]
    have : g.abs.counts m = none := by
      have := h3.fresh n m hm
      rw [← node_counts] at this
      cases hx : g.abs.counts m with
      | none => rfl
      | some x => rw [hx] at this; cases this
    rw [this]
    simp only
    cases hf : rk.find? (·.2 == m) with
    | none =>
      have := List.find?_eq_none.1 hf (n, m) hm
      simp at this
    | some x =>
      obtain ⟨b, m'⟩ := x
      have hb := List.mem_of_find?_eq_some hf
      have := List.find?_some hf
      simp only [beq_iff_eq] at this
      subst this
      have := h3.injective b n m' hb hm
      subst this
      exact hc
  · intro n x hn
    rw [node_counts] at hn
    obtain ⟨m, hm⟩ := (h3.total n).2 hn
    have e1 := hρ _ hm
    simp only at e1
    rw [e1]
    have key : ∀ f, g'.abs.link (m, x) = some f ↔ (other.abs.link (n, x)).map (mapNode ρ) = some f := by
      intro f
      rw [h6 n m x f hm, Option.map_eq_some_iff]
      constructor
      · rintro ⟨b', n', y, k1, k2, k3⟩
        have e2 := hρ _ k2
        simp only at e2
        exact ⟨_, k1, by rw [k3, mapNode, e2]⟩
      · rintro ⟨⟨b', y⟩, k1, k2⟩
        obtain ⟨p, q, -, -, k3⟩ := (abs_link (ho.inv hmax)).1 k1
        obtain ⟨n', hn'⟩ := (h3.total b').2 (at_live (k := y.2) (d := y.1) k3)
        have e2 := hρ _ hn'
        simp only at e2
        exact ⟨b', n', y, k1, hn', by rw [← k2, mapNode, e2]⟩
    cases hf : (other.abs.link (n, x)).map (mapNode ρ) with
    | some f => exact (key f).2 hf
    | none =>
      cases hf' : g'.abs.link (m, x) with
      | none => rfl
      | some f => rw [(key f).1 hf'] at hf; cases hf

/-! The hypotheses can be met: the diamond of `dagG` after a node that is removed, so that nodes and
ports have other numbers; with filters, and with a slot that is free. -/

def gapOps : List PG.Op :=
  [.addNode 1 3, .addNode 0 2, .addNode 1 1, .addNode 1 1, .addNode 3 1, .addNode 1 1, .addNode 0 0,
   .linkPorts 4 6, .linkPorts 5 8, .linkPorts 7 10, .linkPorts 9 11, .linkPorts 13 14, .removeNode 0]

def gapG : PG := (PG.run 32767 PG.empty gapOps).getD PG.empty

theorem gapG_run : checkedRun 32767 PG.empty gapOps = some gapG := by decide +kernel

theorem gapG_reach : PG.Reach 32767 gapG := checkedRun_reach .init gapG_run

example : (toposort (ofPG gapG) .all .outgoing false [1, 6]).map (·.1) = some [1, 6, 2, 3, 4, 5] := by decide +kernel
example : gapG.compactNodes.map (·.2) = some [(1, 0), (2, 1), (3, 2), (4, 3), (5, 4), (6, 5)] := by decide +kernel
example : (gapG.compactNodes.bind fun x => (toposort (ofPG x.1) .all .outgoing false [0, 5]).map (·.1)) = some [0, 5, 1, 2, 3, 4] := by
  decide +kernel
example : (gapG.swapNodes 2 3).map (fun g => (toposort (ofPG g) .all .outgoing false [1]).map (·.1)) = some (some [1, 3, 2, 4, 5]) := by
  decide +kernel

/-- No filters on either side. -/
theorem gap_filters (g' : PG) (ρ : Nat → Nat) : SameFilters ρ gapG g' .all .all := ⟨fun _ _ => rfl, fun _ _ _ _ _ _ _ => rfl⟩

example : SameFilters id gapG gapG ⟨fun n => n != 3, fun _ p => p != 6⟩ ⟨fun n => n != 3, fun _ p => p != 6⟩ :=
  ⟨fun _ _ => rfl, fun _ _ _ p p' h h' => by rw [id, h] at h'; cases h'; rfl⟩

example := C77_compact_nodes (by decide) gapG_reach
example := C77_swap_nodes (by decide) gapG_reach (a := 2) (b := 3) (by decide +kernel)
example := C77_insert_graph (by decide) gapG_reach dagG_reach (by
  intro n d
  by_cases h : n < 6
  · have : ∀ n < 6, ∀ d ∈ [Direction.incoming, .outgoing], dagG.numPorts n d ≤ 32767 := by decide +kernel
    exact this n h d (by cases d <;> simp)
  · have : dagG.node? n = none := by
      unfold PG.node?
      rw [List.getElem?_eq_none (by rw [show dagG.nodeMeta.length = 6 by decide +kernel]; omega)]
    simp [PG.numPorts, this])
example := C77_compact_ports (by decide) gapG_reach (by
  intro n _
  by_cases h : n < 7
  · rename_i h0
    have : ∀ n < 7, gapG.numPorts n .incoming + gapG.numPorts n .outgoing = 0 → gapG.nodePortCapacity n = 0 := by decide +kernel
    exact this n h h0
  · have : gapG.node? n = none := by
      unfold PG.node?
      rw [List.getElem?_eq_none (by rw [show gapG.nodeMeta.length = 7 by decide +kernel]; omega)]
    simp [PG.nodePortCapacity, this])
example := C77_same_graph (by decide) gapG_reach gapG_reach rfl

/-- A copy with other numbers. -/
theorem gap_copied : ∃ (g' : PG) (ρ : Nat → Nat), gapG.compactNodes.map (·.1) = some g' ∧ PG.Reach 32767 g' ∧ ρ 4 = 3 ∧ Copied ρ gapG.abs g'.abs := by
  obtain ⟨g', tr, h1, -, -, -, h2, -⟩ := C15_compact_nodes (by decide) gapG_reach
  refine ⟨g', (· - 1), by rw [h1]; rfl, .step (op := .compactNodes) gapG_reach trivial (by simp [PG.step, h1]), rfl,
    copied_of_renamed (gapG_reach.inv (by decide)) (h2 _ ?_).1⟩
  have : tr = [(1, 0), (2, 1), (3, 2), (4, 3), (5, 4), (6, 5)] := by
    have h := congrArg (Option.map (·.2)) h1
    rw [show gapG.compactNodes.map (·.2) = some [(1, 0), (2, 1), (3, 2), (4, 3), (5, 4), (6, 5)] by decide +kernel] at h
    exact (Option.some.inj h).symm
  subst this
  decide

example : ∃ (g' : PG) (ρ : Nat → Nat) (l : List Nat) (s s' : _), gapG.compactNodes.map (·.1) = some g' ∧ toposort (ofPG gapG) .all .outgoing true [1] = some (l, s) ∧
    toposort (ofPG g') .all .outgoing true [ρ 1] = some (l.map ρ, s') := by
  obtain ⟨g', ρ, h1, h2, -, h3⟩ := gap_copied
  obtain ⟨l, s, s', e1, e2, -⟩ := C77_toposort (by decide) gapG_reach h2 h3 (gap_filters g' ρ) .outgoing true (S := [1]) (by decide) (by decide +kernel)
  exact ⟨g', ρ, l, s, s', h1, e1, e2⟩
example : ∃ (g' : PG) (ρ : Nat → Nat) (l : List Nat) (s s' : _), gapG.compactNodes.map (·.1) = some g' ∧ postorder (ofPG gapG) .all .incoming 9 [5] = some (l, s) ∧
    postorder (ofPG g') .all .incoming (g'.nodeMeta.length + 2) [ρ 5] = some (l.map ρ, s') := by
  obtain ⟨g', ρ, h1, h2, -, h3⟩ := gap_copied
  obtain ⟨l, s, s', e1, e2⟩ := C77_postorder (by decide) gapG_reach h2 h3 (gap_filters g' ρ) .incoming (cap := 9)
    (cap' := g'.nodeMeta.length + 2) (by decide +kernel) (by omega) (S := [5]) (by decide +kernel)
  exact ⟨g', ρ, l, s, s', h1, e1, e2⟩
example : ∃ (g' : PG) (ρ : Nat → Nat), gapG.compactNodes.map (·.1) = some g' ∧ (Dom.dominators (ofPG gapG) .all .outgoing 7 1).isSome = true ∧
    (Dom.dominators (ofPG g') .all .outgoing g'.nodeMeta.length (ρ 1)).isSome = true := by
  obtain ⟨g', ρ, h1, h2, -, h3⟩ := gap_copied
  have h : (Dom.dominators (ofPG gapG) .all .outgoing 7 1).isSome = true := by decide +kernel
  rcases C77_dominators (by decide) gapG_reach h2 h3 (gap_filters g' ρ) .outgoing (cap := 7)
    (cap' := g'.nodeMeta.length) (by decide +kernel) (Nat.le_refl _) (entry := 1) (by decide +kernel) with ⟨e, -⟩ | ⟨T, T', e1, e2, -⟩
  · rw [e] at h; cases h
  · exact ⟨g', ρ, h1, h, by rw [e2]; rfl⟩

#print axioms C77_toposort
#print axioms C77_postorder
#print axioms C77_dominators
#print axioms C77_same_graph
#print axioms C77_compact_nodes
#print axioms C77_compact_ports
#print axioms C77_swap_nodes
#print axioms C77_insert_graph

end Verif.Algo
