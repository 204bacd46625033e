import Verif.PortGraph.Example
import Verif.PortGraph.CompactFree

/-!
# Properties of `compact_nodes`, `compact_ports` and `swap_nodes`: C15, C16, C17
-/

namespace Verif.PG

open Verif (Direction)

theorem AGraph.WF.live {A : AGraph} (h : A.WF) {e f} (hl : A.link e = some f) :
    (A.counts e.1).isSome ∧ (A.counts f.1).isSome := by
  have key : ∀ e, A.Has e → (A.counts e.1).isSome := by
    intro e he
    unfold AGraph.Has AGraph.arity at he
    cases hx : A.counts e.1 with
    | none => simp [hx] at he
    | some x => rfl
  exact ⟨key _ (h.ends _ _ hl).1, key _ (h.ends _ _ hl).2⟩

theorem AGraph.Renamed.congr {A B : AGraph} (hA : A.WF) {ρ σ : Nat → Nat} (h : AGraph.Renamed ρ A B)
    (he : ∀ n, (A.counts n).isSome → σ n = ρ n) : AGraph.Renamed σ A B := by
  constructor
  · intro a b ha hb hab
    rw [he a ha, he b hb] at hab
    exact h.inj a b ha hb hab
  · intro n c
    rw [h.counts]
    constructor
    · rintro ⟨a, rfl, h1⟩; exact ⟨a, he a (by simp [h1]), h1⟩
    · rintro ⟨a, rfl, h1⟩; exact ⟨a, (he a (by simp [h1])).symm, h1⟩
  · intro e f
    rw [h.link]
    constructor
    · rintro ⟨e', f', rfl, rfl, h1⟩
      obtain ⟨h2, h3⟩ := hA.live h1
      exact ⟨e', f', by simp [AGraph.mapNode, he _ h2], by simp [AGraph.mapNode, he _ h3], h1⟩
    · rintro ⟨e', f', rfl, rfl, h1⟩
      obtain ⟨h2, h3⟩ := hA.live h1
      exact ⟨e', f', by simp [AGraph.mapNode, he _ h2], by simp [AGraph.mapNode, he _ h3], h1⟩

theorem filter_ranks (n : Nat) (P : Nat → Bool) : ((List.range n).filter P).map (fun k => cnt k P) = List.range (cnt n P) := by
  induction n with
  | zero => rfl
  | succ n ih =>
    rw [List.range_succ, List.filter_append, List.map_append, ih, cnt_succ]
    by_cases h : P n = true
    · simp [h, List.range_succ]
    · simp [h]

theorem filter_sorted (n : Nat) (P : Nat → Bool) : ((List.range n).filter P).Pairwise (· < ·) :=
  List.Pairwise.filter _ List.pairwise_lt_range

/-! ## C15 `compact_nodes` -/

/-- `compact_nodes` does not panic and reports, in increasing order, each live node with the
next index `0, 1, …`; the graph afterwards is the graph before with nodes renamed that way, and
each port keeps its index. -/
theorem C15_compact_nodes {maxOff : Nat} (hmax : maxOff ≤ 32767) {g : PG} (hg : PG.Reach maxOff g) :
    ∃ g' tr, g.compactNodes = some (g', tr) ∧
      (tr.map (·.1)).Pairwise (· < ·) ∧ (∀ n, n ∈ tr.map (·.1) ↔ g.containsNode n = true) ∧
      tr.map (·.2) = List.range g.nodeCount ∧
      (∀ ρ, (∀ x ∈ tr, ρ x.1 = x.2) → AGraph.Renamed ρ g.abs g'.abs ∧
        (∀ n d k, g.containsNode n = true → g'.portIndex (ρ n) d k = g.portIndex n d k)) ∧
      (∀ p, g'.containsPort p = g.containsPort p ∧ g'.portLink? p = g.portLink? p) ∧
      g'.nodeCount = g.nodeCount ∧ g'.portCount = g.portCount ∧ g'.linkCount = g.linkCount := by
  have hI := hg.inv hmax
  obtain ⟨g', h1, h2, h3, h4, h5, h6, h7, h8, h9, h10⟩ := compactNodes_ok hI
  have hmem : ∀ n, n ∈ (List.range g.nodeMeta.length).filter g.live ↔ g.containsNode n = true := by
    intro n
    rw [List.mem_filter, List.mem_range, containsNode_iff, live_iff]
    constructor
    · exact fun h => h.2
    · intro h; exact ⟨PG.node?_lt h, h⟩
  refine ⟨g', _, h1, ?_, ?_, ?_, ?_, ?_, h6, h7, h8⟩
  · rw [List.map_map, show ((fun x : Nat × Nat => x.1) ∘ fun n => (n, g.nodeRank n)) = id from rfl, List.map_id]
    exact filter_sorted _ _
  · intro n
    rw [List.map_map, show ((fun x : Nat × Nat => x.1) ∘ fun n => (n, g.nodeRank n)) = id from rfl, List.map_id]
    exact hmem n
  · rw [List.map_map, show ((fun x : Nat × Nat => x.2) ∘ fun n => (n, g.nodeRank n)) = g.nodeRank from rfl]
    have := filter_ranks g.nodeMeta.length g.live
    rw [show (fun k => cnt k g.live) = g.nodeRank from rfl] at this
    rw [this]
    congr 1
    obtain ⟨fn, hN⟩ := hI.nodes
    rw [hN.count']
    apply cnt_congr
    intro i _; rw [PG.live, PG.node?_isSome]
  · intro ρ hρ
    have hρ' : ∀ n, g.containsNode n = true → ρ n = g.nodeRank n := by
      intro n hn
      exact hρ (n, g.nodeRank n) (List.mem_map.2 ⟨n, (hmem n).2 hn, rfl⟩)
    constructor
    · refine AGraph.Renamed.congr (abs_wf hI) (renamed_of hI h2 (ρ := g.nodeRank) (fun a b => nodeRank_inj) h3 h5) ?_
      intro n hn
      apply hρ'
      rw [containsNode_iff]
      rw [abs_counts] at hn
      simpa using hn
    · intro n d k hn
      rw [hρ' n hn]
      obtain ⟨m, hm⟩ := Option.isSome_iff_exists.1 (containsNode_iff.1 hn)
      have := (h3 (g.nodeRank n) m).2 ⟨n, rfl, hm⟩
      simp [PG.portIndex, this, hm]
  · intro p
    have hc : g'.containsPort p = g.containsPort p := by simp [PG.containsPort, h4]
    refine ⟨hc, ?_⟩
    by_cases hp : (g.port? p).isSome
    · rw [portLink?_eq hI hp, portLink?_eq h2 (by rw [h4]; simpa using hp), h5]
    · have hp' : ¬ (g'.port? p).isSome := by rw [h4]; simpa using hp
      simp only [Option.not_isSome_iff_eq_none] at hp hp'
      simp [PG.portLink?, hp, hp']

example : exG.containsNode 2 = false ∧ (exG.compactNodes.map (·.2)) = some [(0, 0), (1, 1), (3, 2)] := by decide

/-! ## C16 `compact_ports` -/

/-- On every reachable graph `compact_ports` returns and reports, in increasing order, each port with the
next index `0, 1, …`; the abstract graph is unchanged, each endpoint's port moves as reported and the ports
are the indices below the port count. If live nodes without ports own no port slots, the graph is again one
on which all operations work. Missing for the full claim: the last point without this condition. It is then
false, see `C16_compact_ports_breaks`. -/
theorem C16_compact_ports_partial {maxOff : Nat} (hmax : maxOff ≤ 32767) {g : PG} (hg : PG.Reach maxOff g) :
    ∃ g' tr, g.compactPorts = some (g', tr) ∧
      ((∀ n, g.numPorts n .incoming + g.numPorts n .outgoing = 0 → g.nodePortCapacity n = 0) → PG.Reach maxOff g') ∧
      (tr.map (·.1)).Pairwise (· < ·) ∧ (∀ p, p ∈ tr.map (·.1) ↔ g.containsPort p = true) ∧
      tr.map (·.2) = List.range g.portCount ∧
      g'.abs = g.abs ∧
      (∀ p q, (p, q) ∈ tr → g'.endpoint q = g.endpoint p) ∧
      (∀ p q e, (p, q) ∈ tr → g.endpoint p = some e → g'.portIndex e.1 e.2.1 e.2.2 = some q) ∧
      (∀ q, g'.containsPort q = true ↔ q < g.portCount) ∧
      g'.nodeCount = g.nodeCount ∧ g'.portCount = g.portCount ∧ g'.linkCount = g.linkCount := by
  have hI := hg.inv hmax
  obtain ⟨g', h1, h2, h3, h4, h5, h6, h7, h8, h9, h10, h11, h12, h13⟩ := compactPorts_all hI
  have hS := packed_shape hI h3 h4 h6 h12
  have hidx : ∀ p q e, (p, q) ∈ ((List.range g.portMeta.length).filter fun p => (g.port? p).isSome).map
        (fun p => (p, rank g.port? p)) → g.endpoint p = some e → At g' q e := by
    intro p q e hmem he
    simp only [List.mem_map, Prod.mk.injEq] at hmem
    obtain ⟨p', -, rfl, rfl⟩ := hmem
    exact packed_at hI h3 ((endpoint_at hI).1 he)
  refine ⟨g', _, h1, ?_, ?_, ?_, ?_, ?_, ?_, ?_, ?_, h7, h8, h9⟩
  · intro hempty
    exact .step (op := .compactPorts) hg hempty (by simp [PG.step, h1])
  · rw [List.map_map, show ((fun x : Nat × Nat => x.1) ∘ fun n => (n, rank g.port? n)) = id from rfl, List.map_id]
    exact filter_sorted _ _
  · intro p
    rw [List.map_map, show ((fun x : Nat × Nat => x.1) ∘ fun n => (n, rank g.port? n)) = id from rfl, List.map_id]
    rw [List.mem_filter, List.mem_range, containsPort_iff]
    constructor
    · exact fun h => h.2
    · intro h; exact ⟨PG.port?_lt h, h⟩
  · rw [List.map_map, show ((fun x : Nat × Nat => x.2) ∘ fun n => (n, rank g.port? n)) = rank g.port? from rfl]
    have := filter_ranks g.portMeta.length (fun p => (g.port? p).isSome)
    rw [hI.portCount, ← this]
    rfl
  · exact hS.abs_of_relabel hI (π := rank g.port?) (by
      intro n; rw [h3, Option.map_map]
      congr 1; funext m; simp only [Function.comp, packed]
      split <;> rfl) (fun p e hp => packed_at hI h3 hp) h5
  · intro p q hmem
    have hp : (g.port? p).isSome := by
      obtain ⟨p', hp', he⟩ := List.mem_map.1 hmem
      cases he
      exact (List.mem_filter.1 hp').2
    obtain ⟨⟨n, d⟩, hx⟩ := Option.isSome_iff_exists.1 hp
    obtain ⟨m, -, -, hat⟩ := port_at hI hx
    rw [hat.endpoint hI, hS.endpoint (hidx p q _ hmem (hat.endpoint hI))]
  · intro p q e hmem he
    exact at_index.2 (hidx p q e hmem he)
  · intro q
    rw [containsPort_iff]
    constructor
    · intro h; have := PG.port?_lt h; omega
    · intro h
      obtain ⟨p, hp, rfl⟩ := packed_onto hI h6 (q := q) (by omega)
      rw [h4 p hp]; exact hp

example := C16_compact_ports_partial (by decide) exG_reach

/-- If a live node without ports owns port slots, `compact_ports` breaks the graph: removing this node
afterwards either panics or takes away a port of another node, which stays. -/
theorem C16_compact_ports_breaks {maxOff : Nat} (hmax : maxOff ≤ 32767) {g : PG} (hg : PG.Reach maxOff g) {n : Nat}
    (h0 : g.numPorts n .incoming + g.numPorts n .outgoing = 0) (hc : 0 < g.nodePortCapacity n)
    {g' : PG} {tr : List (Nat × Nat)} (h : g.compactPorts = some (g', tr)) :
    g'.removeNode n = none ∨ ∃ g'' p n', g'.removeNode n = some g'' ∧ n' ≠ n ∧ g'.portNode p = some n' ∧
      g''.containsPort p = false ∧ g''.containsNode n' = true := by
  have hI := hg.inv hmax
  obtain ⟨g1, h1, h2, h3, h4, h5, h6, h7, h8, h9, h10, h11, h12, h13⟩ := compactPorts_all hI
  rw [h1] at h
  cases h
  cases e : g'.removeNode n with
  | none => exact .inl rfl
  | some g'' =>
    right
    cases hm : g.node? n with
    | none => simp [PG.nodePortCapacity, hm] at hc
    | some m =>
      rw [numPorts_eq hm, numPorts_eq hm] at h0
      rw [capacity_eq hm] at hc
      simp only [NodeMeta.numPorts] at h0
      have hm' : g'.node? n = some m := by rw [h3, hm]; simp [packed, h0]
      obtain ⟨k1, k2, k3⟩ := removeNode_frees hm' hc e
      obtain ⟨p, hp, hpr⟩ := packed_onto hI h6 (q := m.first) (by omega)
      obtain ⟨⟨n', d⟩, hx⟩ := Option.isSome_iff_exists.1 hp
      obtain ⟨m2, hm2, -, hat⟩ := port_at hI hx
      obtain ⟨m3, hm3, hlt, -⟩ := hat
      simp only at hm3 hlt
      have hne : n' ≠ n := by
        rintro rfl
        rw [hm] at hm3; cases hm3
        cases d <;> simp only [NodeMeta.numPorts] at hlt <;> omega
      refine ⟨g'', m.first, n', rfl, hne, ?_, ?_, ?_⟩
      · unfold PG.portNode
        rw [← hpr, h4 p hp, hx]; rfl
      · have := k2 m.first (Nat.le_refl _) (by omega)
        simp [PG.containsPort, this]
      · rw [containsNode_iff]
        exact k3 n' hne (by rw [h3, hm2]; rfl)

example : (∀ n, n < 4 → exG.numPorts n .incoming + exG.numPorts n .outgoing = 0 → exG.nodePortCapacity n = 0) ∧
    (exG.compactPorts.map (·.2)) =
      some [(0, 0), (1, 1), (2, 2), (3, 3), (4, 4), (5, 5), (6, 6), (8, 7), (9, 8)] := by decide

/-- Both ends of `C16_compact_ports_breaks` are met: a removal that panics, and one that takes the first
port of node 2. -/
example :
    ((PG.run 32767 PG.empty [.addNode 1 0, .setNumPorts 0 0 0]).map fun g =>
      (g.numPorts 0 .incoming + g.numPorts 0 .outgoing, g.nodePortCapacity 0,
        (g.compactPorts.bind fun x => x.1.removeNode 0).isSome)) = some (0, 1, false) ∧
    ((PG.run 32767 PG.empty [.addNode 1 0, .addNode 1 0, .addNode 0 2, .removeNode 0, .setNumPorts 1 0 0]).map fun g =>
      (g.numPorts 1 .incoming + g.numPorts 1 .outgoing, g.nodePortCapacity 1,
        (g.compactPorts.bind fun x => x.1.removeNode 1).isSome)) = some (0, 1, true) := by decide

/-! ## C17 `swap_nodes` -/

/-- Exchange of two node indices. -/
def exchange (a b n : Nat) : Nat := if n = a then b else if n = b then a else n

/-- On two live nodes, or a live node and a free slot that is not the first in the list of free slots,
`swap_nodes` is the renaming that exchanges them. Missing for the full claim: the other slots that are
not live; for them the claim is false, see `C17_swap_first_free`, `C17_swap_no_slot` and
`C17_swap_two_free`. -/
theorem C17_swap_nodes_partial {maxOff : Nat} (hmax : maxOff ≤ 32767) {g : PG} (hg : PG.Reach maxOff g) {a b : Nat}
    (hab : g.swappable a b = true) :
    ∃ g', g.swapNodes a b = some g' ∧ PG.Reach maxOff g' ∧ AGraph.Renamed (exchange a b) g.abs g'.abs ∧
      (∀ n d k, g'.portIndex (exchange a b n) d k = g.portIndex n d k) ∧
      (∀ p, g'.containsPort p = g.containsPort p ∧ g'.portLink? p = g.portLink? p) ∧
      g'.nodeCount = g.nodeCount ∧ g'.portCount = g.portCount ∧ g'.linkCount = g.linkCount := by
  have hI := hg.inv hmax
  obtain ⟨g', h1, h2, h3, h4, h5, h6, h7, h8, h9, h10⟩ := swapNodes_all_ok hI hab
  have hex : exchange a b = swapIdx a b := rfl
  rw [hex]
  refine ⟨g', h1, ?_, ?_, ?_, ?_, h6, h7, h8⟩
  · exact .step (op := .swapNodes a b) hg hab h1
  · refine renamed_of hI h2 ?_ ?_ h5
    · intro x y _ _ hxy
      rw [← swapIdx_swapIdx a b x, hxy, swapIdx_swapIdx]
    · intro n' m
      rw [h3]
      constructor
      · intro h; exact ⟨_, swapIdx_swapIdx a b n', h⟩
      · rintro ⟨n, rfl, h⟩; rw [swapIdx_swapIdx]; exact h
  · intro n d k
    simp [PG.portIndex, h3, swapIdx_swapIdx]
  · intro p
    have hc : g'.containsPort p = g.containsPort p := by simp [PG.containsPort, h4]
    refine ⟨hc, ?_⟩
    by_cases hp : (g.port? p).isSome
    · rw [portLink?_eq hI hp, portLink?_eq h2 (by rw [h4]; simpa using hp), h5]
    · have hp' : ¬ (g'.port? p).isSome := by rw [h4]; simpa using hp
      simp only [Option.not_isSome_iff_eq_none] at hp hp'
      simp [PG.portLink?, hp, hp']

example : exG.swappable 0 3 = true := by decide

/-- Slots 0 and 1 are free and 0 was freed first, so that node 2 can be moved there. -/
example : (checkedRun 32767 PG.empty [.addNode 1 0, .addNode 0 1, .addNode 1 1, .removeNode 0, .removeNode 1, .swapNodes 0 2,
      .addNode 1 0, .addNode 2 0]).map (fun g => (g.containsNode 0, g.containsNode 1, g.containsNode 2, g.ports 0 .outgoing,
        g.ports 2 .incoming)) = some (true, true, true, [3], [4, 5]) := by decide +kernel

/-- If a live node is exchanged with the free slot that the next `add_node` takes, then the call
returns and every `add_node` after it panics. -/
theorem C17_swap_first_free {maxOff : Nat} (hmax : maxOff ≤ 32767) {g : PG} (hg : PG.Reach maxOff g) {a b i o : Nat} {g1 : PG}
    (ha : g.containsNode a = true) (hb : b < g.nodeMeta.length) (hadd : g.addNode maxOff i o = some (b, g1)) :
    ∃ g', g.swapNodes a b = some g' ∧ g.swapNodes b a = some g' ∧ ∀ j k, g'.addNode maxOff j k = none := by
  have hI := hg.inv hmax
  obtain ⟨fn, hN⟩ := hI.nodes
  obtain ⟨own, fs, hP, hfull⟩ := hI.slots
  obtain ⟨ma, hma⟩ := Option.isSome_iff_exists.1 (containsNode_iff.1 ha)
  have ha' := PG.node?_eq.1 hma
  -- the slot is the head of the list
  have hh : g.nodeFree = some b := by
    unfold PG.addNode at hadd
    split at hadd
    · split at hadd
      · cases hadd
      · rename_i node g2 h1
        split at hadd
        · cases hadd
        · split at hadd
          · simp only [Option.some.injEq, Prod.mk.injEq] at hadd
            obtain ⟨rfl, -⟩ := hadd
            unfold PG.allocNode at h1
            split at h1
            · rename_i f hf
              split at h1
              · split at h1
                · cases h1; exact hf
                · split at h1
                  · cases h1; exact hf
                  · cases h1
              · cases h1
            · cases h1; omega
          · cases hadd
    · cases hadd
  obtain ⟨xs, q, -, hb', hc⟩ := by
    have := hN.chain; rw [hh] at this; exact this.head
  replace hb' : g.nodeMeta[b]? = some (.free none q) := hb'
  have hab : a ≠ b := by rintro rfl; rw [ha'] at hb'; cases hb'
  have halt := (List.getElem?_eq_some_iff.1 ha').1
  have hba := hP.bound a ma hma
  obtain ⟨g0, hg0⟩ : ∃ g0 : PG, { g with nodeMeta := (g.nodeMeta.set a (.free none q)).set b (.node ma) } = g0 := ⟨_, rfl⟩
  have hpm0 : g0.portMeta = g.portMeta := by rw [← hg0]
  obtain ⟨g1, h1, he1, -⟩ := claimPorts_ok (g := g0) (n := b) (m := ma) (by rw [hpm0]; omega)
  have hn1 : g1.nodeMeta = (g.nodeMeta.set a (.free none q)).set b (.node ma) := by rw [he1, ← hg0]
  have hf1 : g1.nodeFree = some b := by rw [he1, ← hg0]; exact hh
  obtain ⟨l, hl, hlb⟩ : ∃ l, PG.swapFreeList ((g.nodeMeta.set a (.free none q)).set b (.node ma)) a none q = some l ∧
      l[b]? = some (.node ma) := by
    unfold PG.swapFreeList
    cases q with
    | none => exact ⟨_, rfl, by rw [List.getElem?_set_self (by simpa using hb)]⟩
    | some y =>
      obtain ⟨ys, n, rfl, hy, -⟩ := hc.head
      replace hy : g.nodeMeta[y]? = some (.free (some b) n) := hy
      have hyb : y ≠ b := by rintro rfl; rw [hb'] at hy; cases hy
      have hya : y ≠ a := by rintro rfl; rw [ha'] at hy; cases hy
      refine ⟨((g.nodeMeta.set a (.free none (some y))).set b (.node ma)).set y (.free (some a) n), ?_, ?_⟩
      · simp only [PG.setFreePrev]
        rw [List.getElem?_set_ne hyb.symm, List.getElem?_set_ne hya.symm, hy]
      · rw [List.getElem?_set_ne hyb, List.getElem?_set_self (by simpa using hb)]
  refine ⟨{ g1 with nodeMeta := l }, ?_, ?_, fun j k => ?_⟩
  · unfold PG.swapNodes
    rw [ha', hb']
    simp only
    rw [hg0]
    simp only [PG.swapClaim, h1, hn1, hl, Option.map_some]
  · unfold PG.swapNodes
    rw [ha', hb']
    simp only
    rw [List.set_comm _ _ hab.symm, hg0]
    simp only [PG.swapClaim, h1, hn1, hl, Option.map_some]
  · unfold PG.addNode
    split
    · have : PG.allocNode { g1 with nodeMeta := l } = none := by
        unfold PG.allocNode
        simp only [hf1, hlb]
      rw [this]
    · rfl

example : (exG.removeNode 0).bind (fun g => (g.addNode 32767 0 0).map fun x => (x.1, g.nodeMeta.length, g.containsNode 3)) =
    some (0, 4, true) := by decide +kernel

/-- `swap_nodes` with an index that was never given to a node panics. -/
theorem C17_swap_no_slot {g : PG} {a b : Nat} (hb : g.nodeMeta.length ≤ b) : g.swapNodes a b = none ∧ g.swapNodes b a = none := by
  unfold PG.swapNodes
  rw [List.getElem?_eq_none hb]
  constructor
  · cases g.nodeMeta[a]? <;> rfl
  · rfl

example := C17_swap_no_slot (g := exG) (a := 0) (b := 4) (by decide)

/-- Exchanging two free slots breaks the list of free slots: a later `swap_nodes` panics, although it
returns without that exchange. -/
theorem C17_witness_two_free :
    (PG.run 32767 PG.empty [.addNode 1 0, .addNode 0 1, .addNode 1 1, .removeNode 0, .removeNode 1, .swapNodes 0 1]).isSome = true ∧
    PG.run 32767 PG.empty [.addNode 1 0, .addNode 0 1, .addNode 1 1, .removeNode 0, .removeNode 1, .swapNodes 0 1,
      .swapNodes 0 2] = none ∧
    (PG.run 32767 PG.empty [.addNode 1 0, .addNode 0 1, .addNode 1 1, .removeNode 0, .removeNode 1,
      .swapNodes 0 2]).isSome = true := by decide +kernel

end Verif.PG

#print axioms Verif.PG.C15_compact_nodes
#print axioms Verif.PG.C16_compact_ports_partial
#print axioms Verif.PG.C16_compact_ports_breaks
#print axioms Verif.PG.C17_swap_nodes_partial
#print axioms Verif.PG.C17_swap_first_free
#print axioms Verif.PG.C17_swap_no_slot
#print axioms Verif.PG.C17_witness_two_free
