import Verif.PortGraph.Example
import Verif.Index.Props

/-!
# Properties of reachable port graphs: C04, C05, C06, C07

`maxOff` is `PortOffset::<PO>::max_offset()`; it is at most 32767 for the offset types `u8`
and `u16`.
-/

namespace Verif.PG

open Verif (Direction)

/-! ## C04 No operation history breaks the port graph -/

/-- A history whose calls meet `Op.ok` never panics; in the graph it ends in, no query panics
and the abstract graph read off the queries is well formed: links are mutual, join existing
endpoints and have opposite directions. Missing for the full claim: `swap_nodes` on free
slots, `compact_ports` when a node without ports owns port slots, and totals above 32768 in
`set_num_ports`; there the code fails, see the witnesses below. -/
theorem C04_history_partial {maxOff : Nat} (hmax : maxOff ≤ 32767) (ops : List PG.Op) (hok : OkRun maxOff PG.empty ops) :
    ∃ g, PG.run maxOff PG.empty ops = some g ∧ g.abs.WF ∧
      (∀ p, (g.portOffset p).isSome) ∧ (∀ p, g.containsPort p = true → (g.portLink? p).isSome) ∧
      (∀ p n, g.portNode p = some n → g.containsNode n = true) := by
  have key : ∀ ops g, Inv g → OkRun maxOff g ops → ∃ g', PG.run maxOff g ops = some g' ∧ Inv g' := by
    intro ops
    induction ops with
    | nil => intro g hg _; exact ⟨g, rfl, hg⟩
    | cons op ops ih =>
      intro g hg hok
      obtain ⟨h1, h2⟩ := hok
      obtain ⟨g1, hs, hg1⟩ := step_ok hmax hg h1
      obtain ⟨g2, hr, hg2⟩ := ih g1 hg1 (h2 g1 hs)
      exact ⟨g2, by simp [PG.run, hs, hr], hg2⟩
  obtain ⟨g, h1, h2⟩ := key ops PG.empty Inv.empty hok
  refine ⟨g, h1, abs_wf h2, ?_, ?_, ?_⟩
  · intro p
    cases hp : g.port? p with
    | none => simp [PG.portOffset, hp]
    | some x =>
      obtain ⟨n, d⟩ := x
      obtain ⟨m, -, -, hat⟩ := port_at h2 hp
      have := hat.endpoint h2
      unfold PG.endpoint at this
      cases hq : g.portOffset p with
      | none => rw [hq] at this; cases h : g.portNode p <;> simp [h] at this
      | some x => rfl
  · intro p hp
    rw [portLink?_eq h2 (containsPort_iff.1 hp)]; rfl
  · intro p n hp
    simp only [PG.portNode, Option.map_eq_some_iff] at hp
    obtain ⟨⟨n', d⟩, hx, rfl⟩ := hp
    obtain ⟨m, hm, -⟩ := port_at h2 hx
    exact containsNode_eq hm

example := C04_history_partial (by decide) exOps2 (checkedRun_ok exG2_run)

/-- The same for a reachable graph: each further call within `Op.ok` succeeds. -/
theorem C04_step_partial {maxOff : Nat} (hmax : maxOff ≤ 32767) {g : PG} (hg : PG.Reach maxOff g) (op : PG.Op)
    (hok : PG.Op.ok maxOff g op) : ∃ g', g.step maxOff op = some g' ∧ PG.Reach maxOff g' ∧ g'.abs.WF := by
  obtain ⟨g', h1, h2⟩ := step_ok hmax (hg.inv hmax) hok
  exact ⟨g', h1, .step hg hok h1, abs_wf h2⟩

example : ∃ g, PG.run 32767 PG.empty exOps2 = some g ∧ g.nodeCount = 3 ∧ g.linkCount = 1 := ⟨exG2, by decide⟩

/-- Failure: emptying a node and compacting ports leaves a node that cannot be removed. -/
theorem C04_witness_compact_ports :
    (PG.run 32767 PG.empty [.addNode 1 0, .setNumPorts 0 0 0, .compactPorts]).isSome = true ∧
    PG.run 32767 PG.empty [.addNode 1 0, .setNumPorts 0 0 0, .compactPorts, .removeNode 0] = none := by decide

/-- Failure: swapping a live node with the free slot at the head of the free list makes the
next `add_node` panic. -/
theorem C04_witness_swap_nodes :
    (PG.run 32767 PG.empty [.addNode 1 0, .addNode 0 1, .removeNode 0, .swapNodes 0 1]).isSome = true ∧
    PG.run 32767 PG.empty [.addNode 1 0, .addNode 0 1, .removeNode 0, .swapNodes 0 1, .addNode 1 1] = none := by decide

/-- Failure: after compacting with an emptied node, that node still owns port slots that now
belong to another node, and removing it destroys the other node's ports. -/
theorem C04_witness_compact_ports_steals :
    ∃ g, PG.run 32767 PG.empty [.addNode 1 0, .addNode 1 0, .addNode 0 2, .removeNode 0,
        .setNumPorts 1 0 0, .compactPorts, .removeNode 1] = some g ∧
      g.numPorts 2 .outgoing = 2 ∧ g.portIndex 2 .outgoing 0 = some 0 ∧ g.containsPort 0 = false := by
  refine ⟨(PG.run 32767 PG.empty [.addNode 1 0, .addNode 1 0, .addNode 0 2, .removeNode 0,
        .setNumPorts 1 0 0, .compactPorts, .removeNode 1]).getD PG.empty, ?_⟩
  decide

/-! ## C05 Links are symmetric, exclusive and directed -/

theorem C05_links_symmetric {maxOff : Nat} (hmax : maxOff ≤ 32767) {g : PG} (hg : PG.Reach maxOff g) {p q : Nat}
    (h : g.portLink? p = some (some q)) :
    g.portLink? q = some (some p) ∧ p ≠ q ∧
      ∃ d, g.portDirection p = some d ∧ g.portDirection q = some d.reverse := by
  have hI := hg.inv hmax
  have hp : (g.port? p).isSome := by
    cases hx : g.port? p with
    | none => simp [PG.portLink?, hx] at h
    | some x => rfl
  obtain ⟨⟨n, d⟩, hx⟩ := Option.isSome_iff_exists.1 hp
  rw [portLink?_eq hI hp] at h
  simp only [Option.some.injEq] at h
  obtain ⟨h1, n', h2⟩ := lk_at hI hx h
  refine ⟨by rw [portLink?_eq hI (by rw [h2]; rfl), h1], ?_, d, ?_, ?_⟩
  · rintro rfl
    rw [hx] at h2
    cases d <;> simp [Direction.reverse] at h2
  · simp [PG.portDirection, hx]
  · simp [PG.portDirection, h2]

example := C05_links_symmetric (by decide) exG_reach (p := 3) (q := 1) (by decide)

/-- No port is the partner of two ports. -/
theorem C05_links_exclusive {maxOff : Nat} (hmax : maxOff ≤ 32767) {g : PG} (hg : PG.Reach maxOff g) {p p' q : Nat}
    (h : g.portLink? p = some (some q)) (h' : g.portLink? p' = some (some q)) : p = p' := by
  have h1 := (C05_links_symmetric hmax hg h).1
  rw [(C05_links_symmetric hmax hg h').1] at h1
  simpa using h1.symm

example : exG.portLink? 2 = some (some 4) ∧ exG.portLink? 4 = some (some 2) ∧ exG.portLink? 5 = some none := by decide

/-! ## C06 Counters equal cardinalities -/

/-- The nodes of a graph, ascending, as a list described by `contains_node`. -/
theorem C06_nodes_iter {maxOff : Nat} (hmax : maxOff ≤ 32767) {g : PG} (hg : PG.Reach maxOff g) :
    ∃ l : List Nat, (∀ n, n ∈ l ↔ g.containsNode n = true) ∧ l.Pairwise (· < ·) ∧ g.nodeCount = l.length ∧
      ∀ calls, runIter Nodes.next Nodes.nextBack Nodes.len calls g.nodesIter = some (listSched calls l) := by
  have hI := hg.inv hmax
  have hR := nodesIter_R hI
  refine ⟨_, ?_, ?_, hR.2, fun calls => runIter_spec NodesR nodes_next nodes_back (fun s l h => h.2) calls hR⟩
  · intro n
    simp only [List.mem_filter, List.mem_range]
    constructor
    · exact fun h => h.2
    · intro h; exact ⟨PG.node?_lt (containsNode_iff.1 h), h⟩
  · exact List.pairwise_lt_range.filter _

example : ∃ l : List Nat, (∀ n, n ∈ l ↔ exG.containsNode n = true) ∧ l.length = 3 := by
  obtain ⟨l, h1, -, h2, -⟩ := C06_nodes_iter (by decide) exG_reach
  exact ⟨l, h1, by rw [← h2]; decide⟩

theorem C06_ports_iter {maxOff : Nat} (hmax : maxOff ≤ 32767) {g : PG} (hg : PG.Reach maxOff g) :
    ∃ l : List Nat, (∀ p, p ∈ l ↔ g.containsPort p = true) ∧ l.Pairwise (· < ·) ∧ g.portCount = l.length ∧
      ∀ calls, runIter Ports.next Ports.nextBack Ports.len calls g.portsIter = some (listSched calls l) := by
  have hI := hg.inv hmax
  have hR := portsIter_R hI
  refine ⟨_, ?_, ?_, hR.2, fun calls => runIter_spec PortsR ports_next ports_back (fun s l h => h.2) calls hR⟩
  · intro n
    simp only [List.mem_filter, List.mem_range]
    constructor
    · exact fun h => h.2
    · intro h; exact ⟨PG.port?_lt (containsPort_iff.1 h), h⟩
  · exact List.pairwise_lt_range.filter _

example : ∃ l : List Nat, (∀ p, p ∈ l ↔ exG.containsPort p = true) ∧ l.length = 9 := by
  obtain ⟨l, h1, -, h2, -⟩ := C06_ports_iter (by decide) exG_reach
  exact ⟨l, h1, by rw [← h2]; decide⟩

/-- `link_count` is the number of linked outgoing ports, and also of linked incoming ports. -/
theorem C06_link_count {maxOff : Nat} (hmax : maxOff ≤ 32767) {g : PG} (hg : PG.Reach maxOff g) (d : Direction) :
    ∃ l : List Nat, (∀ p, p ∈ l ↔ g.portDirection p = some d ∧ ∃ q, g.portLink? p = some (some q)) ∧ l.Nodup ∧
      g.linkCount = l.length := by
  have hI := hg.inv hmax
  refine ⟨(List.range g.portMeta.length).filter (linkedDir g.port? g.lk d), ?_, nodup_filter_range _ _, ?_⟩
  · intro p
    simp only [List.mem_filter, List.mem_range]
    cases hp : g.port? p with
    | none => simp [linkedDir, PG.portDirection, hp]
    | some x =>
      obtain ⟨n, d'⟩ := x
      have hlt := PG.port?_lt (g := g) (p := p) (by rw [hp]; rfl)
      rw [portLink?_eq hI (by rw [hp]; rfl)]
      simp only [linkedDir, PG.portDirection, hp, Option.map_some, Option.some.injEq, Bool.and_eq_true,
        decide_eq_true_eq, hlt, true_and]
      rw [Option.isSome_iff_exists]
  · rw [length_filter_range]; exact hI.count d

example : exG.nodeCount = 3 ∧ exG.portCount = 9 ∧ exG.linkCount = 3 := by decide

/-! ## C07 Port indices and offsets are inverse bijections -/

/-- The answer of `port_offset` as the caller reads it from the `PortOffset` of width `w`
(`src/portgraph.rs` lines 357–363 with `src/index.rs` lines 306–340). -/
def readOffset (w : Nat) (g : PG) (p : Nat) : Option (Option (Direction × Nat)) :=
  match g.portOffset p with
  | none => none
  | some none => some none
  | some (some (d, k)) =>
    match Index.offsetNew w d k with
    | none => none
    | some b =>
      match Index.offsetDirection b, Index.offsetIndex b with
      | some d, some k => some (some (d, k))
      | _, _ => none

theorem C07_index_offset {maxOff : Nat} (hmax : maxOff ≤ 32767) {g : PG} (hg : PG.Reach maxOff g) (n : Nat)
    (d : Direction) (k p : Nat) :
    g.portIndex n d k = some p ↔ g.portNode p = some n ∧ g.portOffset p = some (some (d, k)) := by
  have hI := hg.inv hmax
  rw [at_index, ← endpoint_at hI]
  unfold PG.endpoint
  cases h1 : g.portNode p with
  | none => simp
  | some n' =>
    cases h2 : g.portOffset p with
    | none => simp
    | some o =>
      cases o with
      | none => simp
      | some x => obtain ⟨d', k'⟩ := x; simp

example := (C07_index_offset (by decide) exG_reach 0 .outgoing 1 3).1 (by decide)

/-- The ports of a node in one direction are those at offsets `0, 1, …`, and their number is
`num_ports`. -/
theorem C07_ports {maxOff : Nat} {g : PG} (_hg : PG.Reach maxOff g) (n : Nat) (d : Direction) :
    (g.ports n d).length = g.numPorts n d ∧ (∀ k, (g.ports n d)[k]? = g.portIndex n d k) ∧
      g.allPorts n = g.ports n .incoming ++ g.ports n .outgoing := by
  simp only [PG.ports, PG.numPorts, PG.portIndex, PG.allPorts]
  cases g.node? n with
  | none => simp
  | some m =>
    refine ⟨by simp [NodeMeta.ports], fun k => rfl, ?_⟩
    simp only [NodeMeta.allPorts, NodeMeta.ports, NodeMeta.start, NodeMeta.numPorts]
    rw [List.range'_append_1]

example : exG.allPorts 0 = [0, 1] ++ [2, 3] := (C07_ports exG_reach 0 .incoming).2.2

/-- For nodes whose counts fit the offset type, `port_offset` is read back unchanged. -/
theorem C07_offset_read_partial {w : Nat} (hw : 2 ≤ w) (hmax : Index.maxIndex w ≤ 32767) {g : PG}
    (hg : PG.Reach (Index.maxIndex w) g) {p n : Nat}
    {d : Direction} (hn : g.portNode p = some n) (hd : g.portDirection p = some d)
    (hk : g.numPorts n d ≤ Index.maxIndex w + 1) :
    ∃ k, g.portIndex n d k = some p ∧ readOffset w g p = some (some (d, k)) := by
  have hI := hg.inv hmax
  have hp : g.port? p = some (n, d) := by
    cases hx : g.port? p with
    | none => simp [PG.portNode, hx] at hn
    | some x => obtain ⟨a, b⟩ := x; simp [PG.portNode, PG.portDirection, hx] at hn hd; simp [hn, hd]
  obtain ⟨m, hm, -, hat⟩ := port_at hI hp
  have h2 := ((C07_index_offset hmax hg _ _ _ _).1 (at_index.2 hat)).2
  refine ⟨_, at_index.2 hat, ?_⟩
  obtain ⟨m', hm', hlt, -⟩ := hat
  simp only at *
  rw [hm] at hm'; cases hm'
  rw [numPorts_eq hm] at hk
  obtain ⟨b, hb, hbd, hbi⟩ := Index.C03_offset_roundtrip w hw d (p - m.start d) (by omega)
  simp only [readOffset, h2, hb, hbd, hbi]

example : exG.numPorts 1 .incoming ≤ Index.maxIndex 16 + 1 ∧ exG.portNode 5 = some 1 ∧ readOffset 16 exG 5 = some (some (.incoming, 1)) := by decide

set_option maxRecDepth 20000 in
/-- Failure: `set_num_ports` does not respect the maximal offset of a small offset type
(here `u8`, maximum 126): offset 128 of an incoming port is read as outgoing offset 0. -/
theorem C07_witness_offset_overflow :
    ∃ g, PG.run (Index.maxIndex 8) PG.empty [.addNode 1 1, .setNumPorts 0 129 0] = some g ∧
      g.portDirection 130 = some .incoming ∧ g.portOffset 130 = some (some (.incoming, 128)) ∧
      readOffset 8 g 130 = some (some (.outgoing, 0)) := by
  refine ⟨(PG.run (Index.maxIndex 8) PG.empty [.addNode 1 1, .setNumPorts 0 129 0]).getD PG.empty, ?_⟩
  decide

example : exG.portIndex 0 .outgoing 1 = some 3 ∧ exG.portOffset 3 = some (some (.outgoing, 1)) := by decide

#print axioms C04_history_partial
#print axioms C04_step_partial
#print axioms C04_witness_compact_ports
#print axioms C04_witness_swap_nodes
#print axioms C04_witness_compact_ports_steals
#print axioms C05_links_symmetric
#print axioms C05_links_exclusive
#print axioms C06_nodes_iter
#print axioms C06_ports_iter
#print axioms C06_link_count
#print axioms C07_index_offset
#print axioms C07_ports
#print axioms C07_offset_read_partial
#print axioms C07_witness_offset_overflow

end Verif.PG
