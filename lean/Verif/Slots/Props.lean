import Verif.Slots.Indist
import Verif.PortGraph.Example

/-!
# C85: every port slot belongs to one slab, and slabs are used again
-/

namespace Verif.Slots

open Verif (Direction)
open Verif.PG

/-- A graph with a free slab of size 1 and two of size 2, and a node with a spare slot. -/
def slabOps : List PG.Op :=
  [.addNode 1 1, .addNode 2 0, .addNode 0 1, .addNode 3 0, .removeNode 0, .removeNode 2, .removeNode 1, .setNumPorts 3 4 1, .setNumPorts 3 2 1]

/-- The graph of `slabOps`. -/
def slabG : PG := (PG.run 32766 PG.empty slabOps).getD PG.empty

theorem slabG_reach : PG.Reach 32766 slabG := checkedRun_reach .init (ops := slabOps) (by decide +kernel)

/-- **C85** In every reachable graph the slabs of the live nodes and the free slabs on the lists tile the port
tables: listed one after another, their slots are the slots of the tables, each once. So no slot is lost, none
belongs to two owners, and following a free list never leaves the table or runs in a circle. -/
theorem C85_tiling {maxOff : Nat} (hmax : maxOff ≤ 32767) {g : PG} (hg : PG.Reach maxOff g) :
    (slots g).Perm (List.range g.portMeta.length) :=
  slots_perm (hg.inv hmax)

example : slots slabG = [8, 9, 10, 11, 12, 13, 14, 15] ++ [4] ++ [2, 3, 0, 1] ++ [5, 6, 7] := by decide +kernel

/-- **C85** The length of the port tables is the sum of the capacities of the nodes and of the sizes of the
free slabs. -/
theorem C85_length {maxOff : Nat} (hmax : maxOff ≤ 32767) {g : PG} (hg : PG.Reach maxOff g) :
    g.portMeta.length = ((List.range g.nodeMeta.length).map g.nodePortCapacity).sum +
      ((List.range g.portFree.length).map fun k => (k + 1) * (freeSlabs g (k + 1)).length).sum := by
  rw [← slots_length, (C85_tiling hmax hg).length_eq, List.length_range]

example : slabG.portMeta.length = 16 ∧ slabG.nodePortCapacity 3 = 8 ∧ freeSlabs slabG 2 = [2, 0] := by decide +kernel

/-- **C85** A slot which is neither a port nor the first slot of a free slab holds no link. -/
theorem C85_clean {maxOff : Nat} (hmax : maxOff ≤ 32767) {g : PG} (hg : PG.Reach maxOff g) {p : Nat} (hp : p < g.portMeta.length)
    (hport : g.containsPort p = false) (hfree : ∀ s, 0 < s → p ∉ freeSlabs g s) : g.portLink[p]? = some none := by
  have hI := hg.inv hmax
  obtain ⟨own, fs, hP, hfull⟩ := hI.slots
  rw [PG.getElem?_portLink (by rw [hI.len]; exact hp)]
  congr 1
  cases e : own p with
  | none => exact absurd e (hfull p hp)
  | node n =>
    obtain ⟨m, hm, h1, h2⟩ := hP.nodeOf p n e
    apply hP.unused n m hm p ?_ h2
    apply Classical.byContradiction
    intro hc
    have h4 : (g.port? p).isSome := by
      by_cases h5 : p < m.first + m.incoming
      · rw [(hP.ports p n .incoming).2 ⟨m, hm, by simpa [NodeMeta.start] using h1, by simpa [NodeMeta.start, NodeMeta.numPorts] using h5⟩]; rfl
      · rw [(hP.ports p n .outgoing).2 ⟨m, hm, by simp only [NodeMeta.start]; omega, by simp only [NodeMeta.start, NodeMeta.numPorts]; omega⟩]; rfl
    simp only [PG.containsPort] at hport
    rw [h4] at hport
    cases hport
  | slab f s =>
    obtain ⟨h1, -, -, h4⟩ := hP.slabOf p f s e
    apply h4
    rintro rfl
    have hs := (hP.slab s p h1).1
    exact hfree s hs (by rw [freeSlabs_eq hP hs]; exact h1)

example : slabG.containsPort 3 = false ∧ slabG.containsPort 15 = false ∧ slabG.portLink[2]? = some (some 0) := by decide +kernel

/-- **C85** `add_node` uses the slab of the right size that was freed last, and makes the tables longer only if
there is none. -/
theorem C85_reuse {maxOff : Nat} (hmax : maxOff ≤ 32767) {g g' : PG} (hg : PG.Reach maxOff g) {i o n : Nat} (hs : 0 < i + o)
    (h : g.addNode maxOff i o = some (n, g')) :
    (∀ f l, freeSlabs g (i + o) = f :: l → nodeSlots g' n = List.range' f (i + o) ∧ freeSlabs g' (i + o) = l ∧
      g'.portMeta.length = g.portMeta.length) ∧
    (freeSlabs g (i + o) = [] → nodeSlots g' n = List.range' g.portMeta.length (i + o) ∧ freeSlabs g' (i + o) = [] ∧
      g'.portMeta.length = g.portMeta.length + (i + o)) ∧
    ∀ s, 0 < s → s ≠ i + o → freeSlabs g' s = freeSlabs g s := by
  have hI := hg.inv hmax
  have hb : i ≤ maxOff ∧ o ≤ maxOff := by
    unfold PG.addNode at h
    split at h
    · assumption
    · cases h
  obtain ⟨n', f', g1, h1, -, -, hnd, -⟩ := addNode_ok hI hb.1 hb.2 (by omega) (by omega)
  rw [h] at h1
  cases h1
  obtain ⟨m, hm, hcase⟩ := addNode_slab hI h hs
  obtain ⟨fa, fb⟩ := free_add hmax hI h hs
  have hsl : nodeSlots g' n = List.range' m.first (i + o) := by
    rw [nodeSlots_eq, hm]
    rw [hnd] at hm
    simp only [upd, if_true, Option.some.injEq] at hm
    rw [← hm]
    rfl
  rcases hcase with ⟨c1, -, c3⟩ | ⟨c1, c2, -, c4⟩
  · obtain ⟨e1, e2⟩ := fa _ c1
    refine ⟨fun f l hf => ?_, fun hf => ?_, e2⟩
    · rw [hf] at e1
      simp only [List.cons.injEq] at e1
      exact ⟨by rw [hsl, e1.1], e1.2.symm, c3⟩
    · rw [hf] at e1; cases e1
  · obtain ⟨e1, e2⟩ := fb c1
    refine ⟨fun f l hf => ?_, fun hf => ⟨by rw [hsl, c2], by rw [e2 _ hs, e1], c4⟩, fun s h1 _ => e2 s h1⟩
    rw [hf] at e1; cases e1

example : ∃ g', slabG.addNode 32766 1 1 = some (1, g') ∧ nodeSlots g' 1 = [2, 3] ∧ freeSlabs g' 2 = [0] ∧
    (g'.removeNode 1).map (freeSlabs · 2) = some [2, 0] :=
  ⟨((slabG.addNode 32766 1 1).getD (0, slabG)).2, by decide +kernel, by decide +kernel, by decide +kernel, by decide +kernel⟩

example : ∃ g', slabG.addNode 32766 4 0 = some (1, g') ∧ nodeSlots g' 1 = [16, 17, 18, 19] :=
  ⟨((slabG.addNode 32766 4 0).getD (0, slabG)).2, by decide +kernel, by decide +kernel⟩

/-- **C85 fails** after `compact_ports` on a graph with a node that has no ports but owns a slot (a call which
`PG.Reach` leaves out): the node still claims the slot, which the next node gets too. -/
theorem C85_witness_compact : ∃ g, PG.run 32766 PG.empty [.addNode 1 0, .setNumPorts 0 0 0, .compactPorts, .addNode 2 0] = some g ∧
    nodeSlots g 0 = [1] ∧ nodeSlots g 1 = [0, 1] ∧ g.portMeta.length = 2 ∧ ¬ (slots g).Perm (List.range g.portMeta.length) := by
  refine ⟨(PG.run 32766 PG.empty [.addNode 1 0, .setNumPorts 0 0 0, .compactPorts, .addNode 2 0]).getD .empty, by decide +kernel,
    by decide +kernel, by decide +kernel, by decide +kernel, fun h => ?_⟩
  exact absurd h.length_eq (by decide +kernel)

#print axioms C85_tiling
#print axioms C85_length
#print axioms C85_clean
#print axioms C85_reuse
#print axioms C85_witness_compact

end Verif.Slots
