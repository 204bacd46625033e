import Verif.Slots.Bounded
import Verif.Slots.Props

/-!
# C85: how many slabs there can be
-/

namespace Verif.Slots

open Verif (Direction)
open Verif.PG

theorem run_inv {maxOff : Nat} (hmax : maxOff ≤ 32767) {ops : List PG.Op} :
    ∀ {g g' : PG}, PG.Inv g → OkRun maxOff g ops → PG.run maxOff g ops = some g' → PG.Inv g' := by
  induction ops with
  | nil => intro g g' hI _ h; simp only [PG.run, Option.some.injEq] at h; rw [← h]; exact hI
  | cons op ops ih =>
    intro g g' hI hok h
    obtain ⟨g1, h1, h2⟩ := step_ok hmax hI hok.1
    simp only [PG.run, h1] at h
    exact ih h2 (hok.2 g1 h1) h

/-- **C85** `remove_node` puts the slab of the node on the list of its size and changes no other list. -/
theorem C85_removed {maxOff : Nat} (hmax : maxOff ≤ 32767) {g g' : PG} (hg : PG.Reach maxOff g) {n f s : Nat} (hs : 0 < s)
    (hn : nodeSlots g n = List.range' f s) (h : g.removeNode n = some g') :
    freeSlabs g' s = f :: freeSlabs g s ∧ ∀ t, 0 < t → t ≠ s → freeSlabs g' t = freeSlabs g t := by
  have hI := hg.inv hmax
  rw [nodeSlots_eq] at hn
  cases e : g.node? n with
  | none =>
    rw [e] at hn
    have := congrArg List.length hn
    simp at this
    omega
  | some m =>
    rw [e] at hn
    have h1 := congrArg List.length hn
    simp at h1
    have h2 := congrArg List.head? hn
    rw [Option.elim_some, List.head?_range', List.head?_range', if_neg (by omega), if_neg (by omega)] at h2
    simp only [Option.some.injEq] at h2
    refine ⟨?_, fun t ht hne => ?_⟩
    · rw [free_remove hI e h hs, if_pos h1.symm, h2]
    · rw [free_remove hI e h ht, if_neg (by omega)]

example : nodeSlots slabG 3 = List.range' 8 8 ∧ (slabG.removeNode 3).map (freeSlabs · 8) = some [8] ∧
    (slabG.removeNode 3).map (freeSlabs · 2) = some [2, 0] := by decide +kernel

/-- **C85** `set_num_ports` with a new number of ports keeps the slab of the node if the new total is positive and
smaller than the capacity; all free slabs stay as they are then. Otherwise it first takes a slab, of the
smallest power of two that is large enough, and frees the old slab after that; so the old slab is not used even
if it has the right size. -/
theorem C85_resized {maxOff : Nat} (hmax : maxOff ≤ 32767) {g g' : PG} (hg : PG.Reach maxOff g) {n i o : Nat} {tr}
    (hn : g.containsNode n = true) (hne : ¬ (g.numPorts n .incoming = i ∧ g.numPorts n .outgoing = o))
    (htot : i + o ≤ 32768 ∨ i + o < g.nodePortCapacity n) (hi : i ≤ 65534)
    (h : g.setNumPorts n i o = some (g', tr)) :
    (1 ≤ i + o ∧ i + o < g.nodePortCapacity n → nodeSlots g' n = nodeSlots g n ∧ ∀ s, 0 < s → freeSlabs g' s = freeSlabs g s) ∧
    (¬ (1 ≤ i + o ∧ i + o < g.nodePortCapacity n) → ∃ r, (nodeSlots g' n).length = r ∧ i + o ≤ r ∧ (∃ k, r = 2 ^ k) ∧
      (1 ≤ i + o → r < 2 * (i + o)) ∧ (i + o = 0 → r = 1) ∧
      ∀ s, 0 < s → freeSlabs g' s = (if s = g.nodePortCapacity n then (nodeSlots g n).take 1 else []) ++
        if s = r then (freeSlabs g s).tail else freeSlabs g s) := by
  have hI := hg.inv hmax
  cases e : g.node? n with
  | none => simp [PG.containsNode, e] at hn
  | some m =>
    rw [numPorts_eq e, numPorts_eq e] at hne
    rw [capacity_eq e] at htot ⊢
    have hsl : nodeSlots g n = List.range' m.first m.capacity := by rw [nodeSlots_eq, e]; rfl
    rcases free_set hI e hne htot hi h with ⟨h1, h2, hnd, hf⟩ | ⟨f, r, hnd, h1, hr, hf⟩
    · refine ⟨fun _ => ⟨?_, hf⟩, fun hc => absurd ⟨h1, h2⟩ hc⟩
      rw [nodeSlots_eq, hsl, hnd]
      simp [upd]
    · refine ⟨fun hc => absurd hc h1, fun _ => ⟨r, ?_, ?_, ?_, ?_, ?_, ?_⟩⟩
      · rw [nodeSlots_eq, hnd]
        simp [upd]
      · rw [hr]; have := nextPow2_spec (i + o); omega
      · rw [hr]; exact (nextPow2_spec (i + o)).2.2
      · intro h0
        rw [hr]
        rcases (nextPow2_spec (i + o)).2.1 with h2 | h2 <;> omega
      · intro h0
        rw [hr]
        rcases (nextPow2_spec (i + o)).2.1 with h2 | h2 <;> omega
      · intro s hs
        rw [hf s hs, hsl]
        congr 1
        split
        · next e2 =>
          obtain ⟨k, hk⟩ : ∃ k, m.capacity = k + 1 := ⟨m.capacity - 1, by omega⟩
          rw [hk]
          simp [List.range'_succ]
        · rfl

/-- **C85** If at every moment of a history at most `M` nodes have a slab of size `s`, then at no moment there are
more than `M + 1` slabs of that size, used or free; and none if there is never a node with such a slab. -/
theorem C85_bounded {maxOff : Nat} (hmax : maxOff ≤ 32767) {ops : List PG.Op} (hok : OkRun maxOff PG.empty ops) {g : PG}
    (hrun : PG.run maxOff PG.empty ops = some g) {s M : Nat} (hs : 0 < s)
    (hM : ∀ k g1, PG.run maxOff PG.empty (ops.take k) = some g1 → liveSlabs g1 s ≤ M) :
    liveSlabs g s + (freeSlabs g s).length ≤ if M = 0 then 0 else M + 1 := by
  refine total_run hmax hs (B := if M = 0 then 0 else M + 1) ?_ Inv.empty hok hrun hM ?_
  · intro h; rw [if_neg (by omega)]; exact Nat.le_refl _
  · exact Nat.le_trans (Nat.le_of_eq (by rfl)) (Nat.zero_le _)

/-- **C85** So the port tables stay bounded in a history of any length: if at every moment at most `M s` nodes have
a slab of size `s`, and no slab is larger than `C`, the tables have at most `s * (M s + 1)` slots for each `s ≤ C`
with `M s ≠ 0`. -/
theorem C85_memory {maxOff : Nat} (hmax : maxOff ≤ 32767) {ops : List PG.Op} (hok : OkRun maxOff PG.empty ops) {g : PG}
    (hrun : PG.run maxOff PG.empty ops = some g) {M : Nat → Nat} {C : Nat}
    (hC : ∀ k g1 n, PG.run maxOff PG.empty (ops.take k) = some g1 → g1.nodePortCapacity n ≤ C)
    (hM : ∀ k g1 s, PG.run maxOff PG.empty (ops.take k) = some g1 → 0 < s → liveSlabs g1 s ≤ M s) :
    g.portMeta.length ≤ ((List.range C).map fun k => (k + 1) * if M (k + 1) = 0 then 0 else M (k + 1) + 1).sum := by
  have hI : PG.Inv g := run_inv hmax Inv.empty hok hrun
  have hlen : g.portMeta.length = ((List.range g.nodeMeta.length).map g.nodePortCapacity).sum +
      ((List.range g.portFree.length).map fun k => (k + 1) * (freeSlabs g (k + 1)).length).sum := by
    rw [← slots_length, (slots_perm hI).length_eq, List.length_range]
  have hself : PG.run maxOff PG.empty (ops.take ops.length) = some g := by rw [List.take_length]; exact hrun
  have hbig : ∀ s, C < s → freeSlabs g s = [] := by
    intro s hs
    have := C85_bounded hmax hok hrun (s := s) (M := 0) (by omega) (by
      intro k g1 h1
      rw [live_caps, Nat.le_zero, List.countP_eq_zero]
      intro x hx
      simp only [List.mem_map, List.mem_range] at hx
      obtain ⟨n, -, rfl⟩ := hx
      have := hC k g1 n h1
      simp; omega)
    simp at this
    exact this.2
  rw [hlen, sum_by_value (K := C) (by
    intro x hx
    simp only [List.mem_map, List.mem_range] at hx
    obtain ⟨n, -, rfl⟩ := hx
    exact hC _ g n hself)]
  rw [sum_pad (f := fun k => (k + 1) * (freeSlabs g (k + 1)).length) (Nat.le_max_left g.portFree.length C)
    (fun k hk => by rw [free_long (by omega)]; simp)]
  rw [← sum_pad (f := fun k => (k + 1) * (freeSlabs g (k + 1)).length) (Nat.le_max_right g.portFree.length C)
    (fun k hk => by rw [hbig _ (by omega)]; simp)]
  rw [sum_add_map]
  apply sum_le_map
  intro k hk
  rw [← Nat.mul_add, ← live_caps]
  apply Nat.mul_le_mul_left
  exact C85_bounded hmax hok hrun (s := k + 1) (M := M (k + 1)) (by omega) (fun j g1 h1 => hM j g1 _ h1 (by omega))

/-- One node, from capacity 4 to 4 ports again. -/
def extraOps : List PG.Op := [.addNode 4 0, .setNumPorts 0 3 0, .setNumPorts 0 2 2]

/-- The `+ 1` cannot be left out: with one node throughout, there can be two slabs of size 4. -/
theorem C85_witness_extra : ∃ ops g, OkRun 32766 PG.empty ops ∧ PG.run 32766 PG.empty ops = some g ∧
    (∀ k g1, PG.run 32766 PG.empty (ops.take k) = some g1 → g1.nodeCount ≤ 1) ∧ liveSlabs g 4 + (freeSlabs g 4).length = 2 := by
  refine ⟨extraOps, (PG.run 32766 PG.empty extraOps).getD .empty, checkedRun_ok (g' := (PG.run 32766 PG.empty extraOps).getD .empty)
    (by decide +kernel), by decide +kernel, fun k g1 h => ?_, by decide +kernel⟩
  have h1 : ∀ k ≤ 3, ((PG.run 32766 PG.empty (extraOps.take k)).getD .empty).nodeCount ≤ 1 := by decide +kernel
  by_cases hk : k ≤ 3
  · have := h1 k hk
    rw [h] at this
    exact this
  · have := h1 3 (Nat.le_refl _)
    rw [List.take_of_length_le (by simp [extraOps]; omega)] at h
    rw [List.take_of_length_le (by simp [extraOps]), h] at this
    exact this

/-- The bound of `C85_memory` is reached. -/
example : ((PG.run 32766 PG.empty extraOps).getD .empty).portMeta.length =
    ((List.range 4).map fun k => (k + 1) * if (if k + 1 = 4 then 1 else 0) = 0 then 0 else (if k + 1 = 4 then 1 else 0) + 1).sum := by
  decide +kernel

example : ∀ k ≤ 3, ∀ n, ((PG.run 32766 PG.empty (extraOps.take k)).getD .empty).nodePortCapacity n ≤ 4 := by
  intro k hk n
  by_cases hn : n = 0
  · subst hn
    revert k
    decide +kernel
  · have h : ∀ k ≤ 3, ((PG.run 32766 PG.empty (extraOps.take k)).getD .empty).nodeMeta.length ≤ 1 := by decide +kernel
    have h1 := List.getElem?_eq_none (Nat.le_trans (h k hk) (show 1 ≤ n by omega))
    simp [PG.nodePortCapacity, PG.node?, h1]

example := C85_resized (maxOff := 32766) (by decide) slabG_reach (n := 3) (i := 1) (o := 1) (by decide +kernel) (by decide +kernel)
  (.inl (by decide)) (by decide) (g' := ((slabG.setNumPorts 3 1 1).getD (.empty, [])).1)
  (tr := ((slabG.setNumPorts 3 1 1).getD (.empty, [])).2) (by decide +kernel)

example : (slabG.setNumPorts 3 1 1).map (fun x => (nodeSlots x.1 3, freeSlabs x.1 2)) = some ((List.range' 8 8), [2, 0]) ∧
    (slabG.setNumPorts 3 8 0).map (fun x => (nodeSlots x.1 3, freeSlabs x.1 8)) = some ((List.range' 16 8), [8]) ∧
    (slabG.setNumPorts 3 0 0).map (fun x => (nodeSlots x.1 3, freeSlabs x.1 8, freeSlabs x.1 1)) = some ([4], [8], []) := by
  decide +kernel

#print axioms C85_removed
#print axioms C85_resized
#print axioms C85_bounded
#print axioms C85_memory
#print axioms C85_witness_extra

end Verif.Slots
