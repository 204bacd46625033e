import Verif.Slots.Lemmas

/-! What `add_node` and `remove_node` do to the lists of free slabs and free nodes. -/

namespace Verif.Slots

open Verif (Direction)
open Verif.PG

theorem allocPorts_heads {g g' : PG} {node i o x : Nat} {m : NodeMeta} (h : g.allocPorts node i o x = some (m, g')) (hs : 0 < i + o + x) :
    (∃ f, g.heads (i + o + x) = some f ∧ m.first = f ∧ g'.heads = upd g.heads (i + o + x) (g.lk f) ∧
      g'.portMeta.length = g.portMeta.length) ∨
    (g.heads (i + o + x) = none ∧ m.first = g.portMeta.length ∧ g'.heads = g.heads ∧
      g'.portMeta.length = g.portMeta.length + (i + o + x)) := by
  unfold PG.allocPorts at h
  generalize hr : i + o + x = r at *
  simp only at h
  rw [if_neg (by omega)] at h
  have hh : (g.portFree[r - 1]?).join = g.heads r := by unfold PG.heads; rw [if_neg (by omega)]
  rw [hh] at h
  cases e : g.heads r with
  | some f =>
    simp only [e] at h
    have hflt : r - 1 < g.portFree.length := by
      rcases Nat.lt_or_ge (r - 1) g.portFree.length with h1 | h1
      · exact h1
      · rw [← hh, List.getElem?_eq_none h1] at e; simp at e
    split at h
    · cases h
    · rename_i nx hnx
      split at h
      · cases h
      · rename_i m' hm'
        split at h
        · simp only [Option.some.injEq, Prod.mk.injEq] at h
          obtain ⟨rfl, rfl⟩ := h
          refine Or.inl ⟨f, rfl, ?_, ?_, by simp⟩
          · unfold NodeMeta.new? at hm'
            split at hm'
            · cases hm'; rfl
            · cases hm'
          · have h1 : g.lk f = nx := by simp [PG.lk, hnx]
            rw [h1]
            exact heads_set (g := g) (by omega) hflt
        · cases h
  | none =>
    simp only [e] at h
    split at h
    · cases h
    · rename_i m' hm'
      simp only [Option.some.injEq, Prod.mk.injEq] at h
      obtain ⟨rfl, rfl⟩ := h
      refine Or.inr ⟨rfl, ?_, rfl, ?_⟩
      · unfold NodeMeta.new? at hm'
        split at hm'
        · cases hm'; rfl
        · cases hm'
      · simp; omega

/-- The parts of `add_node`. -/
theorem addNode_parts {g g' : PG} {maxOff i o n : Nat} (h : g.addNode maxOff i o = some (n, g')) :
    ∃ g1 m g2, g.allocNode = some (n, g1) ∧ g1.allocPorts n i o 0 = some (m, g2) ∧ n < g2.nodeMeta.length ∧
      g' = { g2 with nodeMeta := g2.nodeMeta.set n (.node m), nodeCount := g2.nodeCount + 1, portCount := g2.portCount + (i + o) } := by
  unfold PG.addNode at h
  split at h
  · split at h
    · cases h
    · rename_i node g1 h1
      split at h
      · cases h
      · rename_i m g2 h2
        split at h
        · rename_i h3
          simp only [Option.some.injEq, Prod.mk.injEq] at h
          obtain ⟨rfl, rfl⟩ := h
          exact ⟨g1, m, g2, h1, h2, h3, rfl⟩
        · cases h
  · cases h

theorem addNode_slab {g g' : PG} {maxOff i o n : Nat} (hI : PG.Inv g) (h : g.addNode maxOff i o = some (n, g')) (hs : 0 < i + o) :
    ∃ m, g'.node? n = some m ∧
    ((g.heads (i + o) = some m.first ∧ g'.heads = upd g.heads (i + o) (g.lk m.first) ∧ g'.portMeta.length = g.portMeta.length) ∨
    (g.heads (i + o) = none ∧ m.first = g.portMeta.length ∧ g'.heads = g.heads ∧ g'.portMeta.length = g.portMeta.length + (i + o))) := by
  obtain ⟨fn, hN⟩ := hI.nodes
  obtain ⟨g1, m, g2, h1, h2, h3, rfl⟩ := addNode_parts h
  obtain ⟨n', g1', ha, -, -, -, hpm, hpl, hpf, -⟩ := allocNode_ok hN
  rw [h1] at ha
  simp only [Option.some.injEq, Prod.mk.injEq] at ha
  obtain ⟨rfl, rfl⟩ := ha
  have e1 : g1.heads = g.heads := by funext s; simp [PG.heads, hpf]
  have e2 : g1.lk = g.lk := by funext s; simp [PG.lk, hpl]
  refine ⟨m, ?_, ?_⟩
  · simp [PG.node?, h3]
  · rcases allocPorts_heads h2 (by omega) with ⟨f, h5, rfl, h7, h8⟩ | ⟨h5, h6, h7, h8⟩
    · refine Or.inl ⟨?_, ?_, ?_⟩
      · rw [← e1]; exact h5
      · rw [← e1, ← e2]; exact h7
      · rw [← hpm]; exact h8
    · refine Or.inr ⟨?_, ?_, ?_, ?_⟩
      · rw [← e1]; exact h5
      · rw [← hpm]; exact h6
      · rw [← e1]; exact h7
      · rw [← hpm]; exact h8

/-- The nodes after `add_node`. -/
theorem addNode_nodes {g g' : PG} {maxOff i o n : Nat} {fn} (hI : PG.Inv g) (hN : NInv g.nodeMeta g.nodeFree g.nodeCount fn)
    (hmax : maxOff ≤ 32767) (h : g.addNode maxOff i o = some (n, g')) :
    NInv g'.nodeMeta g'.nodeFree g'.nodeCount fn.tail ∧ (g.nodeFree = none → n = g.nodeMeta.length) ∧
      (g.nodeFree ≠ none → some n = g.nodeFree) := by
  obtain ⟨own, fs, hP, -⟩ := hI.slots
  have hb : i ≤ maxOff ∧ o ≤ maxOff := by
    unfold PG.addNode at h
    split at h
    · assumption
    · cases h
  obtain ⟨g1, m, g2, h1, h2, h3, rfl⟩ := addNode_parts h
  obtain ⟨n', g1', ha, -, -, hnd, hpm, hpl, hpf, hnc, -, -, -, hc1, hc2, hN1⟩ := allocNode_ok hN
  rw [h1] at ha
  simp only [Option.some.injEq, Prod.mk.injEq] at ha
  obtain ⟨rfl, rfl⟩ := ha
  have e1 : g1.heads = g.heads := by funext s; simp [PG.heads, hpf]
  have e2 : g1.lk = g.lk := by funext s; simp [PG.lk, hpl]
  have e3 : g1.port? = g.port? := by funext s; simp [PG.port?, hpm]
  obtain ⟨f, g2', own', fs', ha2, -, -, -, -, -, -, -, -, hnm2, hnf2, hnc2, -⟩ :=
    allocPorts_ok (nd := g.node?) (own := own) (fs := fs) (g := g1) n i o 0 (by rw [hpl, hpm]; exact hI.len)
      (by rw [hpm, e3, e2, e1]; exact hP) (by omega) (by omega)
  rw [h2] at ha2
  simp only [Option.some.injEq, Prod.mk.injEq] at ha2
  obtain ⟨rfl, rfl⟩ := ha2
  refine ⟨?_, fun e => (hc1 e).1, fun e => (hc2 e).1⟩
  simp only
  rw [hnm2, hnf2, hnc2, hnc]
  exact hN1 _

theorem freePortsLoop_len {g g' : PG} {i k : Nat} (h : g.freePortsLoop i k = some g') :
    g'.portFree = g.portFree ∧ g'.portMeta.length = g.portMeta.length := by
  induction k generalizing g i with
  | zero => simp only [PG.freePortsLoop, Option.some.injEq] at h; subst h; exact ⟨rfl, rfl⟩
  | succ k ih =>
    simp only [PG.freePortsLoop] at h
    split at h
    · cases h
    · rename_i g1 h1
      obtain ⟨h2, h3⟩ := ih h
      rw [h2, h3]
      unfold PG.freePortStep at h1
      split at h1
      · split at h1
        · cases h1
        · cases h1; simp
        · split at h1
          · cases h1; simp
          · cases h1
      · cases h1

theorem freePorts_heads {g g' : PG} {f s : Nat} (h : g.freePorts f s = some g') (hs : 0 < s) :
    g'.heads = upd g.heads s (some f) ∧ g'.portFree.length = max g.portFree.length s := by
  unfold PG.freePorts at h
  simp only at h
  rw [if_neg (by omega)] at h
  split at h
  · cases h
  · rename_i g1 h1
    obtain ⟨e1, -⟩ := freePortsLoop_len h1
    simp only at e1
    split at h
    · cases h
    · split at h
      · cases h
        have hl : g1.portFree.length = max g.portFree.length s := by
          rw [e1]; simp; omega
        refine ⟨?_, by simpa using hl⟩
        have := heads_set (g := g1) (s := s) (f := some f) (by omega) (by omega)
        refine Eq.trans this ?_
        have h3 : g1.heads = g.heads := by
          funext t
          unfold PG.heads
          rw [e1]
          split
          · rfl
          · rcases Nat.lt_or_ge (t - 1) g.portFree.length with h4 | h4
            · rw [List.getElem?_append_left h4]
            · rw [List.getElem?_append_right h4, List.getElem?_eq_none h4, List.getElem?_replicate]
              split <;> rfl
        rw [h3]
      · cases h

theorem removeNode_heads {g g' : PG} {n : Nat} {m : NodeMeta} (h : g.removeNode n = some g') (hn : g.node? n = some m)
    (hc : 0 < m.capacity) (hI : PG.Inv g) : g'.heads = upd g.heads m.capacity (some m.first) := by
  obtain ⟨fn, hN⟩ := hI.nodes
  obtain ⟨g1, ha, -, -, -, hpf, -⟩ := freeNode_ok hN hn
  unfold PG.removeNode at h
  rw [hn] at h
  simp only [ha] at h
  split at h
  · cases h
  · split at h
    · rw [(freePorts_heads h hc).1]
      congr 1
      funext s
      simp [PG.heads, hpf]
    · cases h

end Verif.Slots
