import Verif.Undo.Free2
import Verif.Equality.Props
import Verif.PortGraph.PropsSet
import Verif.PortGraph.PropsCompact

/-!
# Lemmas for the undo laws of port graphs
-/

namespace Verif.Undo

open Verif.PG Verif.Equality

theorem set_same {α : Type} {l : List α} {i : Nat} {x : α} (h : l[i]? = some x) : l.set i x = l := by
  apply List.ext_getElem?
  intro j
  rw [List.getElem?_set]
  split
  · subst_vars
    split
    · exact h.symm
    · rename_i hc
      rw [List.getElem?_eq_none (by omega)] at h; simp at h
  · rfl

theorem freePortsLoop_unlinked {g : PG} {i k : Nat} (hm : i + k ≤ g.portMeta.length)
    (hl : ∀ p, i ≤ p → p < i + k → g.portLink[p]? = some none) :
    g.freePortsLoop i k = some { g with portMeta := fill g.portMeta i k .free } := by
  induction k generalizing g i with
  | zero =>
    have : fill g.portMeta i 0 .free = g.portMeta := by
      apply List.ext_getElem?
      intro j
      rw [getElem?_fill, if_neg (by omega)]
    rw [this]
    rfl
  | succ k ih =>
    unfold PG.freePortsLoop PG.freePortStep
    rw [if_pos (by omega), hl i (by omega) (by omega)]
    simp only
    rw [ih (g := { g with portMeta := g.portMeta.set i .free }) (by simp; omega) (fun p h1 h2 => hl p (by omega) (by omega))]
    simp only [Option.some.injEq]
    congr 1
    apply List.ext_getElem?
    intro j
    rw [getElem?_fill, getElem?_fill, List.getElem?_set]
    by_cases h1 : i = j
    · subst h1
      rw [if_neg (by omega), if_pos rfl, if_pos (by omega), if_pos (by omega), List.getElem?_eq_getElem (by omega)]
      rfl
    · rw [if_neg h1]
      by_cases h2 : i + 1 ≤ j ∧ j < i + 1 + k
      · rw [if_pos h2, if_pos (by omega)]
      · rw [if_neg h2, if_neg (by omega)]

/-- Giving up a node and taking a new one restores the node slots. -/
theorem free_alloc {g : PG} (hI : PG.Inv g) {n : Nat} {m : NodeMeta} (hm : g.node? n = some m) :
    ∃ NM1 NM2, g.freeNode n = some { g with nodeMeta := NM1, nodeFree := some n } ∧ NM2.length = g.nodeMeta.length ∧
      NM2.set n (.node m) = g.nodeMeta ∧
      ∀ k : PG, k.nodeMeta = NM1 → k.nodeFree = some n →
        k.allocNode = some (n, { k with nodeMeta := NM2, nodeFree := g.nodeFree }) := by
  obtain ⟨fn, hN⟩ := hI.nodes
  have hnm := PG.node?_eq.1 hm
  have hlt := PG.node?_lt (g := g) (n := n) (by simp [hm])
  have hc := hN.chain
  cases hf : g.nodeFree with
  | none =>
    refine ⟨g.nodeMeta.set n (.free none none), g.nodeMeta.set n (.free none none), ?_, by simp, ?_, ?_⟩
    · unfold PG.freeNode
      rw [if_pos hlt, hf]
    · rw [List.set_set]
      exact set_same hnm
    · intro k h1 h2
      unfold PG.allocNode
      rw [h2]
      simp only
      rw [h1, List.getElem?_set_self hlt]
  | some h =>
    rw [hf] at hc
    cases fn with
    | nil => cases hc
    | cons x xs =>
      obtain ⟨rfl, nx, hnx, -⟩ := hc
      have hne : h ≠ n := by
        rintro rfl
        simp only at hnx
        rw [hnm] at hnx
        cases hnx
      simp only at hnx
      refine ⟨(g.nodeMeta.set h (.free (some n) nx)).set n (.free none (some h)),
        ((g.nodeMeta.set h (.free (some n) nx)).set n (.free none (some h))).set h (.free none nx), ?_, by simp, ?_, ?_⟩
      · unfold PG.freeNode
        rw [if_pos hlt, hf]
        simp only [hnx]
      · rw [List.set_comm _ _ hne, List.set_set, List.set_comm _ _ hne, List.set_set, set_same hnm, set_same hnx]
      · intro k h1 h2
        have hhlt : h < g.nodeMeta.length := by
          rcases Nat.lt_or_ge h g.nodeMeta.length with h3 | h3
          · exact h3
          · rw [List.getElem?_eq_none h3] at hnx; cases hnx
        unfold PG.allocNode
        rw [h2]
        simp only
        rw [h1, List.getElem?_set_self (by simpa using hlt)]
        simp only
        rw [List.getElem?_set_ne hne.symm, List.getElem?_set_self hhlt]

/-- Giving up ports without links and taking as many restores the port slots. -/
theorem free_alloc_ports {g : PG} {n f i o : Nat} (hpos : 0 < i + o) (hi : i ≤ 65534) (ho : i + o ≤ 65535)
    (hlen : g.portLink.length = g.portMeta.length) (hb : f + (i + o) ≤ g.portMeta.length)
    (hin : ∀ p, f ≤ p → p < f + i → g.portMeta[p]? = some (.port n .incoming))
    (hout : ∀ p, f + i ≤ p → p < f + (i + o) → g.portMeta[p]? = some (.port n .outgoing))
    (hl : ∀ p, f ≤ p → p < f + (i + o) → g.portLink[p]? = some none) :
    ∃ PM1 PL1 PF1 PF2, g.freePorts f (i + o) = some { g with portMeta := PM1, portLink := PL1, portFree := PF1 } ∧
      SameHeads PF2 g.portFree ∧
      ∀ k : PG, k.portMeta = PM1 → k.portLink = PL1 → k.portFree = PF1 →
        k.allocPorts n i o 0 = some (⟨f, i, o, i + o⟩, { k with portMeta := g.portMeta, portLink := g.portLink, portFree := PF2 }) := by
  have hPF : i + o ≤ (g.portFree ++ List.replicate (i + o - g.portFree.length) none).length := by simp; omega
  obtain ⟨PF, hPFe⟩ : ∃ PF, g.portFree ++ List.replicate (i + o - g.portFree.length) none = PF := ⟨_, rfl⟩
  have hsh : SameHeads PF g.portFree := by
    intro s
    rw [← hPFe, join_pad]
  rw [hPFe] at hPF
  have hhead : PF[i + o - 1]? = some PF[i + o - 1] := List.getElem?_eq_getElem (by omega)
  refine ⟨fill g.portMeta f (i + o) .free, g.portLink.set f PF[i + o - 1], PF.set (i + o - 1) (some f), PF, ?_, hsh, ?_⟩
  · unfold PG.freePorts
    simp only [hPFe]
    rw [if_neg (by omega), freePortsLoop_unlinked (g := { g with portFree := PF }) hb hl]
    simp only [hhead]
    rw [if_pos (by omega)]
  · intro k h1 h2 h3
    unfold PG.allocPorts
    simp only [Nat.add_zero]
    rw [if_neg (by omega), h3, List.getElem?_set_self (by omega)]
    simp only [Option.join_some, h2]
    rw [List.getElem?_set_self (by omega)]
    have hnew : NodeMeta.new? f (i % 65536) (o % 65536) ((i + o) % 65536) = some ⟨f, i, o, i + o⟩ := by
      rw [Nat.mod_eq_of_lt (by omega), Nat.mod_eq_of_lt (by omega), Nat.mod_eq_of_lt (by omega)]
      unfold NodeMeta.new?
      rw [if_pos ⟨hi, by omega, by omega, .inl hpos⟩]
    simp only [hnew, h1, length_fill, List.length_set]
    rw [if_pos ⟨by omega, by omega⟩]
    simp only [Option.some.injEq, Prod.mk.injEq, true_and, NodeMeta.portCount]
    have e1 : fill (fill (fill (fill g.portMeta f (i + o) .free) f i (.port n .incoming)) (f + i) o (.port n .outgoing))
        (f + (o + i)) (i + o - (o + i)) .free = g.portMeta := by
      apply List.ext_getElem?
      intro j
      rw [getElem?_fill, if_neg (by omega), getElem?_fill, getElem?_fill, getElem?_fill]
      by_cases c1 : f + i ≤ j ∧ j < f + i + o
      · rw [if_pos c1, if_neg (by omega), if_pos (by omega), hout j (by omega) (by omega)]
        rfl
      · rw [if_neg c1]
        by_cases c2 : f ≤ j ∧ j < f + i
        · rw [if_pos c2, if_pos (by omega), hin j (by omega) (by omega)]
          rfl
        · rw [if_neg c2, if_neg (by omega)]
    have e2 : fill (g.portLink.set f PF[i + o - 1]) f (i + o) none = g.portLink := by
      apply List.ext_getElem?
      intro j
      rw [getElem?_fill]
      by_cases c1 : f ≤ j ∧ j < f + (i + o)
      · rw [if_pos c1, hl j c1.1 c1.2, List.getElem?_set, hl j c1.1 c1.2]
        split
        · rw [if_pos (by omega)]; rfl
        · rfl
      · rw [if_neg c1, List.getElem?_set_ne (by omega)]
    have e3 : (PF.set (i + o - 1) (some f)).set (i + o - 1) PF[i + o - 1] = PF := by
      rw [List.set_set]
      exact set_same hhead
    rw [e1, e2, e3]

theorem portMeta_of_port {g : PG} {p n : Nat} {d : Direction} (h : g.port? p = some (n, d)) : g.portMeta[p]? = some (.port n d) := by
  unfold PG.port? at h
  split at h
  · rename_i e
    simp only [Option.some.injEq, Prod.mk.injEq] at h
    rw [e, h.1, h.2]
  · cases h

/-- Removing a node without links and without spare ports, and adding one like it. -/
theorem remove_add {g : PG} (hI : PG.Inv g) {maxOff n : Nat} {m : NodeMeta} (hm : g.node? n = some m) (hc : m.capacity = m.incoming + m.outgoing)
    (hi : m.incoming ≤ maxOff) (ho : m.outgoing ≤ maxOff)
    (hfree : ∀ p, m.first ≤ p → p < m.first + m.capacity → g.lk p = none) :
    ∃ g1 g2, g.removeNode n = some g1 ∧ g1.addNode maxOff m.incoming m.outgoing = some (n, g2) ∧ SameButFree g2 g := by
  obtain ⟨own, fs, hP, hfull⟩ := hI.slots
  have hb := hP.bound n m hm
  have hlen := hI.len
  obtain ⟨fn, hN⟩ := hI.nodes
  obtain ⟨-, -, -, -, -, -, -, -, -, hpos, -⟩ := freeNode_ok hN hm
  obtain ⟨NM1, NM2, h1, h2, h3, h4⟩ := free_alloc hI hm
  have hlt := PG.node?_lt (g := g) (n := n) (by simp [hm])
  by_cases hz : m.incoming + m.outgoing = 0
  · have hm0 : m = ⟨0, 0, 0, 0⟩ := by
      have := hb.2.2.1 (by omega)
      cases m
      simp only at hz hc this ⊢
      simp only [NodeMeta.mk.injEq]
      omega
    refine ⟨{ g with nodeMeta := NM1, nodeFree := some n, nodeCount := g.nodeCount - 1 }, g, ?_, ?_, .refl g⟩
    · unfold PG.removeNode
      rw [hm]
      simp only [h1]
      rw [if_neg (by omega), if_neg (by omega)]
    · unfold PG.addNode
      rw [if_pos ⟨hi, ho⟩, h4 _ rfl rfl]
      simp only [PG.allocPorts]
      rw [if_pos (by omega)]
      simp only
      rw [if_pos (by omega), ← hm0, h3]
      simp only [Option.some.injEq, Prod.mk.injEq, true_and]
      cases g
      simp only at hpos hz ⊢
      simp only [PG.mk.injEq, true_and, and_true]
      omega
  · have hcs := hI.cnt_slab hm
    have hpc : m.portCount = m.incoming + m.outgoing := Nat.add_comm _ _
    have hports : ∀ p d, m.start d ≤ p → p < m.start d + m.numPorts d → g.portMeta[p]? = some (.port n d) :=
      fun p d a b => portMeta_of_port ((hP.ports p n d).2 ⟨m, hm, a, b⟩)
    obtain ⟨PM1, PL1, PF1, PF2, k1, k2, k3⟩ := free_alloc_ports (g := { g with nodeMeta := NM1, nodeFree := some n, nodeCount := g.nodeCount - 1, portCount := g.portCount - m.portCount })
      (n := n) (f := m.first) (i := m.incoming) (o := m.outgoing) (by omega) hb.2.2.2.1 (by omega) hlen (by show _ ≤ g.portMeta.length; omega)
      (fun p a b => hports p .incoming a b)
      (fun p a b => hports p .outgoing a (by simp only [NodeMeta.start, NodeMeta.numPorts]; omega))
      (fun p a b => by
        show g.portLink[p]? = some none
        rw [PG.getElem?_portLink (by omega), hfree p a (by omega)])
    refine ⟨{ g with nodeMeta := NM1, nodeFree := some n, nodeCount := g.nodeCount - 1, portCount := g.portCount - m.portCount, portMeta := PM1, portLink := PL1, portFree := PF1 },
      { g with portFree := PF2 }, ?_, ?_, rfl, k2⟩
    · unfold PG.removeNode
      rw [hm]
      simp only [h1]
      rw [if_neg (by omega), if_pos (by omega), hc, if_pos ⟨by omega, by omega, by omega⟩]
      exact k1
    · unfold PG.addNode
      rw [if_pos ⟨hi, ho⟩, h4 _ rfl rfl]
      simp only
      rw [k3 _ rfl rfl rfl]
      simp only
      rw [if_pos (by omega)]
      have : (⟨m.first, m.incoming, m.outgoing, m.incoming + m.outgoing⟩ : NodeMeta) = m := by rw [← hc]
      rw [this, h3]
      simp only [Option.some.injEq, Prod.mk.injEq, true_and]
      cases g
      simp only at hpos hcs ⊢
      simp only [PG.mk.injEq, true_and, and_true]
      omega

end Verif.Undo
