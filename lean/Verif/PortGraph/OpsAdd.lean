import Verif.PortGraph.OpsPort

/-! Effects of `add_node`, `remove_node` and `clear`. -/

namespace Verif.PG

open Verif (Direction)

theorem Inv.empty : Inv PG.empty := by
  refine ⟨rfl, ⟨[], ?_⟩, ⟨fun _ => .none, fun _ => [], ?_⟩, rfl, rfl, rfl⟩
  · refine ⟨by simp [DChain, PG.empty], by simp [PG.empty], by simp, rfl⟩
  · refine ⟨?_, by simp [PG.empty]⟩
    constructor <;> simp [PG.empty, PG.node?, PG.port?, PG.lk, IsPort, PG.heads, Chain]

theorem clear_eq (g : PG) : g.clear = PG.empty := rfl

theorem Inv.clear (g : PG) : Inv g.clear := by rw [clear_eq]; exact Inv.empty

theorem Inv.count {g : PG} (h : Inv g) (d : Direction) :
    g.linkCount = cnt g.portMeta.length (linkedDir g.port? g.lk d) := by
  cases d
  · exact h.inCount
  · exact h.outCount

theorem PG.port?_ge {g : PG} {p} (h : g.portMeta.length ≤ p) : g.port? p = none := by
  simp [PG.port?, List.getElem?_eq_none h]

theorem node?_set {g : PG} {n m} (hn : n < g.nodeMeta.length) :
    PG.node? { g with nodeMeta := g.nodeMeta.set n (.node m) } = upd g.node? n (some m) := by
  funext j
  simp only [PG.node?, upd]
  rw [List.getElem?_set]
  by_cases e : n = j
  · subst e; simp [hn]
  · rw [if_neg e, if_neg (fun h => e h.symm)]

theorem claim_isSome {pt : Nat → Option (Nat × Direction)} {n m p} :
    (claim pt n m p).isSome = (inRange m.first (m.incoming + m.outgoing) p || (pt p).isSome) := by
  simp only [claim, NodeMeta.start, NodeMeta.numPorts]
  by_cases h1 : inRange m.first m.incoming p = true
  · have : inRange m.first (m.incoming + m.outgoing) p = true := by simp at *; omega
    simp [h1, this]
  · by_cases h2 : inRange (m.first + m.incoming) m.outgoing p = true
    · have : inRange m.first (m.incoming + m.outgoing) p = true := by simp at *; omega
      simp [h1, h2, this]
    · have : inRange m.first (m.incoming + m.outgoing) p = false := by
        rw [inRange_eq_false]; simp at h1 h2; omega
      simp [h1, h2, this]

theorem claim_other {pt : Nat → Option (Nat × Direction)} {n} {m : NodeMeta} {p}
    (hb : m.incoming + m.outgoing ≤ m.capacity) (h : inRange m.first m.capacity p = false) :
    claim pt n m p = pt p := by
  rw [inRange_eq_false] at h
  unfold claim
  rw [if_neg (by simp [NodeMeta.start, NodeMeta.numPorts]; omega),
    if_neg (by simp [NodeMeta.start, NodeMeta.numPorts]; omega)]

/-- Effect of `add_node`. -/
theorem addNode_ok {g : PG} (h : Inv g) {maxOff inc out : Nat} (hi : inc ≤ maxOff) (ho : out ≤ maxOff)
    (hinc : inc ≤ 65534) (htot : inc + out ≤ 65535) :
    ∃ n f g', g.addNode maxOff inc out = some (n, g') ∧ Inv g' ∧ g.node? n = none ∧
      g'.node? = upd g.node? n (some ⟨f, inc, out, inc + out⟩) ∧
      g'.port? = claim g.port? n ⟨f, inc, out, inc + out⟩ ∧
      g'.lk = (fun p => if inRange f (inc + out) p then none else g.lk p) ∧
      (∀ p, f ≤ p → p < f + (inc + out) → g.port? p = none) ∧
      g'.nodeCount = g.nodeCount + 1 ∧ g'.portCount = g.portCount + (inc + out) ∧
      g'.linkCount = g.linkCount ∧
      g.nodeMeta.length ≤ g'.nodeMeta.length ∧ g.portMeta.length ≤ g'.portMeta.length ∧
      (g.nodeFree = none → n = g.nodeMeta.length) ∧ (g.nodeFree ≠ none → n < g.nodeMeta.length) := by
  obtain ⟨fn, hN⟩ := h.nodes
  obtain ⟨own, fs, hP, hfull⟩ := h.slots
  obtain ⟨n, g1, ha, hnone, hlt, hnd1, hpm1, hpl1, hpf1, hnc1, hpc1, hlc1, hle1, hcase, hcase2, hN1⟩ := allocNode_ok hN
  have hport1 : g1.port? = g.port? := by funext p; simp [PG.port?, hpm1]
  have hlk1 : g1.lk = g.lk := by funext p; simp [PG.lk, hpl1]
  have hhd1 : g1.heads = g.heads := by funext p; simp [PG.heads, hpf1]
  obtain ⟨f, g2, own', fs', hal, hf1, hf0, hlen2, hle2, hpt2, hlk2, hP2, hown, hnm2, hnf2, hnc2, hpc2, hlc2, -, hfl2⟩ :=
    allocPorts_ok (g := g1) (nd := g.node?) (own := own) (fs := fs) n inc out 0
      (by rw [hpl1, hpm1]; exact h.len)
      (by rw [hpm1, hport1, hlk1, hhd1]; exact hP) hinc (by omega)
  simp only [Nat.add_zero] at *
  have hptn : ∀ p, f ≤ p → p < f + (inc + out) → g.port? p = none := by
    intro p h1 h2
    rw [← hport1]
    exact hP2.pt_none fun n => by rw [hown p h1 h2]; simp
  have hnd : PG.node? { g2 with
            nodeMeta := g2.nodeMeta.set n (.node ⟨f, inc, out, inc + out⟩)
            nodeCount := g2.nodeCount + 1
            portCount := g2.portCount + (inc + out) } = upd g.node? n (some ⟨f, inc, out, inc + out⟩) := by
    have := node?_set (g := g2) (n := n) (m := ⟨f, inc, out, inc + out⟩) (by rw [hnm2]; exact hlt)
    refine Eq.trans this ?_
    rw [← hnd1]
    congr 1
    funext j; simp [PG.node?, hnm2]
  rw [hport1] at hpt2 hP2
  rw [hlk1] at hlk2
  rw [hpm1] at hle2
  refine ⟨n, f, { g2 with
            nodeMeta := g2.nodeMeta.set n (.node ⟨f, inc, out, inc + out⟩)
            nodeCount := g2.nodeCount + 1
            portCount := g2.portCount + (inc + out) }, ?_, ?_, hnone, hnd, hpt2, hlk2, hptn, ?_, ?_, ?_, ?_, ?_, ?_, ?_⟩
  · simp only [PG.addNode, if_pos (And.intro hi ho), ha, hal]
    rw [if_pos (by rw [hnm2]; exact hlt)]
  · have hext : ∀ P : Nat → Bool, (∀ p, g.portMeta.length ≤ p → P p = false) →
        cnt g2.portMeta.length P = cnt g.portMeta.length P := fun P hPz =>
      cnt_extend hle2 fun i h1 _ => hPz i h1
    have hlkc : ∀ d, cnt g2.portMeta.length (linkedDir (claim g.port? n ⟨f, inc, out, inc + out⟩)
        (fun p => if inRange f (inc + out) p then none else g.lk p) d) =
        cnt g.portMeta.length (linkedDir g.port? g.lk d) := by
      intro d
      rw [← hext]
      · apply cnt_congr
        intro p hp
        by_cases e : inRange f (inc + out) p = true
        · have e' := inRange_iff.1 e
          have := hptn p e'.1 e'.2
          unfold linkedDir
          simp [e, this]
          split <;> simp
        · rw [Bool.not_eq_true] at e
          unfold linkedDir
          rw [claim_other (by simp) (by simpa using e)]
          simp [e]
      · intro p hp
        simp [linkedDir, PG.port?_ge hp]
    refine ⟨hlen2, ⟨fn.tail, ?_⟩, ⟨fun p => if inRange f (inc + out) p then .node n else own' p, fs', ?_⟩,
      ?_, ?_, ?_⟩
    · show NInv (g2.nodeMeta.set n _) g2.nodeFree (g2.nodeCount + 1) _
      rw [hnm2, hnf2, hnc2, hnc1]
      exact hN1 _
    · rw [hnd]
      show PInv g2.portMeta.length _ g2.port? g2.lk g2.heads _ _ ∧ ∀ p < g2.portMeta.length, _
      rw [hpt2]
      refine ⟨hP2.placeNode (m := ⟨f, inc, out, inc + out⟩) hnone ⟨by simp, hf1, hf0, hinc, htot⟩ hown ?_, ?_⟩
      · intro p h1 h2
        rw [hlk2]
        simp at h1 h2
        simp [h1, h2]
      · intro p hp
        show (if inRange f (inc + out) p = true then Owner.node n else own' p) ≠ Owner.none
        split
        · simp
        · next hr => exact hfl2 (by rw [hpm1]; exact hfull) p hp (by simpa using hr)
    · show g2.portCount + (inc + out) = cnt g2.portMeta.length fun p => (g2.port? p).isSome
      rw [hpc2, hpc1, hpt2, h.portCount, ← hext _ (fun p hp => by simp [PG.port?_ge hp])]
      symm
      apply cnt_insert_range (a := f) (k := inc + out) hf1
      · intro i h1 h2; simp [hptn i h1 h2]
      · intro i h1 h2; rw [claim_isSome]; simp; left; omega
      · intro j _ hj
        rw [claim_isSome]
        have : inRange f (inc + out) j = false := by rw [inRange_eq_false]; exact hj
        simp [this]
    · show g2.linkCount = cnt g2.portMeta.length (linkedDir g2.port? g2.lk .outgoing)
      rw [hpt2, hlk2, hlkc, hlc2, hlc1]; exact h.outCount
    · show g2.linkCount = cnt g2.portMeta.length (linkedDir g2.port? g2.lk .incoming)
      rw [hpt2, hlk2, hlkc, hlc2, hlc1]; exact h.inCount
  · show g2.nodeCount + 1 = _; rw [hnc2, hnc1]
  · show g2.portCount + (inc + out) = _; rw [hpc2, hpc1]
  · show g2.linkCount = _; rw [hlc2, hlc1]
  · show g.nodeMeta.length ≤ (g2.nodeMeta.set n _).length; rw [List.length_set, hnm2]; exact hle1
  · exact hle2
  · intro hf; exact (hcase hf).1
  · intro hf
    have := hcase2 hf
    have h2 : g1.nodeMeta.length = g.nodeMeta.length := this.2
    omega

theorem Inv.linv {g : PG} (h : Inv g) : LInv g := by
  obtain ⟨own, fs, hP, hfull⟩ := h.slots
  exact ⟨h.len, hP.links, h.outCount, h.inCount⟩

theorem Inv.slab_free {g : PG} (h : Inv g) {n m} (hn : g.node? n = some m) :
    ∀ p, m.first ≤ p → p < m.first + m.capacity → g.port? p = none → g.lk p = none := by
  obtain ⟨own, fs, hP, hfull⟩ := h.slots
  intro p h1 h2 h3
  rcases Nat.lt_or_ge p (m.first + m.incoming + m.outgoing) with h4 | h4
  · obtain ⟨d, hd⟩ := hP.pt_used hn h1 h4; rw [h3] at hd; simp at hd
  · exact hP.unused n m hn p h4 h2

theorem Inv.cnt_slab {g : PG} (h : Inv g) {n m} (hn : g.node? n = some m) :
    g.portCount = cnt g.portMeta.length
      (fun p => (if inRange m.first m.capacity p then none else g.port? p).isSome) + m.portCount := by
  obtain ⟨own, fs, hP, hfull⟩ := h.slots
  have hb := hP.bound n m hn
  rw [h.portCount]
  apply cnt_insert_range (a := m.first) (k := m.portCount)
  · simp [NodeMeta.portCount]; omega
  · intro i h1 h2
    simp only [NodeMeta.portCount] at h2
    rw [if_pos (by simp; omega)]; rfl
  · intro i h1 h2
    simp only [NodeMeta.portCount] at h2
    obtain ⟨d, hd⟩ := hP.pt_used hn h1 (by omega)
    simp [hd]
  · intro j _ hj
    simp only [NodeMeta.portCount] at hj
    by_cases e : inRange m.first m.capacity j = true
    · rw [if_pos e]
      rw [inRange_iff] at e
      cases hx : g.port? j with
      | none => rfl
      | some x =>
        obtain ⟨n', d⟩ := x
        have := hP.pt_slab hn e.1 e.2 hx
        omega
    · rw [if_neg e]

/-- Effect of `remove_node` on a live node. -/
theorem removeNode_full {g : PG} (h : Inv g) {n m} (hn : g.node? n = some m) :
    ∃ g', g.removeNode n = some g' ∧ Inv g' ∧ g'.node? = upd g.node? n none ∧
      g'.port? = (fun p => if inRange m.first m.capacity p then none else g.port? p) ∧
      (∀ p, (g'.port? p).isSome → g'.lk p = cut g.port? g.lk (inRange m.first m.capacity) p) ∧
      g'.nodeCount + 1 = g.nodeCount ∧ g'.portCount + (m.incoming + m.outgoing) = g.portCount ∧
      g'.nodeFree = some n ∧ g'.nodeMeta.length = g.nodeMeta.length ∧
      g'.portMeta.length = g.portMeta.length ∧
      ∃ fs, Frees g fs ∧ Frees g' (if m.capacity = 0 then fs else upd fs m.capacity (m.first :: fs m.capacity)) := by
  obtain ⟨fn, hN⟩ := h.nodes
  obtain ⟨own, fs, hP, hfull⟩ := h.slots
  have hb := hP.bound n m hn
  have hlen := h.len
  have hrm := hP.removeNode hn
  obtain ⟨g1, ha, hnd1, hpm1, hpl1, hpf1, hnc1, hpc1, hlc1, hpos, hnf1, hnl1, hN1⟩ := freeNode_ok hN hn
  have hport1 : g1.port? = g.port? := by funext p; simp [PG.port?, hpm1]
  have hlk1 : g1.lk = g.lk := by funext p; simp [PG.lk, hpl1]
  have hhd1 : g1.heads = g.heads := by funext p; simp [PG.heads, hpf1]
  have hcs := h.cnt_slab hn
  by_cases hc0 : 0 < m.capacity
  · obtain ⟨g2, h2, hpt2, hlk2, -, hhd2, -, hpl2, hpm2, hnm2, hnf2, hnc2, hpc2, hlc2⟩ :=
      freePorts_ok (g := { g1 with
          nodeCount := g1.nodeCount - 1
          portCount := g1.portCount - m.portCount })
        ⟨by show g1.portLink.length = g1.portMeta.length; rw [hpl1, hpm1]; exact hlen,
         by show ∀ p n d q, g1.port? p = _ → g1.lk p = _ → g1.lk q = _ ∧ ∃ n', g1.port? q = _
            rw [hport1, hlk1]; exact hP.links,
         by show g1.linkCount = cnt g1.portMeta.length (linkedDir g1.port? g1.lk _)
            rw [hlc1, hpm1, hport1, hlk1]; exact h.outCount,
         by show g1.linkCount = cnt g1.portMeta.length (linkedDir g1.port? g1.lk _)
            rw [hlc1, hpm1, hport1, hlk1]; exact h.inCount⟩
        m.first m.capacity (by show _ ≤ g1.portMeta.length; rw [hpm1]; exact hb.2.1)
        (by show ∀ p, _ → _ → g1.port? p = none → g1.lk p = none
            rw [hport1, hlk1]; exact h.slab_free hn)
    have hpt2' : g2.port? = fun p => if inRange m.first m.capacity p then none else g.port? p := by
      rw [hpt2]; funext p; rw [← hport1]; rfl
    have hlk2' : g2.lk = upd (cut g.port? g.lk (inRange m.first m.capacity)) m.first (g.heads m.capacity) := by
      rw [hlk2 hc0, ← hport1, ← hlk1, ← hhd1]; rfl
    have hhd2' : g2.heads = upd g.heads m.capacity (some m.first) := by
      rw [hhd2 hc0, ← hhd1]; rfl
    have hnd2 : g2.node? = upd g.node? n none := by
      rw [← hnd1]; funext j; simp [PG.node?, hnm2]
    have hpm2' : g2.portMeta.length = g.portMeta.length := by rw [hpm2]; show g1.portMeta.length = _; rw [hpm1]
    have hpc2' : g2.portCount = g.portCount - m.portCount := by
      rw [hpc2]; show g1.portCount - _ = _; rw [hpc1]
    have hpcl : m.portCount ≤ g.portCount := by omega
    refine ⟨g2, ?_, ?_, hnd2, hpt2', ?_, ?_, ?_, ?_, ?_, hpm2', fs, hP.chain, by
      rw [if_neg (by omega)]
      unfold Frees
      rw [hlk2', hhd2']
      exact (hrm.pushSlab (f := m.first) (s := m.capacity) hc0 hb.2.1 (by intro p h1 h2; simp [h1, h2])).chain⟩
    · simp only [PG.removeNode, hn, ha]
      rw [if_neg (by omega), if_pos hc0, if_pos, h2]
      refine ⟨?_, ?_, ?_⟩
      · show m.portCount ≤ g1.portCount; rw [hpc1]; exact hpcl
      · show _ ≤ g1.portLink.length; rw [hpl1]; omega
      · show _ ≤ g1.portMeta.length; rw [hpm1]; omega
    · have hpush := hrm.pushSlab (f := m.first) (s := m.capacity) hc0 hb.2.1 (by
        intro p h1 h2; simp [h1, h2])
      have hlc : ∀ d, g2.linkCount = cnt g2.portMeta.length (linkedDir g2.port? g2.lk d) := by
        intro d
        rw [hlc2 d]
        show cnt g1.portMeta.length _ = _
        rw [hpm2', show g1.portMeta.length = g.portMeta.length by rw [hpm1]]
        apply cnt_congr
        intro i _
        show linkedDir (fun p => if inRange m.first m.capacity p then none else g1.port? p)
          (cut g1.port? g1.lk (inRange m.first m.capacity)) d i = _
        rw [hport1, hlk1, hpt2', hlk2']
        apply linkedDir_congr rfl
        intro hsome
        have : i ≠ m.first := by
          rintro rfl
          rw [if_pos (by simp; omega)] at hsome; simp at hsome
        simp [upd, this]
      refine ⟨?_, ⟨n :: fn, ?_⟩, ?_, ?_, hlc _, hlc _⟩
      · rw [hpm2', hpl2]; show g1.portLink.length = _; rw [hpl1]; exact hlen
      · rw [hnm2, hnf2, hnc2]; show NInv g1.nodeMeta g1.nodeFree (g1.nodeCount - 1) _; rw [hnc1]; exact hN1
      · rw [hpm2', hnd2, hpt2', hlk2', hhd2']
        refine ⟨_, _, hpush, fun p hp => ?_⟩
        split
        · simp
        · exact hfull p hp
      · rw [hpc2', hpm2', hpt2', hcs]; exact Nat.add_sub_cancel _ _
    · intro p hp
      rw [hlk2']
      have : p ≠ m.first := by
        rintro rfl
        rw [hpt2'] at hp
        simp only at hp
        rw [if_pos (by simp; omega)] at hp; simp at hp
      simp [upd, this]
    · rw [hnc2]; show g1.nodeCount - 1 + 1 = _; omega
    · rw [hpc2']; simp only [NodeMeta.portCount] at *; omega
    · rw [hnf2]; exact hnf1
    · rw [hnm2]; exact hnl1
  · have hc0' : m.capacity = 0 := by omega
    have hr : ∀ p, inRange m.first m.capacity p = false := by intro p; simp [inRange, hc0']
    have hr' : inRange m.first m.capacity = fun _ => false := funext hr
    rw [hr', cut_false] at hrm
    simp only [Bool.false_eq_true, if_false] at hrm
    refine ⟨{ g1 with nodeCount := g1.nodeCount - 1 }, ?_, ?_, hnd1, ?_, ?_, ?_, ?_, hnf1, hnl1, ?_, fs, hP.chain, ?_⟩
    · simp only [PG.removeNode, hn, ha]
      rw [if_neg (by omega), if_neg hc0]
    · refine ⟨by show g1.portLink.length = g1.portMeta.length; rw [hpl1, hpm1]; exact hlen, ⟨n :: fn, ?_⟩,
        ⟨own, fs, ?_⟩, ?_, ?_, ?_⟩
      · show NInv g1.nodeMeta g1.nodeFree (g1.nodeCount - 1) _; rw [hnc1]; exact hN1
      · show PInv g1.portMeta.length g1.node? g1.port? g1.lk g1.heads _ _ ∧ ∀ p < g1.portMeta.length, _
        rw [hpm1, hnd1, hport1, hlk1, hhd1]; exact ⟨hrm, hfull⟩
      · show g1.portCount = cnt g1.portMeta.length fun p => (g1.port? p).isSome
        rw [hpc1, hpm1, hport1]; exact h.portCount
      · show g1.linkCount = cnt g1.portMeta.length (linkedDir g1.port? g1.lk _)
        rw [hlc1, hpm1, hport1, hlk1]; exact h.outCount
      · show g1.linkCount = cnt g1.portMeta.length (linkedDir g1.port? g1.lk _)
        rw [hlc1, hpm1, hport1, hlk1]; exact h.inCount
    · simp only [hr]
      show g1.port? = _
      rw [hport1]; rfl
    · intro p _
      show g1.lk p = _
      rw [hr', cut_false, hlk1]
    · show g1.nodeCount - 1 + 1 = _; omega
    · show g1.portCount + _ = _; rw [hpc1]; omega
    · show g1.portMeta.length = _; rw [hpm1]
    · rw [if_pos hc0']
      show ∀ s, 0 < s → Chain g1.lk (g1.heads s) (fs s)
      rw [hlk1, hhd1]; exact hP.chain

theorem removeNode_ok {g : PG} (h : Inv g) {n m} (hn : g.node? n = some m) :
    ∃ g', g.removeNode n = some g' ∧ Inv g' ∧ g'.node? = upd g.node? n none ∧
      g'.port? = (fun p => if inRange m.first m.capacity p then none else g.port? p) ∧
      (∀ p, (g'.port? p).isSome → g'.lk p = cut g.port? g.lk (inRange m.first m.capacity) p) ∧
      g'.nodeCount + 1 = g.nodeCount ∧ g'.portCount + (m.incoming + m.outgoing) = g.portCount ∧
      g'.nodeFree = some n ∧ g'.nodeMeta.length = g.nodeMeta.length ∧
      g'.portMeta.length = g.portMeta.length := by
  obtain ⟨g', a1, a2, a3, a4, a5, a6, a7, a8, a9, a10, -⟩ := removeNode_full h hn
  exact ⟨g', a1, a2, a3, a4, a5, a6, a7, a8, a9, a10⟩

theorem removeNode_none {g : PG} {n} (hn : g.node? n = none) : g.removeNode n = some g := by
  simp [PG.removeNode, hn]

end Verif.PG
