import Verif.PortGraph.OpsResize

/-! Effect of `set_num_ports`. -/

namespace Verif.PG

open Verif (Direction)

/-- Links after the dropped ports have been unlinked. -/
def droppedLk (g : PG) (m : NodeMeta) (inc out : Nat) : Nat → Option Nat :=
  cut g.port? g.lk (fun i => decide (i ∈ PG.droppedPorts m inc out))

/-- Effect of a resize on the induced functions. -/
structure ResizeEffect (g g' : PG) (n inc out : Nat) (m nm : NodeMeta) : Prop where
  node : g'.node? = upd g.node? n (some nm)
  hinc : nm.incoming = inc
  hout : nm.outgoing = out
  port : g'.port? = reclaimed g.port? n m nm
  link : ∀ p, (g'.port? p).isSome → g'.lk p = relinked g.port? (droppedLk g m inc out) m nm p
  nodeCount : g'.nodeCount = g.nodeCount
  portCount : g'.portCount + (m.incoming + m.outgoing) = g.portCount + (inc + out)
  nodeLen : g'.nodeMeta.length = g.nodeMeta.length
  nodeFree : g'.nodeFree = g.nodeFree

/-- The trace of the callbacks for the dropped ports. -/
def DropTrace (g : PG) (m : NodeMeta) (inc out : Nat) (tr : List (Nat × PortOp)) : Prop :=
  ∀ i : Nat, tr[i]? = ((PG.droppedPorts m inc out)[i]?).map fun p =>
    (p, .removed (cut g.port? g.lk (fun j => decide (j ∈ (PG.droppedPorts m inc out).take i)) p))

theorem NInv.setNode {nm head c fn n m m'} (h : NInv nm head c fn) (hn : nm[n]? = some (.node m)) :
    NInv (nm.set n (.node m')) head c fn := by
  have hlt : n < nm.length := by
    rcases Nat.lt_or_ge n nm.length with h1 | h1
    · exact h1
    · rw [List.getElem?_eq_none h1] at hn; simp at hn
  have hnot : n ∉ fn := by
    intro hc; obtain ⟨a, b, hab⟩ := (h.exact n).1 hc; rw [hn] at hab; simp at hab
  refine ⟨?_, ?_, h.nodup, ?_⟩
  · apply h.chain.congr
    intro x hx
    have : n ≠ x := by rintro rfl; exact hnot hx
    simp [List.getElem?_set_ne this]
  · intro j
    rw [h.exact]
    by_cases e : n = j
    · subst e; rw [hn]; simp [hlt]
    · rw [List.getElem?_set_ne e]
  · show c = cnt (nm.set n (.node m')).length fun i => isNode (nm.set n (.node m'))[i]?
    rw [h.count', List.length_set]
    apply cnt_congr
    intro i _
    by_cases e : n = i
    · subst e; rw [hn]; simp [isNode, hlt]
    · rw [List.getElem?_set_ne e]

theorem inRange_disj {a k b j : Nat} (h : ∀ p, ¬ ((a ≤ p ∧ p < a + k) ∧ b ≤ p ∧ p < b + j)) :
    disj a b (min k j) := by
  unfold disj
  apply Classical.byContradiction
  intro hc
  exact h (max a b) (by omega)

/-- The in-place moves and the final fills compute `relinked`. -/
theorem inplace_lk {len nd pt lk heads own fs} (hP : PInv len nd pt lk heads own fs) {n} {m nm : NodeMeta}
    (hn : nd n = some m) (e1 : nm.first = m.first) (e4 : nm.capacity = m.capacity)
    (hb' : nm.incoming + nm.outgoing ≤ nm.capacity)
    (hdrop : ∀ d p, m.has d p = true → nm.numPorts d ≤ p - m.start d → lk p = none) (p : Nat) :
    (if inRange (nm.first + nm.portCount) (m.portCount - nm.portCount) p then none
     else if inRange (nm.start .outgoing + m.outgoing) (nm.outgoing - m.outgoing) p then none
     else if inRange (nm.start .incoming + m.incoming) (nm.incoming - m.incoming) p then none
     else moved pt lk (m.start .outgoing) (nm.start .outgoing) (min m.outgoing nm.outgoing) p) =
    relinked pt lk m nm p := by
  have hb := hP.bound n m hn
  have hstart : ∀ x : NodeMeta, x.start .incoming = x.first ∧ x.start .outgoing = x.first + x.incoming ∧
      x.numPorts .incoming = x.incoming ∧ x.numPorts .outgoing = x.outgoing := fun x => ⟨rfl, rfl, rfl, rfl⟩
  have hsm := hstart m
  have hsn := hstart nm
  have hpm : m.portCount = m.outgoing + m.incoming := rfl
  have hpn : nm.portCount = nm.outgoing + nm.incoming := rfl
  -- what links point to
  have hval : ∀ p n' d q, pt p = some (n', d) → lk p = some q →
      (d = .incoming → slide (m.start .outgoing) (nm.start .outgoing) (min m.outgoing nm.outgoing) q = shift m nm q) ∧
      (d = .outgoing → shift m nm q = q) := by
    intro p n' d q hp hq
    obtain ⟨h4, n'', h5⟩ := hP.links p n' d q hp hq
    constructor
    · rintro rfl
      simp only [Direction.reverse] at h5
      by_cases e : n'' = n
      · subst e
        have hh := (hP.ports_has hn).1 h5
        have hh' := NodeMeta.has_iff.1 hh
        have : q - m.start .outgoing < nm.numPorts .outgoing := by
          apply Classical.byContradiction
          intro hc
          rw [hdrop .outgoing q hh (by omega)] at h4; simp at h4
        rw [shift_has hh, slide, if_pos (by simp; omega)]
      · have hno : ∀ d, m.has d q = false := by
          intro d'
          cases e2 : m.has d' q with
          | false => rfl
          | true =>
            have := (hP.ports_has hn).2 e2
            rw [h5] at this; simp at this; exact absurd this.1 e
        rw [shift_other hno, slide, if_neg]
        intro hr
        have hr := inRange_iff.1 hr
        have := hno .outgoing
        rw [NodeMeta.has_iff.2 (by omega)] at this; simp at this
    · rintro rfl
      simp only [Direction.reverse] at h5
      by_cases e : n'' = n
      · subst e
        have hh := (hP.ports_has hn).1 h5
        have hh' := NodeMeta.has_iff.1 hh
        rw [shift_has hh]; omega
      · apply shift_other
        intro d'
        cases e2 : m.has d' q with
        | false => rfl
        | true =>
          have := (hP.ports_has hn).2 e2
          rw [h5] at this; simp at this; exact absurd this.1 e
  by_cases hs : m.first ≤ p ∧ p < m.first + m.capacity
  · by_cases hin : nm.has .incoming p = true
    · have hh := NodeMeta.has_iff.1 hin
      rw [relinked_has hin, if_neg (by simp; omega), if_neg (by simp; omega)]
      by_cases e : p - nm.start .incoming < m.numPorts .incoming
      · have hmp : m.has .incoming p = true := NodeMeta.has_iff.2 (by omega)
        have hpt := (hP.ports_has hn).2 hmp
        rw [if_neg (by simp; omega), if_pos e, moved, if_neg (by simp; omega),
          if_pos (by simp [isIn, hpt]), show m.start .incoming + (p - nm.start .incoming) = p by omega]
        cases hx : lk p with
        | none => rfl
        | some q => simp [(hval p n .incoming q hpt hx).1 rfl]
      · rw [if_pos (by simp; omega), if_neg e]
    · by_cases hout : nm.has .outgoing p = true
      · have hh := NodeMeta.has_iff.1 hout
        rw [relinked_has hout, if_neg (by simp; omega)]
        by_cases e : p - nm.start .outgoing < m.numPorts .outgoing
        · have hmp : m.has .outgoing (m.start .outgoing + (p - nm.start .outgoing)) = true :=
            NodeMeta.has_iff.2 (by omega)
          have hpt := (hP.ports_has hn).2 hmp
          rw [if_neg (by simp; omega), if_neg (by simp; omega), if_pos e, moved, if_pos (by simp; omega)]
          cases hx : lk (m.start .outgoing + (p - nm.start .outgoing)) with
          | none => rfl
          | some q => simp [(hval _ n .outgoing q hpt hx).2 rfl]
        · rw [if_pos (by simp; omega), if_neg e]
      · have hno : ∀ d, nm.has d p = false := by intro d; cases d <;> simp_all only [Bool.not_eq_true]
        rw [relinked_slab hno (Or.inl (by simpa using hs))]
        have hge : nm.first + nm.incoming + nm.outgoing ≤ p := by
          apply Classical.byContradiction
          intro hc
          obtain ⟨d, hd⟩ := nm.range_dir p (by omega) (by omega)
          have := hno d
          rw [NodeMeta.has_iff.2 hd] at this; simp at this
        by_cases e : p < m.first + m.incoming + m.outgoing
        · rw [if_pos (by simp; omega)]
        · rw [if_neg (by simp; omega), if_neg (by simp; omega), if_neg (by simp; omega), moved,
            if_neg (by simp; omega), hP.unused n m hn p (by omega) hs.2]
          simp
  · have hs' : inRange m.first m.capacity p = false := by rw [inRange_eq_false]; exact hs
    have hs'' : inRange nm.first nm.capacity p = false := by rw [inRange_eq_false]; omega
    rw [relinked_other (NodeMeta.not_has hb' hs'') hs' hs'', if_neg (by simp; omega), if_neg (by simp; omega),
      if_neg (by simp; omega), moved, if_neg (by simp; omega)]
    cases hpt : pt p with
    | none => simp [isIn, hpt]
    | some x =>
      obtain ⟨n', d⟩ := x
      cases hx : lk p with
      | none => simp
      | some q =>
        have := hval p n' d q hpt hx
        cases d
        · simp [isIn, hpt, this.1 rfl]
        · simp [isIn, hpt, this.2 rfl]

theorem inplace_port {len nd pt lk heads own fs} (hP : PInv len nd pt lk heads own fs) {n} {m nm : NodeMeta}
    (hn : nd n = some m) (e1 : nm.first = m.first) (e4 : nm.capacity = m.capacity)
    (hb' : nm.incoming + nm.outgoing ≤ nm.capacity) (p : Nat) :
    (if inRange (nm.first + nm.portCount) (m.portCount - nm.portCount) p then none
     else if inRange (nm.start .outgoing + m.outgoing) (nm.outgoing - m.outgoing) p then some (n, Direction.outgoing)
     else if inRange (nm.start .incoming + m.incoming) (nm.incoming - m.incoming) p then some (n, Direction.incoming)
     else if inRange (nm.start .outgoing) (min m.outgoing nm.outgoing) p then some (n, Direction.outgoing)
     else pt p) = reclaimed pt n m nm p := by
  have hb := hP.bound n m hn
  have hstart : ∀ x : NodeMeta, x.start .incoming = x.first ∧ x.start .outgoing = x.first + x.incoming ∧
      x.numPorts .incoming = x.incoming ∧ x.numPorts .outgoing = x.outgoing := fun x => ⟨rfl, rfl, rfl, rfl⟩
  have hsm := hstart m
  have hsn := hstart nm
  have hpm : m.portCount = m.outgoing + m.incoming := rfl
  have hpn : nm.portCount = nm.outgoing + nm.incoming := rfl
  by_cases hs : m.first ≤ p ∧ p < m.first + m.capacity
  · by_cases hin : nm.has .incoming p = true
    · have hh := NodeMeta.has_iff.1 hin
      rw [reclaimed_has hin, if_neg (by simp; omega), if_neg (by simp; omega)]
      by_cases e : p - nm.start .incoming < m.numPorts .incoming
      · have hmp : m.has .incoming p = true := NodeMeta.has_iff.2 (by omega)
        have hpt := (hP.ports_has hn).2 hmp
        rw [if_neg (by simp; omega), if_neg (by simp; omega), hpt]
      · rw [if_pos (by simp; omega)]
    · by_cases hout : nm.has .outgoing p = true
      · have hh := NodeMeta.has_iff.1 hout
        rw [reclaimed_has hout, if_neg (by simp; omega)]
        by_cases e : p - nm.start .outgoing < m.numPorts .outgoing
        · rw [if_neg (by simp; omega), if_neg (by simp; omega), if_pos (by simp; omega)]
        · rw [if_pos (by simp; omega)]
      · have hno : ∀ d, nm.has d p = false := by intro d; cases d <;> simp_all only [Bool.not_eq_true]
        rw [reclaimed_slab hno (by simpa using hs)]
        have hge : nm.first + nm.incoming + nm.outgoing ≤ p := by
          apply Classical.byContradiction
          intro hc
          obtain ⟨d, hd⟩ := nm.range_dir p (by omega) (by omega)
          have := hno d
          rw [NodeMeta.has_iff.2 hd] at this; simp at this
        by_cases e : p < m.first + m.incoming + m.outgoing
        · rw [if_pos (by simp; omega)]
        · rw [if_neg (by simp; omega), if_neg (by simp; omega), if_neg (by simp; omega),
            if_neg (by simp; omega)]
          cases hx : pt p with
          | none => rfl
          | some x =>
            obtain ⟨n', d⟩ := x
            have := (hP.pt_slab hn hs.1 hs.2 hx).2.2.2
            omega
  · have hs' : inRange m.first m.capacity p = false := by rw [inRange_eq_false]; exact hs
    have hs'' : inRange nm.first nm.capacity p = false := by rw [inRange_eq_false]; omega
    rw [reclaimed_other (NodeMeta.not_has hb' hs'') hs', if_neg (by simp; omega), if_neg (by simp; omega),
      if_neg (by simp; omega), if_neg (by simp; omega)]

theorem resizeInplace_full {g : PG} (h : Inv g) {n m inc out} (hn : g.node? n = some m)
    (hinc : inc ≤ 65534) (htot : inc + out < m.capacity) :
    ∃ g' tr1 tr2, g.resizeInplace n inc out = some (g', tr1 ++ tr2) ∧ Inv g' ∧
      ResizeEffect g g' n inc out m ⟨m.first, inc, out, m.capacity⟩ ∧ DropTrace g m inc out tr1 ∧
      ((inc < m.incoming ∧
        tr2 = ((m.ports .outgoing).zip ((⟨m.first, inc, out, m.capacity⟩ : NodeMeta).ports .outgoing)).map
          (fun x => (x.1, .moved x.2))) ∨
       (m.incoming ≤ inc ∧ tr2 = ((m.ports .outgoing).zip ((⟨m.first, inc, out, m.capacity⟩ : NodeMeta).ports .outgoing)).reverse.map
          (fun x => (x.1, .moved x.2)))) ∧
      ∃ g1 fs, g.dropPorts (PG.droppedPorts m inc out) = some (g1, tr1) ∧ Frees g1 fs ∧ Frees g' fs := by
  obtain ⟨own0, fs0, hP0, hfull⟩ := h.slots
  have hb0 := hP0.bound n m hn
  have hnew : NodeMeta.new? m.first (inc % 65536) (out % 65536) (m.capacity % 65536) =
      some ⟨m.first, inc, out, m.capacity⟩ := by
    rw [Nat.mod_eq_of_lt (by omega), Nat.mod_eq_of_lt (by omega), Nat.mod_eq_of_lt (by omega)]
    exact NodeMeta.new?_eq hinc (by omega) (by omega) (Or.inl (by omega))
  have hdropport : ∀ p ∈ PG.droppedPorts m inc out, (g.port? p).isSome := by
    intro p hp
    rcases mem_droppedPorts.1 hp with ⟨h1, -⟩ | ⟨h1, -⟩ <;> rw [(hP0.ports_has hn).2 h1] <;> rfl
  obtain ⟨g1, tr1, hd1, hI1, hnm1, hpm1, hlk1, hnf1, hpf1, hnc1, hpc1, htr1⟩ := dropPorts_ok h _ hdropport
  have hport1 : g1.port? = g.port? := by funext p; simp [PG.port?, hpm1]
  have hnode1 : g1.node? = g.node? := by funext p; simp [PG.node?, hnm1]
  have hlk1' : g1.lk = droppedLk g m inc out := hlk1
  obtain ⟨own, fs, hP, hfull⟩ := hI1.slots
  have hn1 : g1.node? n = some m := by rw [hnode1]; exact hn
  have hlen1 := hI1.len
  have hb := hP.bound n m hn1
  -- dropped ports carry no link
  have hdrop : ∀ d p, m.has d p = true → (⟨m.first, inc, out, m.capacity⟩ : NodeMeta).numPorts d ≤ p - m.start d →
      g1.lk p = none := by
    intro d p h1 h2
    have : p ∈ PG.droppedPorts m inc out := by
      rw [mem_droppedPorts]
      cases d
      · left; exact ⟨h1, h2⟩
      · right; exact ⟨h1, h2⟩
    rw [hlk1]; simp [cut, this]
  generalize hnmdef : (⟨m.first, inc, out, m.capacity⟩ : NodeMeta) = nm at *
  have e1 : nm.first = m.first := by rw [← hnmdef]
  have e2 : nm.incoming = inc := by rw [← hnmdef]
  have e3 : nm.outgoing = out := by rw [← hnmdef]
  have e4 : nm.capacity = m.capacity := by rw [← hnmdef]
  have hstart : ∀ x : NodeMeta, x.start .incoming = x.first ∧ x.start .outgoing = x.first + x.incoming ∧
      x.numPorts .incoming = x.incoming ∧ x.numPorts .outgoing = x.outgoing := fun x => ⟨rfl, rfl, rfl, rfl⟩
  have hsm := hstart m
  have hsn := hstart nm
  -- the move loop
  have hmov : Movable g1.port? g1.lk n (m.start .outgoing) (nm.start .outgoing) (min m.outgoing nm.outgoing) := by
    refine ⟨?_, ?_, ?_⟩
    · intro p h1 h2
      exact (hP.ports_has hn1).2 (NodeMeta.has_iff.2 ⟨h1, by omega⟩)
    · intro p q h1 h2 h3
      have hp : g1.port? p = some (n, .outgoing) := (hP.ports_has hn1).2 (NodeMeta.has_iff.2 ⟨h1, by omega⟩)
      obtain ⟨h4, n', h5⟩ := hP.links p n .outgoing q hp h3
      refine ⟨by simp [isIn, h5, Direction.reverse], h4, ?_⟩
      intro h6
      obtain ⟨rfl, h7, h8, -⟩ := hP.pt_slab hn1 (by omega) (by omega) h5
      simp only [Direction.reverse] at h7 h8
      rw [hdrop .incoming q (NodeMeta.has_iff.2 ⟨h7, h8⟩) (by omega)] at h4
      simp at h4
    · intro q p h1 h2 h3 h4
      unfold isIn at h1
      split at h1
      · rename_i n' hq; exact (hP.links q n' .incoming p hq h2).1
      · simp at h1
  have hmoves : ∃ g2 tr2, g1.movePorts (if inc < m.incoming then (m.ports .outgoing).zip (nm.ports .outgoing)
        else ((m.ports .outgoing).zip (nm.ports .outgoing)).reverse) = some (g2, tr2) ∧
      g2 = { g1 with portLink := g2.portLink, portMeta := g2.portMeta } ∧
      g2.portLink.length = g1.portLink.length ∧ g2.portMeta.length = g1.portMeta.length ∧
      g2.port? = (fun p => if inRange (nm.start .outgoing) (min m.outgoing nm.outgoing) p then some (n, .outgoing) else g1.port? p) ∧
      g2.lk = moved g1.port? g1.lk (m.start .outgoing) (nm.start .outgoing) (min m.outgoing nm.outgoing) ∧
      ((inc < m.incoming ∧ tr2 = ((m.ports .outgoing).zip (nm.ports .outgoing)).map (fun x => (x.1, .moved x.2))) ∨
       (m.incoming ≤ inc ∧
        tr2 = ((m.ports .outgoing).zip (nm.ports .outgoing)).reverse.map (fun x => (x.1, .moved x.2)))) := by
    have hz : (m.ports .outgoing).zip (nm.ports .outgoing) =
        (List.range' (m.start .outgoing) (min m.outgoing nm.outgoing)).zip
          (List.range' (nm.start .outgoing) (min m.outgoing nm.outgoing)) := by
      simp only [NodeMeta.ports]; rw [zip_range']; rfl
    split
    · obtain ⟨g2, a1, a2, a3, a4, a5, a6⟩ := movePorts_left (by omega) hmov hlen1 (by omega)
      exact ⟨g2, _, by rw [hz]; exact a1, a2, a3, a4, a5, a6, Or.inl ⟨by omega, by rw [hz]⟩⟩
    · obtain ⟨g2, a1, a2, a3, a4, a5, a6⟩ := movePorts_right (by omega) hmov hlen1 (by omega)
      exact ⟨g2, _, by rw [hz]; exact a1, a2, a3, a4, a5, a6, Or.inr ⟨by omega, by rw [hz]⟩⟩
  obtain ⟨g2, tr2, hm2, he2, hll2, hml2, hp2, hl2, htr2⟩ := hmoves
  have hnm2 : g2.nodeMeta = g.nodeMeta := by rw [he2]; exact hnm1
  have hpc2 : g2.portCount = g.portCount := by rw [he2]; exact hpc1
  have hcs := h.cnt_slab hn
  have hnlt := PG.node?_lt (g := g) (n := n) (by simp [hn])
  have hpmlen : g1.portMeta.length = g.portMeta.length := by rw [hpm1]
  obtain ⟨g', hg'⟩ : ∃ g' : PG, { g2 with
      portLink := fill (fill (fill g2.portLink (nm.start .incoming + m.incoming) (nm.incoming - m.incoming) none)
          (nm.start .outgoing + m.outgoing) (nm.outgoing - m.outgoing) none)
          (nm.first + nm.portCount) (m.portCount - nm.portCount) none
      portMeta := fill (fill (fill g2.portMeta (nm.start .incoming + m.incoming) (nm.incoming - m.incoming)
            (.port n .incoming))
          (nm.start .outgoing + m.outgoing) (nm.outgoing - m.outgoing) (.port n .outgoing))
          (nm.first + nm.portCount) (m.portCount - nm.portCount) .free
      nodeMeta := g2.nodeMeta.set n (.node nm)
      portCount := g2.portCount - (m.incoming + m.outgoing) + (inc + out) } = g' := ⟨_, rfl⟩
  have heq : g.resizeInplace n inc out = some (g', tr1 ++ tr2) := by
    unfold PG.resizeInplace
    rw [hn]
    simp only
    rw [hnew]
    simp only
    rw [hd1]
    simp only
    rw [hm2]
    simp only
    rw [if_pos (by
      simp only [NodeMeta.portCount] at *
      rw [hpc2, hnm2]
      refine ⟨?_, ?_, ?_, ?_, hnlt, ?_⟩ <;> omega), ← hg']
  -- the induced functions of the result
  have hnode' : g'.node? = upd g.node? n (some nm) := by
    rw [← hg']
    have := node?_set (g := g2) (n := n) (m := nm) (by rw [hnm2]; exact hnlt)
    refine Eq.trans this ?_
    congr 1
    funext j; simp [PG.node?, hnm2]
  have hlk' : g'.lk = relinked g1.port? g1.lk m nm := by
    rw [← hg']
    funext p
    refine Eq.trans (lk_fill_none (g := { g2 with
      portLink := fill (fill g2.portLink (nm.start .incoming + m.incoming) (nm.incoming - m.incoming) none)
        (nm.start .outgoing + m.outgoing) (nm.outgoing - m.outgoing) none }) p) ?_
    rw [lk_fill_none (g := { g2 with
      portLink := fill g2.portLink (nm.start .incoming + m.incoming) (nm.incoming - m.incoming) none }) p,
      lk_fill_none (g := g2) p, hl2]
    exact inplace_lk hP hn1 e1 e4 (by omega) hdrop p
  have hport' : g'.port? = reclaimed g1.port? n m nm := by
    rw [← hg']
    funext p
    refine Eq.trans (port?_fill_free (g := { g2 with
      portMeta := fill (fill g2.portMeta (nm.start .incoming + m.incoming) (nm.incoming - m.incoming) (.port n .incoming))
        (nm.start .outgoing + m.outgoing) (nm.outgoing - m.outgoing) (.port n .outgoing) }) p) ?_
    rw [port?_fill (g := { g2 with
      portMeta := fill g2.portMeta (nm.start .incoming + m.incoming) (nm.incoming - m.incoming) (.port n .incoming) })
        (by simp; omega) p,
      port?_fill (g := g2) (by omega) p, hp2]
    exact inplace_port hP hn1 e1 e4 (by omega) p
  have hlink' : g'.portLink.length = g.portMeta.length := by rw [← hg']; simp; omega
  have hmeta' : g'.portMeta.length = g.portMeta.length := by rw [← hg']; simp; omega
  have hheads' : g'.heads = g1.heads := by
    rw [← hg', he2]; rfl
  have hnm' : g'.nodeMeta = g.nodeMeta.set n (.node nm) := by rw [← hg', ← hnm2]
  have hnf' : g'.nodeFree = g.nodeFree := by rw [← hg', he2]; exact hnf1
  have hnc' : g'.nodeCount = g.nodeCount := by rw [← hg', he2]; exact hnc1
  have hpc' : g'.portCount = g.portCount - (m.incoming + m.outgoing) + (inc + out) := by rw [← hg', ← hpc2]
  have hlc' : g'.linkCount = g1.linkCount := by rw [← hg', he2]
  have hpmc : m.portCount = m.outgoing + m.incoming := rfl
  have hpnc : nm.portCount = nm.outgoing + nm.incoming := rfl
  have hown : ∀ p, nm.first ≤ p → p < nm.first + nm.capacity → own p = .none ∨ own p = .node n := by
    intro p h1 h2
    exact Or.inr (hP.ownNode n m hn1 p (by omega) (by omega))
  have hfrees : Frees g' fs := by
    have := (hP.replace hn1 (nm := nm) (by omega) hown hdrop).chain
    intro s hs
    rw [hlk', hheads']
    exact this s hs
  refine ⟨g', tr1, tr2, heq, ?_, ?_, htr1, htr2, g1, fs, hd1, hP.chain, hfrees⟩
  · refine ⟨by omega, ?_, ?_, ?_, ?_, ?_⟩
    · obtain ⟨fn, hfn⟩ := h.nodes
      refine ⟨fn, ?_⟩
      rw [hnm', hnf', hnc']
      exact hfn.setNode (PG.node?_eq.1 hn)
    · have := hP.replace hn1 (nm := nm) (by omega) hown hdrop
      rw [hmeta', hnode', hport', hlk', hheads', ← hpmlen, ← hnode1]
      refine ⟨_, _, this, fun p hp => ?_⟩
      split
      · simp
      · next hr =>
        rw [if_neg (by simp at hr ⊢; omega)]
        exact hfull p hp
    · rw [hmeta', hport', hpc', ← hpmlen, cnt_reclaimed (by omega) (by
        intro p h1 h2; left; simp; omega), hpmlen, hport1]
      omega
    · rw [hlc', hmeta', hport', hlk', ← hpmlen, cnt_relinked hP hn1 (by omega) hown hdrop]
      exact hI1.outCount
    · rw [hlc', hmeta', hport', hlk', ← hpmlen, cnt_relinked hP hn1 (by omega) hown hdrop]
      exact hI1.inCount
  · refine ⟨hnode', e2, e3, by rw [hport', hport1], ?_, hnc', ?_, by rw [hnm']; simp, hnf'⟩
    · intro p _
      rw [hlk', hport1, hlk1']
    · rw [hpc']; omega

theorem resizeInplace_ok {g : PG} (h : Inv g) {n m inc out} (hn : g.node? n = some m)
    (hinc : inc ≤ 65534) (htot : inc + out < m.capacity) :
    ∃ g' tr1 tr2, g.resizeInplace n inc out = some (g', tr1 ++ tr2) ∧ Inv g' ∧
      ResizeEffect g g' n inc out m ⟨m.first, inc, out, m.capacity⟩ ∧ DropTrace g m inc out tr1 ∧
      ((inc < m.incoming ∧
        tr2 = ((m.ports .outgoing).zip ((⟨m.first, inc, out, m.capacity⟩ : NodeMeta).ports .outgoing)).map
          (fun x => (x.1, .moved x.2))) ∨
       (m.incoming ≤ inc ∧ tr2 = ((m.ports .outgoing).zip ((⟨m.first, inc, out, m.capacity⟩ : NodeMeta).ports .outgoing)).reverse.map
          (fun x => (x.1, .moved x.2)))) := by
  obtain ⟨g', tr1, tr2, h1, h2, h3, h4, h5, -⟩ := resizeInplace_full h hn hinc htot
  exact ⟨g', tr1, tr2, h1, h2, h3, h4, h5⟩

end Verif.PG
