import Verif.PortGraph.OpsSet

/-! The reallocating branch of `set_num_ports`. -/

namespace Verif.PG

open Verif (Direction)

theorem swapR_id {a b k p : Nat} (h1 : ¬ (a ≤ p ∧ p < a + k)) (h2 : ¬ (b ≤ p ∧ p < b + k)) :
    swapR a b k p = p := by
  rw [swapR, if_neg (by simpa using h1), if_neg (by simpa using h2)]

theorem swapR_left {a b k p : Nat} (h1 : a ≤ p ∧ p < a + k) : swapR a b k p = b + (p - a) := by
  rw [swapR, if_pos (by simpa using h1)]

theorem swapR_right {a b k p : Nat} (hd : disj a b k) (h1 : b ≤ p ∧ p < b + k) :
    swapR a b k p = a + (p - b) := by
  unfold disj at hd
  rw [swapR, if_neg (by simp; omega), if_pos (by simpa using h1)]

theorem claim_has {pt : Nat → Option (Nat × Direction)} {n} {m : NodeMeta} {d p} (h : m.has d p = true) :
    claim pt n m p = some (n, d) := by
  cases d
  · have : inRange (m.start .incoming) (m.numPorts .incoming) p = true := h
    simp [claim, this]
  · have h1 : inRange (m.start .outgoing) (m.numPorts .outgoing) p = true := h
    have h2 : inRange (m.start .incoming) (m.numPorts .incoming) p = false := NodeMeta.has_disj h
    simp [claim, h1, h2]

theorem claim_not {pt : Nat → Option (Nat × Direction)} {n} {m : NodeMeta} {p} (h : ∀ d, m.has d p = false) :
    claim pt n m p = pt p := by
  have h1 : inRange (m.start .incoming) (m.numPorts .incoming) p = false := h .incoming
  have h2 : inRange (m.start .outgoing) (m.numPorts .outgoing) p = false := h .outgoing
  simp [claim, h1, h2]

section
variable {len : Nat} {nd : Nat → Option NodeMeta} {pt : Nat → Option (Nat × Direction)}
  {lk heads : Nat → Option Nat} {own : Nat → Owner} {fs : Nat → List Nat}

/-- Situation after the new slab has been allocated. -/
structure Fresh (len : Nat) (own : Nat → Owner) (lk : Nat → Option Nat) (m nm : NodeMeta) : Prop where
  bound : nm.incoming + nm.outgoing ≤ nm.capacity ∧ nm.first + nm.capacity ≤ len
  hown : ∀ p, nm.first ≤ p → p < nm.first + nm.capacity → own p = .none
  hlk : ∀ p, nm.first ≤ p → p < nm.first + nm.capacity → lk p = none
  drop : ∀ d p, m.has d p = true → nm.numPorts d ≤ p - m.start d → lk p = none

theorem Fresh.disj (hP : PInv len nd pt lk heads own fs) {n} {m nm : NodeMeta} (hn : nd n = some m)
    (hF : Fresh len own lk m nm) (p : Nat) :
    ¬ (inRange m.first m.capacity p = true ∧ inRange nm.first nm.capacity p = true) := by
  rintro ⟨h1, h2⟩
  rw [inRange_iff] at h1 h2
  have e1 := hP.ownNode n m hn p h1.1 h1.2
  rw [hF.hown p h2.1 h2.2] at e1; simp at e1

/-- `p` is a port that is not on the fresh slab. -/
theorem Fresh.notNew (hP : PInv len nd pt lk heads own fs) {m nm : NodeMeta} (hF : Fresh len own lk m nm)
    {p x} (hp : pt p = some x) : ∀ d, nm.has d p = false := by
  obtain ⟨n', d'⟩ := x
  intro d
  apply NodeMeta.not_has hF.bound.1
  rw [inRange_eq_false]
  intro hc
  have := hP.pt_own hp
  rw [hF.hown p hc.1 hc.2] at this; simp at this

theorem Fresh.symLinks (hP : PInv len nd pt lk heads own fs) {n} {m nm : NodeMeta}
    (hF : Fresh len own lk m nm) : SymLinks (claim pt n nm) lk := by
  intro p n' d q hp hq
  have hnot : ∀ d, nm.has d p = false := by
    intro d'
    cases e : nm.has d' p with
    | false => rfl
    | true =>
      have := inRange_iff.1 (NodeMeta.has_slab hF.bound.1 e)
      rw [hF.hlk p this.1 this.2] at hq; simp at hq
  rw [claim_not hnot] at hp
  obtain ⟨h1, n'', h2⟩ := hP.links p n' d q hp hq
  exact ⟨h1, n'', by rw [claim_not (hF.notNew hP h2)]; exact h2⟩

/-- The exchange of the surviving ports of direction `d`. -/
def surv (m nm : NodeMeta) (d : Direction) : Nat → Nat :=
  swapR (m.start d) (nm.start d) (min (m.numPorts d) (nm.numPorts d))

theorem Fresh.disjDir (hP : PInv len nd pt lk heads own fs) {n} {m nm : NodeMeta} (hn : nd n = some m)
    (hF : Fresh len own lk m nm) (d : Direction) :
    Verif.PG.disj (m.start d) (nm.start d) (min (m.numPorts d) (nm.numPorts d)) := by
  apply inRange_disj
  rintro p ⟨h1, h2⟩
  exact hF.disj hP hn p ⟨NodeMeta.has_slab (hP.bound n m hn).1 (NodeMeta.has_iff.2 h1),
    NodeMeta.has_slab hF.bound.1 (NodeMeta.has_iff.2 h2)⟩

theorem surv_id {m nm : NodeMeta} {d p} (h1 : m.has d p = false) (h2 : nm.has d p = false) :
    surv m nm d p = p := by
  have h1' : ¬ (m.start d ≤ p ∧ p < m.start d + m.numPorts d) := by rw [← NodeMeta.has_iff]; simp [h1]
  have h2' : ¬ (nm.start d ≤ p ∧ p < nm.start d + nm.numPorts d) := by rw [← NodeMeta.has_iff]; simp [h2]
  exact swapR_id (by omega) (by omega)

theorem surv_old {m nm : NodeMeta} {d p} (h1 : m.has d p = true) (h2 : p - m.start d < nm.numPorts d) :
    surv m nm d p = nm.start d + (p - m.start d) := by
  rw [NodeMeta.has_iff] at h1
  exact swapR_left (by omega)

theorem surv_new {m nm : NodeMeta} {d p} (hd : Verif.PG.disj (m.start d) (nm.start d) (min (m.numPorts d) (nm.numPorts d)))
    (h1 : nm.has d p = true) (h2 : p - nm.start d < m.numPorts d) :
    surv m nm d p = m.start d + (p - nm.start d) := by
  rw [NodeMeta.has_iff] at h1
  exact swapR_right hd (by omega)

theorem not_other {m : NodeMeta} {d d' p} (h : m.has d p = true) (hne : d' ≠ d) : m.has d' p = false := by
  cases e : m.has d' p with
  | false => rfl
  | true => exact absurd (NodeMeta.has_unique e h) hne

theorem realloc_lk (hP : PInv len nd pt lk heads own fs) {n} {m nm : NodeMeta} (hn : nd n = some m)
    (hF : Fresh len own lk m nm) :
    cut (claim pt n nm) (conj (claim pt n nm) (conj (claim pt n nm) lk (surv m nm .incoming)) (surv m nm .outgoing))
      (inRange m.first m.capacity) = relinked pt lk m nm := by
  have hb := hP.bound n m hn
  have hbn := hF.bound
  -- old and new slab are disjoint
  have hmn : ∀ {p d}, nm.has d p = true → inRange m.first m.capacity p = false ∧ ∀ d', m.has d' p = false := by
    intro p d h
    have : inRange m.first m.capacity p = false := by
      cases e : inRange m.first m.capacity p with
      | false => rfl
      | true => exact absurd ⟨e, NodeMeta.has_slab hbn.1 h⟩ (hF.disj hP hn p)
    exact ⟨this, NodeMeta.not_has hb.1 this⟩
  have hnm' : ∀ {p d}, m.has d p = true → inRange nm.first nm.capacity p = false ∧ ∀ d', nm.has d' p = false := by
    intro p d h
    have : inRange nm.first nm.capacity p = false := by
      cases e : inRange nm.first nm.capacity p with
      | false => rfl
      | true => exact absurd ⟨NodeMeta.has_slab hb.1 h, e⟩ (hF.disj hP hn p)
    exact ⟨this, NodeMeta.not_has hbn.1 this⟩
  -- targets of links
  have htgt : ∀ q, (lk q).isSome → (pt q).isSome → surv m nm .outgoing (surv m nm .incoming q) = shift m nm q ∧
      inRange m.first m.capacity (shift m nm q) = false := by
    intro q h1 h2
    by_cases e : ∃ d, m.has d q = true
    · obtain ⟨d, hd⟩ := e
      have hlt : q - m.start d < nm.numPorts d := by
        apply Classical.byContradiction
        intro hc
        rw [hF.drop d q hd (by omega)] at h1; simp at h1
      have hd' := NodeMeta.has_iff.1 hd
      have hnew : nm.has d (nm.start d + (q - m.start d)) = true := NodeMeta.has_iff.2 (by omega)
      rw [shift_has hd]
      refine ⟨?_, (hmn hnew).1⟩
      cases d
      · rw [surv_old hd hlt, surv_id ((hmn hnew).2 _) (not_other hnew (by simp))]
      · rw [surv_id (not_other hd (by simp)) ((hnm' hd).2 _), surv_old hd hlt]
    · have hno : ∀ d, m.has d q = false := by
        intro d
        cases e' : m.has d q with
        | false => rfl
        | true => exact absurd ⟨d, e'⟩ e
      obtain ⟨x, hx⟩ := Option.isSome_iff_exists.1 h2
      have hno' := hF.notNew hP hx
      rw [shift_other hno, surv_id (hno _) (hno' _), surv_id (hno _) (hno' _)]
      refine ⟨rfl, ?_⟩
      obtain ⟨n', d'⟩ := x
      rw [inRange_eq_false]
      intro hc
      obtain ⟨rfl, h3, h4, -⟩ := hP.pt_slab hn hc.1 hc.2 hx
      have := hno d'
      rw [NodeMeta.has_iff.2 ⟨h3, h4⟩] at this; simp at this
  -- value of the double exchange at a port
  have hval : ∀ p p', surv m nm .incoming (surv m nm .outgoing p) = p' → (claim pt n nm p).isSome →
      (claim pt n nm (surv m nm .outgoing p)).isSome → ((lk p').isSome → (pt p').isSome) →
      inRange m.first m.capacity p = false →
      cut (claim pt n nm) (conj (claim pt n nm) (conj (claim pt n nm) lk (surv m nm .incoming)) (surv m nm .outgoing))
        (inRange m.first m.capacity) p = (lk p').map (shift m nm) := by
    intro p p' hp' h1 h2 h3 h4
    unfold cut
    rw [if_neg (by simp [h4])]
    simp only [conj, h1, h2, if_true]
    rw [hp']
    cases hx : lk p' with
    | none => rfl
    | some q =>
      have hps := h3 (by simp [hx])
      obtain ⟨⟨n', d'⟩, hx'⟩ := Option.isSome_iff_exists.1 hps
      obtain ⟨h5, n'', h6⟩ := hP.links p' n' d' q hx' hx
      obtain ⟨h7, h8⟩ := htgt q (by simp [h5]) (by simp [h6])
      simp [h7, h8]
  funext p
  by_cases hin : ∃ d, nm.has d p = true
  · obtain ⟨d, hd⟩ := hin
    have hd' := NodeMeta.has_iff.1 hd
    rw [relinked_has hd]
    have hcl := claim_has (pt := pt) (n := n) hd
    split
    · rename_i hlt
      have hold : m.has d (m.start d + (p - nm.start d)) = true := NodeMeta.has_iff.2 (by omega)
      have hdj := hF.disjDir hP hn d
      have hpold := (hP.ports_has hn).2 hold
      apply hval
      · cases d
        · rw [surv_id ((hmn hd).2 _) (not_other hd (by simp)), surv_new hdj hd hlt]
        · rw [surv_new hdj hd hlt, surv_id (not_other hold (by simp)) ((hnm' hold).2 _)]
      · simp [hcl]
      · cases d
        · rw [surv_id ((hmn hd).2 _) (not_other hd (by simp))]; simp [hcl]
        · rw [surv_new hdj hd hlt, claim_not (hnm' hold).2, hpold]; rfl
      · intro _; rw [hpold]; rfl
      · exact (hmn hd).1
    · rename_i hlt
      have hids : ∀ d', surv m nm d' p = p := by
        intro d'
        by_cases e : d' = d
        · subst e
          have : ¬ (m.start d' ≤ p ∧ p < m.start d' + m.numPorts d') := by
            rw [← NodeMeta.has_iff, (hmn hd).2]; simp
          exact swapR_id (by omega) (by omega)
        · exact surv_id ((hmn hd).2 _) (not_other hd e)
      have hlkp : lk p = none := by
        have := inRange_iff.1 (NodeMeta.has_slab hbn.1 hd)
        exact hF.hlk p this.1 this.2
      rw [hval p p (by rw [hids, hids]) (by simp [hcl]) (by rw [hids]; simp [hcl]) (by simp [hlkp]) (hmn hd).1, hlkp]
      rfl
  · have hno : ∀ d, nm.has d p = false := by
      intro d
      cases e' : nm.has d p with
      | false => rfl
      | true => exact absurd ⟨d, e'⟩ hin
    by_cases hs : inRange m.first m.capacity p = true
    · rw [relinked_slab hno (Or.inl hs)]
      simp [cut, hs]
    · simp only [Bool.not_eq_true] at hs
      by_cases hs' : inRange nm.first nm.capacity p = true
      · rw [relinked_slab hno (Or.inr hs')]
        have hs'' := inRange_iff.1 hs'
        have hpt : pt p = none := hP.pt_none fun n' => by rw [hF.hown p hs''.1 hs''.2]; simp
        have hlkp := hF.hlk p hs''.1 hs''.2
        simp [cut, conj, claim_not hno, hpt, hlkp]
      · simp only [Bool.not_eq_true] at hs'
        rw [relinked_other hno hs hs']
        have hids : ∀ d', surv m nm d' p = p := fun d' => surv_id (NodeMeta.not_has hb.1 hs d') (hno d')
        cases hpt : pt p with
        | none =>
          have : claim pt n nm p = none := by rw [claim_not hno, hpt]
          simp only [cut, conj, this]
          cases hx : lk p <;> simp [hx, hs]
        | some x =>
          have hcl : (claim pt n nm p).isSome := by rw [claim_not hno, hpt]; rfl
          rw [hval p p (by rw [hids, hids]) hcl (by rw [hids]; exact hcl) (by simp [hpt]) hs]
          simp

theorem realloc_port {n} {m nm : NodeMeta} (hbn : nm.incoming + nm.outgoing ≤ nm.capacity)
    (hd : ∀ p, ¬ (inRange m.first m.capacity p = true ∧ inRange nm.first nm.capacity p = true)) :
    (fun p => if inRange m.first m.capacity p then none else claim pt n nm p) = reclaimed pt n m nm := by
  funext p
  by_cases hin : ∃ d, nm.has d p = true
  · obtain ⟨d, h1⟩ := hin
    have := hd p
    rw [NodeMeta.has_slab hbn h1] at this
    rw [reclaimed_has h1, if_neg (by simpa using this), claim_has h1]
  · have hno : ∀ d, nm.has d p = false := by
      intro d
      cases e' : nm.has d p with
      | false => rfl
      | true => exact absurd ⟨d, e'⟩ hin
    cases hs : inRange m.first m.capacity p with
    | true => rw [reclaimed_slab hno hs]; simp
    | false => rw [reclaimed_other hno hs, claim_not hno]; simp

end

theorem cut_empty {pt : Nat → Option (Nat × Direction)} {lk : Nat → Option Nat} {a : Nat} :
    cut pt lk (inRange a 0) = lk := by
  have : inRange a 0 = fun _ => false := by funext p; rw [inRange_eq_false]; omega
  rw [this, cut_false]

/-- The part of `setNumPorts` after dropping ports, with the new capacity as parameter. -/
theorem realloc_full {g1 : PG} (h1 : Inv g1) {n m} (hn : g1.node? n = some m) {inc out extra : Nat}
    (hinc : inc ≤ 65534) (htot : inc + out + extra ≤ 65535)
    (hdrop : ∀ d p, m.has d p = true → (⟨0, inc, out, 0⟩ : NodeMeta).numPorts d ≤ p - m.start d → g1.lk p = none) :
    ∃ f g2 g4 g5 nm, nm = ⟨f, inc, out, inc + out + extra⟩ ∧ g1.allocPorts n inc out extra = some (nm, g2) ∧
      g2.relocPorts ((m.ports .incoming).zip (nm.ports .incoming) ++ (m.ports .outgoing).zip (nm.ports .outgoing)) =
        some (g4, ((m.ports .incoming).zip (nm.ports .incoming) ++ (m.ports .outgoing).zip (nm.ports .outgoing)).map
          fun x => (x.1, .moved x.2)) ∧
      n < g4.nodeMeta.length ∧
      PG.freePorts { g4 with nodeMeta := g4.nodeMeta.set n (.node nm) } m.first m.capacity = some g5 ∧
      m.incoming + m.outgoing ≤ g5.portCount ∧
      Inv { g5 with portCount := g5.portCount - (m.incoming + m.outgoing) + (inc + out) } ∧
      g5.node? = upd g1.node? n (some nm) ∧ g5.port? = reclaimed g1.port? n m nm ∧
      (∀ p, (g5.port? p).isSome → g5.lk p = relinked g1.port? g1.lk m nm p) ∧
      g5.nodeCount = g1.nodeCount ∧ g5.portCount = g1.portCount ∧
      g5.nodeMeta.length = g1.nodeMeta.length ∧ g5.nodeFree = g1.nodeFree ∧
      (∀ p, nm.first ≤ p → p < nm.first + nm.capacity → g1.port? p = none) ∧
      ∃ fs2, Frees g2 fs2 ∧ Frees g5 (if m.capacity = 0 then fs2 else upd fs2 m.capacity (m.first :: fs2 m.capacity)) := by
  obtain ⟨own, fs, hP, hfull⟩ := h1.slots
  obtain ⟨f, g2, own2, fs2, ha, hfb, hf0, hlen2, hle2, hport2, hlk2, hP2, hown2, hnm2, hnf2, hnc2, hpc2, hlc2, -, hfl2⟩ :=
    allocPorts_ok n inc out extra h1.len hP hinc htot
  obtain ⟨nm, hnm⟩ : ∃ nm : NodeMeta, nm = ⟨f, inc, out, inc + out + extra⟩ := ⟨_, rfl⟩
  rw [← hnm] at ha hport2
  have e1 : nm.first = f := by rw [hnm]
  have e2 : nm.incoming = inc := by rw [hnm]
  have e3 : nm.outgoing = out := by rw [hnm]
  have e4 : nm.capacity = inc + out + extra := by rw [hnm]
  have hb := hP2.bound n m hn
  have hF : Fresh g2.portMeta.length own2 g2.lk m nm := by
    refine ⟨by omega, ?_, ?_, ?_⟩
    · intro p h1 h2; exact hown2 p (by omega) (by omega)
    · intro p h1 h2; rw [hlk2]; simp only; rw [if_pos (by simp; omega)]
    · intro d p h1 h2
      have := hdrop d p h1 (by cases d <;> simp only [NodeMeta.numPorts] at * <;> omega)
      rw [hlk2]; simp only; split
      · rfl
      · exact this
  have hsym : SymLinks g2.port? g2.lk := by rw [hport2]; exact hF.symLinks hP2
  have hmold : ∀ d p, m.has d p = true → g2.port? p = some (n, d) := by
    intro d p h
    have := (hP2.ports_has hn).2 h
    rw [hport2, claim_not (hF.notNew hP2 this)]; exact this
  have hmnew : ∀ d p, nm.has d p = true → g2.port? p = some (n, d) := by
    intro d p h; rw [hport2, claim_has h]
  have hrngold : ∀ d p, m.start d ≤ p → p < m.start d + min (m.numPorts d) (nm.numPorts d) →
      g2.port? p = some (n, d) := fun d p h3 h4 => hmold d p (NodeMeta.has_iff.2 ⟨h3, by omega⟩)
  have hrngnew : ∀ d p, nm.start d ≤ p → p < nm.start d + min (m.numPorts d) (nm.numPorts d) →
      g2.port? p = some (n, d) := fun d p h3 h4 => hmnew d p (NodeMeta.has_iff.2 ⟨h3, by omega⟩)
  have hnewlk : ∀ d p, nm.has d p = true → g2.lk p = none := by
    intro d p h
    have := inRange_iff.1 (NodeMeta.has_slab hF.bound.1 h)
    exact hF.hlk p this.1 this.2
  -- the two loops
  obtain ⟨g3, r3, he3, hl3, hll3⟩ := relocPorts_range (hF.disjDir hP2 hn .incoming)
    (hrngold .incoming) (hrngnew .incoming) hlen2
    (fun p h3 h4 => hnewlk .incoming p (NodeMeta.has_iff.2 ⟨h3, by omega⟩)) hsym
  have hport3 : g3.port? = g2.port? := by rw [he3]; rfl
  have hpm3 : g3.portMeta = g2.portMeta := by rw [he3]
  have hlk3 : g3.lk = conj g2.port? g2.lk (surv m nm .incoming) := hl3
  have hptin : ∀ d p, g2.port? (surv m nm d p) = g2.port? p :=
    fun d p => swapR_pt (hrngold d) (hrngnew d) p
  have hinv : ∀ d p, surv m nm d (surv m nm d p) = p := fun d p => swapR_swapR (hF.disjDir hP2 hn d) p
  have hsym3 : SymLinks g3.port? g3.lk := by
    rw [hport3, hlk3]; exact hsym.conj (hinv _) (hptin _)
  obtain ⟨g4, r4, he4, hl4, hll4⟩ := relocPorts_range (g := g3) (hF.disjDir hP2 hn .outgoing)
    (by rw [hport3]; exact hrngold .outgoing) (by rw [hport3]; exact hrngnew .outgoing)
    (by rw [hll3, hlen2, hpm3])
    (by
      intro p h3 h4
      have hh : nm.has .outgoing p = true := NodeMeta.has_iff.2 ⟨h3, by omega⟩
      have hms : m.has .incoming p = false := by
        apply NodeMeta.not_has hb.1
        cases e : inRange m.first m.capacity p with
        | false => rfl
        | true => exact absurd ⟨e, NodeMeta.has_slab hF.bound.1 hh⟩ (hF.disj hP2 hn p)
      rw [hlk3, conj, hmnew _ p hh, surv_id hms (NodeMeta.has_disj hh), hnewlk _ p hh]; rfl) hsym3
  have hport4 : g4.port? = g2.port? := by rw [he4]; exact hport3
  have hpm4 : g4.portMeta = g2.portMeta := by rw [he4]; exact hpm3
  have hlk4 : g4.lk = conj g2.port? (conj g2.port? g2.lk (surv m nm .incoming)) (surv m nm .outgoing) := by
    rw [hl4, hport3, hlk3]; rfl
  have hnm4 : g4.nodeMeta = g1.nodeMeta := by rw [he4, he3]; exact hnm2
  have hnf4 : g4.nodeFree = g1.nodeFree := by rw [he4, he3]; exact hnf2
  have hnc4 : g4.nodeCount = g1.nodeCount := by rw [he4, he3]; exact hnc2
  have hpc4 : g4.portCount = g1.portCount := by rw [he4, he3]; exact hpc2
  have hlc4 : g4.linkCount = g1.linkCount := by rw [he4, he3]; exact hlc2
  have hheads4 : g4.heads = g2.heads := by rw [he4, he3]; rfl
  have hreloc := relocPorts_append g2 _ _ r3 r4
  have hz : ∀ d, (m.ports d).zip (nm.ports d) =
      (List.range' (m.start d) (min (m.numPorts d) (nm.numPorts d))).zip
        (List.range' (nm.start d) (min (m.numPorts d) (nm.numPorts d))) := by
    intro d; simp only [NodeMeta.ports]; rw [zip_range']
  have hlen4 : g4.portLink.length = g4.portMeta.length := by rw [hll4, hll3, hpm4, hlen2]
  have hnlt : n < g4.nodeMeta.length := by
    rw [hnm4]; exact PG.node?_lt (g := g1) (n := n) (by simp [hn])
  have hnone : ∀ p, nm.first ≤ p → p < nm.first + nm.capacity → g1.port? p = none := fun p h3 h4 =>
    hP2.pt_none fun n' => by rw [hF.hown p h3 h4]; simp
  -- counts before freeing
  have hcnt : ∀ d, cnt g1.portMeta.length (linkedDir g1.port? g1.lk d) =
      cnt g2.portMeta.length (linkedDir g2.port? g4.lk d) := by
    intro d
    have hlt2 : ∀ p, (g2.port? p).isSome → p < g2.portMeta.length := by
      intro p hp
      rcases Nat.lt_or_ge p g2.portMeta.length with h | h
      · exact h
      · rw [PG.port?_ge h] at hp; simp at hp
    rw [hlk4, cnt_conj (hinv _) (hptin _) hlt2, cnt_conj (hinv _) (hptin _) hlt2]
    refine Eq.trans (cnt_extend (P := linkedDir g1.port? g1.lk d) hle2 ?_).symm ?_
    · intro p h3 h4
      simp [linkedDir, PG.port?_ge h3]
    · apply cnt_congr
      intro p _
      by_cases e : inRange nm.first nm.capacity p = true
      · have e' := inRange_iff.1 e
        have := hF.hlk p e'.1 e'.2
        have hx := hnone p e'.1 e'.2
        unfold linkedDir
        rw [hx, this]
        cases g2.port? p <;> simp
      · simp only [Bool.not_eq_true] at e
        apply (linkedDir_congr _ _).symm
        · rw [hport2, claim_not (NodeMeta.not_has hF.bound.1 e)]
        · intro _; rw [hlk2]; simp only
          rw [if_neg]; rw [← e1, ← e4, e]; simp
  have hLI : LInv { g4 with nodeMeta := g4.nodeMeta.set n (.node nm) } := by
    refine ⟨hlen4, ?_, ?_, ?_⟩
    · show SymLinks g4.port? g4.lk
      rw [hport4, hlk4]
      exact (hsym.conj (hinv _) (hptin _)).conj (hinv _) (hptin _)
    · show g4.linkCount = cnt g4.portMeta.length (linkedDir g4.port? g4.lk _)
      rw [hport4, hpm4, ← hcnt, hlc4]; exact h1.outCount
    · show g4.linkCount = cnt g4.portMeta.length (linkedDir g4.port? g4.lk _)
      rw [hport4, hpm4, ← hcnt, hlc4]; exact h1.inCount
  obtain ⟨g5, h5, hpt5, hlk5, hlk5', hhd5, hhd5', hpl5, hpm5, hnm5, hnf5, hnc5, hpc5, hlc5⟩ :=
    freePorts_ok hLI m.first m.capacity (by show _ ≤ g4.portMeta.length; rw [hpm4]; exact hb.2.1)
      (by
        show ∀ p, _ → _ → g4.port? p = none → g4.lk p = none
        intro p h3 h4 h5
        rw [hport4] at h5
        rw [hlk4]; simp only [conj, h5]
        have : g1.port? p = none := by
          cases e : g1.port? p with
          | none => rfl
          | some x => rw [hport2, claim_not (hF.notNew hP2 e), e] at h5; simp at h5
        rcases Nat.lt_or_ge p (m.first + m.incoming + m.outgoing) with h6 | h6
        · obtain ⟨d, hd⟩ := hP2.pt_used hn h3 h6; rw [this] at hd; simp at hd
        · simpa using hP2.unused n m hn p h6 h4)
  have hpt5 : g5.port? = reclaimed g1.port? n m nm := by
    refine hpt5.trans ?_
    rw [← realloc_port hF.bound.1 (hF.disj hP2 hn)]
    show (fun p => if inRange m.first m.capacity p then none else g4.port? p) = _
    rw [hport4, hport2]
  have hcut : cut g4.port? g4.lk (inRange m.first m.capacity) = relinked g1.port? g2.lk m nm := by
    rw [hport4, hlk4, hport2]; exact realloc_lk hP2 hn hF
  have hown' : ∀ p, nm.first ≤ p → p < nm.first + nm.capacity → own2 p = .none ∨ own2 p = .node n :=
    fun p h3 h4 => Or.inl (hF.hown p h3 h4)
  have hPr := hP2.replace hn (nm := nm) (by omega) hown' hF.drop
  have hpm5 : g5.portMeta.length = g2.portMeta.length := by rw [hpm5]; exact congrArg _ hpm4
  have hnm5 : g5.nodeMeta = g1.nodeMeta.set n (.node nm) := by rw [hnm5, ← hnm4]
  have hnode5 : g5.node? = upd g1.node? n (some nm) := by
    have := node?_set (g := g1) (n := n) (m := nm) (by rw [← hnm4]; exact hnlt)
    rw [← this]
    funext j; simp [PG.node?, hnm5]
  have hpl5 : g5.portLink.length = g5.portMeta.length := by
    rw [hpl5, hpm5]; exact hlen4.trans (by rw [hpm4])
  have hcs := h1.cnt_slab hn
  have hpcm : m.portCount = m.outgoing + m.incoming := rfl
  have hpcn : nm.portCount = nm.outgoing + nm.incoming := rfl
  have hpc5 : g5.portCount = g1.portCount := by rw [hpc5]; exact hpc4
  have hslab : ∀ p, inRange m.first m.capacity p = true → reclaimed g1.port? n m nm p = none := by
    intro p hp
    apply reclaimed_slab _ hp
    apply NodeMeta.not_has hF.bound.1
    cases e : inRange nm.first nm.capacity p with
    | false => rfl
    | true => exact absurd ⟨hp, e⟩ (hF.disj hP2 hn p)
  -- the links that remain
  have hlkport : ∀ p, (g5.port? p).isSome → g5.lk p = relinked g1.port? g2.lk m nm p := by
    intro p hp
    by_cases hc : 0 < m.capacity
    · rw [hlk5 hc]
      have : p ≠ m.first := by
        rintro rfl
        rw [hpt5, hslab _ (by simp; omega)] at hp; simp at hp
      rw [upd, if_neg this]
      exact congrFun hcut p
    · rw [hlk5' (by omega)]
      rw [← hcut, show m.capacity = 0 by omega, cut_empty]; rfl
  have hlkport' : ∀ p, relinked g1.port? g2.lk m nm p = relinked g1.port? g1.lk m nm p ∨ g5.port? p = none := by
    intro p
    by_cases hin : ∃ d, nm.has d p = true
    · left
      obtain ⟨d, hd⟩ := hin
      rw [relinked_has hd, relinked_has hd]
      split
      · rename_i hlt
        have hd' := NodeMeta.has_iff.1 hd
        have hold : m.has d (m.start d + (p - nm.start d)) = true := NodeMeta.has_iff.2 (by omega)
        rw [hlk2]; simp only
        rw [if_neg]
        intro hc
        refine hF.disj hP2 hn _ ⟨NodeMeta.has_slab hb.1 hold, ?_⟩
        rw [e1, e4]; exact hc
      · rfl
    · have hno : ∀ d, nm.has d p = false := by
        intro d
        cases e' : nm.has d p with
        | false => rfl
        | true => exact absurd ⟨d, e'⟩ hin
      cases hs : inRange m.first m.capacity p with
      | true => left; rw [relinked_slab hno (Or.inl hs), relinked_slab hno (Or.inl hs)]
      | false =>
        cases hs' : inRange nm.first nm.capacity p with
        | true => left; rw [relinked_slab hno (Or.inr hs'), relinked_slab hno (Or.inr hs')]
        | false =>
          left
          have : g2.lk p = g1.lk p := by
            rw [hlk2]; simp only
            rw [if_neg (by rw [← e1, ← e4, hs']; simp)]
          rw [relinked_other hno hs hs', relinked_other hno hs hs', this]
  have hfrees : Frees g5 (if m.capacity = 0 then fs2 else upd fs2 m.capacity (m.first :: fs2 m.capacity)) := by
    by_cases hc : 0 < m.capacity
    · have := (hPr.pushSlab (f := m.first) hc hb.2.1 (by
          intro p h3 h4
          rw [if_neg, if_pos (by simp; omega)]
          intro hx
          exact hF.disj hP2 hn p ⟨by simp; omega, hx⟩)).chain
      rw [← hcut, ← hheads4] at this
      rw [if_neg (by omega)]
      unfold Frees
      rw [hlk5 hc, hhd5 hc]
      exact this
    · have := hPr.chain
      rw [← hcut, ← hheads4, show m.capacity = 0 by omega, cut_empty] at this
      rw [if_pos (by omega)]
      unfold Frees
      rw [hlk5' (by omega), hhd5' (by omega)]
      exact this
  refine ⟨f, g2, g4, g5, nm, hnm, ha, ?_, hnlt, h5, by omega, ?_, hnode5, hpt5, ?_, ?_, hpc5, ?_, ?_, hnone, fs2, hP2.chain, hfrees⟩
  · rw [hz, hz, hreloc, List.map_append]
  · refine ⟨hpl5, ?_, ?_, ?_, ?_, ?_⟩
    · obtain ⟨fn, hfn⟩ := h1.nodes
      refine ⟨fn, ?_⟩
      show NInv g5.nodeMeta g5.nodeFree g5.nodeCount fn
      rw [hnm5, hnf5, hnc5]
      show NInv _ g4.nodeFree g4.nodeCount fn
      rw [hnf4, hnc4]
      exact hfn.setNode (PG.node?_eq.1 hn)
    · show ∃ own fs, PInv g5.portMeta.length g5.node? g5.port? g5.lk g5.heads own fs ∧ ∀ p < g5.portMeta.length, own p ≠ .none
      rw [hpm5, hnode5, hpt5]
      by_cases hc : 0 < m.capacity
      · rw [hlk5 hc, hhd5 hc]
        have := hPr.pushSlab (f := m.first) hc hb.2.1 (by
          intro p h3 h4
          rw [if_neg, if_pos (by simp; omega)]
          intro hx
          exact hF.disj hP2 hn p ⟨by simp; omega, hx⟩)
        rw [← hcut, ← hheads4] at this
        refine ⟨_, _, this, fun p hp => ?_⟩
        split
        · simp
        · next hr =>
          split
          · simp
          · next hr2 => exact hfl2 hfull p hp (by rw [← e1, ← e4]; simpa using hr2)
      · rw [hlk5' (by omega), hhd5' (by omega)]
        rw [← hcut, ← hheads4, show m.capacity = 0 by omega, cut_empty] at hPr
        refine ⟨_, _, hPr, fun p hp => ?_⟩
        split
        · simp
        · next hr2 =>
          rw [if_neg (by simp [inRange])]
          exact hfl2 hfull p hp (by rw [← e1, ← e4]; simpa using hr2)
    · show g5.portCount - (m.incoming + m.outgoing) + (inc + out) = cnt g5.portMeta.length fun p => (g5.port? p).isSome
      rw [hpm5, hpt5, cnt_reclaimed (by omega) (fun p h3 h4 => Or.inr (hnone p h3 h4))]
      rw [cnt_extend hle2 (by intro p h3 h4; split <;> simp [PG.port?_ge h3])]
      omega
    all_goals
      show g5.linkCount = cnt g5.portMeta.length (linkedDir g5.port? g5.lk _)
      rw [hpm5, hlc5 _]
      show cnt g4.portMeta.length (linkedDir (fun p => if inRange m.first m.capacity p then none else g4.port? p)
        (cut g4.port? g4.lk _) _) = _
      rw [hcut, hport4, hport2, realloc_port hF.bound.1 (hF.disj hP2 hn), ← hpt5, hpm4]
      apply cnt_congr
      intro p _
      apply linkedDir_congr rfl
      intro hp
      rw [hlkport p hp]
  · intro p hp
    rw [hlkport p hp]
    rcases hlkport' p with h | h
    · exact h
    · rw [h] at hp; simp at hp
  · rw [hnc5]; exact hnc4
  · rw [hnm5]; simp
  · rw [hnf5]; exact hnf4

theorem realloc_ok {g1 : PG} (h1 : Inv g1) {n m} (hn : g1.node? n = some m) {inc out extra : Nat}
    (hinc : inc ≤ 65534) (htot : inc + out + extra ≤ 65535)
    (hdrop : ∀ d p, m.has d p = true → (⟨0, inc, out, 0⟩ : NodeMeta).numPorts d ≤ p - m.start d → g1.lk p = none) :
    ∃ f g2 g4 g5 nm, nm = ⟨f, inc, out, inc + out + extra⟩ ∧ g1.allocPorts n inc out extra = some (nm, g2) ∧
      g2.relocPorts ((m.ports .incoming).zip (nm.ports .incoming) ++ (m.ports .outgoing).zip (nm.ports .outgoing)) =
        some (g4, ((m.ports .incoming).zip (nm.ports .incoming) ++ (m.ports .outgoing).zip (nm.ports .outgoing)).map
          fun x => (x.1, .moved x.2)) ∧
      n < g4.nodeMeta.length ∧
      PG.freePorts { g4 with nodeMeta := g4.nodeMeta.set n (.node nm) } m.first m.capacity = some g5 ∧
      m.incoming + m.outgoing ≤ g5.portCount ∧
      Inv { g5 with portCount := g5.portCount - (m.incoming + m.outgoing) + (inc + out) } ∧
      g5.node? = upd g1.node? n (some nm) ∧ g5.port? = reclaimed g1.port? n m nm ∧
      (∀ p, (g5.port? p).isSome → g5.lk p = relinked g1.port? g1.lk m nm p) ∧
      g5.nodeCount = g1.nodeCount ∧ g5.portCount = g1.portCount ∧
      g5.nodeMeta.length = g1.nodeMeta.length ∧ g5.nodeFree = g1.nodeFree ∧
      (∀ p, nm.first ≤ p → p < nm.first + nm.capacity → g1.port? p = none) := by
  obtain ⟨f, g2, g4, g5, nm, a1, a2, a3, a4, a5, a6, a7, a8, a9, a10, a11, a12, a13, a14, a15, -⟩ := realloc_full h1 hn hinc htot hdrop
  exact ⟨f, g2, g4, g5, nm, a1, a2, a3, a4, a5, a6, a7, a8, a9, a10, a11, a12, a13, a14, a15⟩

/-- The calls announcing moved ports. -/
def MoveTrace (m nm : NodeMeta) (tr : List (Nat × PortOp)) : Prop :=
  ((∀ d d' p, m.has d p = true → nm.has d' p = false) ∧
    tr = ((m.ports .incoming).zip (nm.ports .incoming) ++ (m.ports .outgoing).zip (nm.ports .outgoing)).map
      fun x => (x.1, .moved x.2)) ∨
  (nm.first = m.first ∧ ((nm.incoming < m.incoming ∧
      tr = ((m.ports .outgoing).zip (nm.ports .outgoing)).map (fun x => (x.1, .moved x.2))) ∨
    (m.incoming ≤ nm.incoming ∧
      tr = ((m.ports .outgoing).zip (nm.ports .outgoing)).reverse.map (fun x => (x.1, .moved x.2)))))

/-- Effect of `set_num_ports` on a live node whose counts change. -/
theorem setNumPorts_ok {g : PG} (h : Inv g) {n m inc out} (hn : g.node? n = some m)
    (hne : ¬ (m.incoming = inc ∧ m.outgoing = out)) (htot : inc + out ≤ 32768 ∨ inc + out < m.capacity)
    (hinc : inc ≤ 65534) :
    ∃ g' tr1 tr2 nm, g.setNumPorts n inc out = some (g', tr1 ++ tr2) ∧ Inv g' ∧
      ResizeEffect g g' n inc out m nm ∧ DropTrace g m inc out tr1 ∧ MoveTrace m nm tr2 := by
  obtain ⟨own0, fs0, hP0, hfull⟩ := h.slots
  have hb0 := hP0.bound n m hn
  by_cases hin : 1 ≤ inc + out ∧ inc + out < m.capacity
  · obtain ⟨g', tr1, tr2, h1, h2, h3, h4, h5⟩ := resizeInplace_ok h hn hinc hin.2
    refine ⟨g', tr1, tr2, _, ?_, h2, h3, h4, Or.inr ⟨rfl, h5⟩⟩
    unfold PG.setNumPorts
    rw [if_pos (by omega), hn]
    simp only
    rw [if_neg hne, if_pos hin, h1]
  · have htot' : inc + out ≤ 32768 := by omega
    have hdropport : ∀ p ∈ PG.droppedPorts m inc out, (g.port? p).isSome := by
      intro p hp
      rcases mem_droppedPorts.1 hp with ⟨h1, -⟩ | ⟨h1, -⟩ <;> rw [(hP0.ports_has hn).2 h1] <;> rfl
    obtain ⟨g1, tr1, hd1, hI1, hnm1, hpm1, hlk1, hnf1, hpf1, hnc1, hpc1, htr1⟩ := dropPorts_ok h _ hdropport
    have hport1 : g1.port? = g.port? := by funext p; simp [PG.port?, hpm1]
    have hnode1 : g1.node? = g.node? := by funext p; simp [PG.node?, hnm1]
    have hn1 : g1.node? n = some m := by rw [hnode1]; exact hn
    have hdrop : ∀ d p, m.has d p = true → (⟨0, inc, out, 0⟩ : NodeMeta).numPorts d ≤ p - m.start d →
        g1.lk p = none := by
      intro d p h1 h2
      have : p ∈ PG.droppedPorts m inc out := by
        rw [mem_droppedPorts]
        cases d
        · left; exact ⟨h1, h2⟩
        · right; exact ⟨h1, h2⟩
      rw [hlk1]; simp [cut, this]
    have hp1 := nextPow2_spec (inc + out)
    have hp2 := nextPow2_le htot'
    obtain ⟨f, g2, g4, g5, nm, hnm, ha, hr, hnlt, hfree, hle, hInv, hnode, hport, hlk, hnc, hpc, hnl, hnf, hfresh⟩ :=
      realloc_ok hI1 hn1 (extra := PG.nextPow2 (inc + out) - (inc + out)) hinc (by omega) hdrop
    have hdisj : ∀ d d' p, m.has d p = true → nm.has d' p = false := by
      intro d d' p h1
      cases e : nm.has d' p with
      | false => rfl
      | true =>
        have hp := (hP0.ports_has hn).2 h1
        rw [NodeMeta.has_iff] at e
        rw [← hport1, hfresh p (by subst hnm; cases d' <;> simp only [NodeMeta.start, NodeMeta.numPorts] at * <;> omega)
          (by subst hnm; cases d' <;> simp only [NodeMeta.start, NodeMeta.numPorts] at * <;> omega)] at hp
        simp at hp
    refine ⟨_, tr1, _, nm, ?_, hInv, ?_, htr1, Or.inl ⟨hdisj, rfl⟩⟩
    · unfold PG.setNumPorts
      rw [if_pos (by omega), hn]
      simp only
      rw [if_neg hne, if_neg hin, hd1]
      simp only
      rw [ha]
      simp only
      rw [hr]
      simp only
      rw [if_pos hnlt, hfree]
      simp only
      rw [if_pos hle]
    · refine ⟨?_, by rw [hnm], by rw [hnm], ?_, ?_, ?_, ?_, ?_, ?_⟩
      · show g5.node? = _; rw [hnode, hnode1]
      · show g5.port? = _; rw [hport, hport1]
      · show ∀ p, (g5.port? p).isSome → g5.lk p = _
        intro p hp
        rw [hlk p hp, hport1, hlk1]; rfl
      · show g5.nodeCount = _; rw [hnc, hnc1]
      · show g5.portCount - (m.incoming + m.outgoing) + (inc + out) + (m.incoming + m.outgoing) = _
        omega
      · show g5.nodeMeta.length = _; rw [hnl, hnm1]
      · show g5.nodeFree = _; rw [hnf, hnf1]

theorem setNumPorts_none {g : PG} {n inc out} (hn : g.node? n = none) (hinc : inc ≤ 65534) (hout : out ≤ 65535) :
    g.setNumPorts n inc out = some (g, []) := by
  unfold PG.setNumPorts
  rw [if_pos ⟨hinc, hout⟩, hn]

theorem setNumPorts_same {g : PG} {n m} (hn : g.node? n = some m) (hinc : m.incoming ≤ 65534)
    (hout : m.outgoing ≤ 65535) : g.setNumPorts n m.incoming m.outgoing = some (g, []) := by
  unfold PG.setNumPorts
  rw [if_pos ⟨hinc, hout⟩, hn]
  simp

end Verif.PG
