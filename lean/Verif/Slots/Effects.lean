import Verif.Slots.FreeLen
import Verif.Slots.Indist

/-! What every call does to the lists of free slabs. -/

namespace Verif.Slots

open Verif (Direction)
open Verif.PG

theorem chain_unique {lk : Nat → Option Nat} {l l' : List Nat} : ∀ {h : Option Nat}, Chain lk h l → Chain lk h l' → l = l' := by
  induction l generalizing l' with
  | nil =>
    intro h h1 h2
    cases h with
    | none => exact h2.nil.symm
    | some f => simp [Chain] at h1
  | cons x xs ih =>
    intro h h1 h2
    cases h with
    | none => simp [Chain] at h1
    | some f =>
      obtain ⟨rfl, h1⟩ := h1
      obtain ⟨ys, rfl, h3⟩ := h2.head
      rw [ih h1 h3]

theorem frees_eq {g : PG} (hI : PG.Inv g) {fs} (h : Frees g fs) {s : Nat} (hs : 0 < s) : freeSlabs g s = fs s := by
  obtain ⟨own, fs', hP, -⟩ := hI.slots
  rw [freeSlabs_eq hP hs]
  exact chain_unique (hP.chain s hs) (h s hs)

theorem free_notPort {g : PG} (hI : PG.Inv g) {s f : Nat} (hs : 0 < s) (hf : f ∈ freeSlabs g s) : g.port? f = none := by
  obtain ⟨own, fs, hP, -⟩ := hI.slots
  rw [freeSlabs_eq hP hs] at hf
  apply hP.pt_none
  intro n
  rw [hP.slabOwn s f hf f (Nat.le_refl _) (by have := hP.slab s f hf; omega)]
  simp

/-- Calls that change only links of ports keep the free slabs. -/
theorem free_frame {g g' : PG} (hI : PG.Inv g) (hI' : PG.Inv g') (hpf : g'.portFree = g.portFree)
    (hlk : ∀ p, g.port? p = none → g'.lk p = g.lk p) {s : Nat} (hs : 0 < s) : freeSlabs g' s = freeSlabs g s := by
  obtain ⟨own, fs, hP, -⟩ := hI.slots
  obtain ⟨own', fs', hP', -⟩ := hI'.slots
  have h1 := hP.chain s hs
  have h2 := hP'.chain s hs
  have h3 : g'.heads = g.heads := by funext t; simp [PG.heads, hpf]
  rw [h3] at h2
  rw [freeSlabs_eq hP hs, freeSlabs_eq hP' hs]
  refine chain_unique h2 (h1.congr fun x hx => hlk x ?_)
  exact free_notPort hI hs (by rw [freeSlabs_eq hP hs]; exact hx)

theorem cut_noport {g : PG} {R : Nat → Bool} (hR : ∀ p, R p = true → (g.port? p).isSome) {p : Nat} (hp : g.port? p = none) :
    cut g.port? g.lk R p = g.lk p := by
  unfold cut
  rw [if_neg (by intro h; have := hR p h; rw [hp] at this; cases this)]
  cases g.lk p with
  | none => rfl
  | some q => simp [hp]

/-- `remove_node` puts the slab of the node on the list of its size. -/
theorem free_remove {g g' : PG} {n : Nat} {m : NodeMeta} (hI : PG.Inv g) (hn : g.node? n = some m) (h : g.removeNode n = some g')
    {s : Nat} (hs : 0 < s) :
    freeSlabs g' s = if s = m.capacity then m.first :: freeSlabs g s else freeSlabs g s := by
  obtain ⟨g1, h1, hI', -, -, -, -, -, -, -, -, fs, hf, hf'⟩ := removeNode_full hI hn
  rw [h] at h1
  cases h1
  rw [frees_eq hI hf hs, frees_eq hI' hf' hs]
  by_cases hc : m.capacity = 0
  · rw [if_pos hc, if_neg (by omega)]
  · rw [if_neg hc]
    simp only [upd]
    split
    · next e => rw [e]
    · rfl

theorem free_link {g g' : PG} {a b r} (hI : PG.Inv g) (h : g.linkPorts a b = some (r, g')) {s : Nat} (hs : 0 < s) :
    freeSlabs g' s = freeSlabs g s := by
  obtain ⟨r', g1, h1, hI', -⟩ := linkPorts_total hI a b
  rw [h] at h1
  simp only [Option.some.injEq, Prod.mk.injEq] at h1
  obtain ⟨rfl, rfl⟩ := h1
  refine free_frame hI hI' (linkPorts_pf h) (fun p hp => ?_) hs
  cases ha : g.port? a with
  | none => simp only [PG.linkPorts, ha] at h; cases h; rfl
  | some x =>
    obtain ⟨na, da⟩ := x
    cases hb : g.port? b with
    | none => simp only [PG.linkPorts, ha, hb] at h; cases h; rfl
    | some y =>
      obtain ⟨nb, db⟩ := y
      have h1 : p ≠ a := by rintro rfl; rw [hp] at ha; cases ha
      have h2 : p ≠ b := by rintro rfl; rw [hp] at hb; cases hb
      simp only [PG.linkPorts, ha, hb] at h
      repeat' split at h
      all_goals cases h
      all_goals try rfl
      simp [PG.lk, List.getElem?_set, h1.symm, h2.symm]

theorem free_unlink {g g' : PG} {p r} (hI : PG.Inv g) (h : g.unlinkPort p = some (r, g')) {s : Nat} (hs : 0 < s) :
    freeSlabs g' s = freeSlabs g s := by
  cases hp : g.port? p with
  | none =>
    rw [unlinkPort_none hp] at h
    cases h; rfl
  | some x =>
    obtain ⟨g1, h1, hI', -, -, hlk, -, hpf, -⟩ := unlinkPort_ok hI (p := p) (by rw [hp]; rfl)
    rw [h] at h1
    simp only [Option.some.injEq, Prod.mk.injEq] at h1
    obtain ⟨rfl, rfl⟩ := h1
    refine free_frame hI hI' hpf (fun q hq => ?_) hs
    rw [hlk]
    exact cut_noport (by intro q h; simp only [decide_eq_true_eq] at h; rw [h, hp]; rfl) hq

theorem free_drop {g : PG} (hI : PG.Inv g) {n m} (hn : g.node? n = some m) (i o : Nat) :
    ∃ g1 tr, g.dropPorts (PG.droppedPorts m i o) = some (g1, tr) ∧ PG.Inv g1 ∧ g1.node? = g.node? ∧ g1.port? = g.port? ∧
      g1.portMeta = g.portMeta ∧ g1.portFree = g.portFree ∧
      (∀ d p, m.has d p = true → (⟨0, i, o, 0⟩ : NodeMeta).numPorts d ≤ p - m.start d → g1.lk p = none) ∧
      ∀ s, 0 < s → freeSlabs g1 s = freeSlabs g s := by
  obtain ⟨own, fs, hP, -⟩ := hI.slots
  have hdropport : ∀ p ∈ PG.droppedPorts m i o, (g.port? p).isSome := by
    intro p hp
    rcases mem_droppedPorts.1 hp with ⟨h1, -⟩ | ⟨h1, -⟩ <;> rw [(hP.ports_has hn).2 h1] <;> rfl
  obtain ⟨g1, tr1, hd1, hI1, hnm1, hpm1, hlk1, -, hpf1, -⟩ := dropPorts_ok hI _ hdropport
  refine ⟨g1, tr1, hd1, hI1, by funext p; simp [PG.node?, hnm1], by funext p; simp [PG.port?, hpm1], hpm1, hpf1, ?_, fun s hs => ?_⟩
  · intro d p h1 h2
    have : p ∈ PG.droppedPorts m i o := by
      rw [mem_droppedPorts]
      cases d
      · left; exact ⟨h1, h2⟩
      · right; exact ⟨h1, h2⟩
    rw [hlk1]; simp [cut, this]
  · refine free_frame hI hI1 hpf1 (fun q hq => ?_) hs
    rw [hlk1]
    exact cut_noport (by intro q h; exact hdropport q (by simpa using h)) hq

/-- `alloc_ports` takes the first free slab of the right size, if there is one. -/
theorem free_alloc {g g' : PG} {nd own fs} {node i o x : Nat} {m : NodeMeta} (hlen : g.portLink.length = g.portMeta.length)
    (hP : PInv g.portMeta.length nd g.port? g.lk g.heads own fs) (hi : i ≤ 65534) (hreq : i + o + x ≤ 65535)
    (h : g.allocPorts node i o x = some (m, g')) :
    Frees g' (if i + o + x = 0 then fs else upd fs (i + o + x) (fs (i + o + x)).tail) := by
  obtain ⟨f, g1, own', fs', h1, hb, -, -, -, -, hlk, -⟩ := allocPorts_ok node i o x hlen hP hi hreq
  rw [h] at h1
  simp only [Option.some.injEq, Prod.mk.injEq] at h1
  obtain ⟨rfl, rfl⟩ := h1
  generalize hr : i + o + x = r at *
  by_cases hr0 : r = 0
  · rw [if_pos hr0]
    unfold PG.allocPorts at h
    simp only at h
    rw [if_pos (by omega)] at h
    simp only [Option.some.injEq, Prod.mk.injEq] at h
    rw [← h.2]
    exact hP.chain
  · rw [if_neg hr0]
    have hh := allocPorts_heads h (by omega)
    rw [hr] at hh
    intro s hs
    rcases hh with ⟨f', c1, c2, c3, -⟩ | ⟨c1, c2, c3, -⟩
    · simp only at c2
      subst c2
      have hc := hP.chain r (by omega)
      rw [c1] at hc
      obtain ⟨xs, e1, e2⟩ := hc.head
      have hf : f ∈ fs r := by rw [e1]; simp
      have hfs := hP.slabOwn r f hf
      have key : ∀ t y, 0 < t → y ∈ fs t → ¬ (t = r ∧ y = f) → g'.lk y = g.lk y := by
        intro t y ht hy hne
        rw [hlk]
        simp only
        rw [if_neg]
        intro hin
        simp at hin
        have e3 := hfs y hin.1 hin.2
        rw [hP.slabOwn t y hy y (Nat.le_refl _) (by omega)] at e3
        simp only [Owner.slab.injEq] at e3
        exact hne ⟨e3.2, e3.1⟩
      rw [c3]
      simp only [upd]
      split
      · next e =>
        subst e
        rw [e1]
        refine e2.congr fun y hy => key s y hs (by rw [e1]; simp [hy]) ?_
        rintro ⟨-, rfl⟩
        have := hP.nodup s
        rw [e1] at this
        simp at this
        exact this.1 hy
      · next e => exact (hP.chain s hs).congr fun y hy => key s y hs hy (by rintro ⟨h, -⟩; exact e h)
    · simp only at c2
      subst c2
      have hlk' : ∀ t y, 0 < t → y ∈ fs t → g'.lk y = g.lk y := by
        intro t y ht hy
        rw [hlk]
        simp only
        rw [if_neg]
        intro hin
        simp at hin
        have := hP.slab t y hy
        omega
      rw [c3]
      simp only [upd]
      split
      · next e =>
        subst e
        have hc := hP.chain s hs
        rw [c1] at hc ⊢
        rw [hc.nil]
        simp [Chain]
      · exact (hP.chain s hs).congr fun y hy => hlk' s y hs hy

/-- `set_num_ports` either keeps the slab of the node, or takes a free slab for it first and frees the old one
then. -/
theorem free_set {g g' : PG} {n i o : Nat} {m : NodeMeta} {tr} (hI : PG.Inv g) (hn : g.node? n = some m)
    (hne : ¬ (m.incoming = i ∧ m.outgoing = o)) (htot : i + o ≤ 32768 ∨ i + o < m.capacity) (hi : i ≤ 65534)
    (h : g.setNumPorts n i o = some (g', tr)) :
    (1 ≤ i + o ∧ i + o < m.capacity ∧ g'.node? = upd g.node? n (some ⟨m.first, i, o, m.capacity⟩) ∧
      (∀ s, 0 < s → freeSlabs g' s = freeSlabs g s)) ∨
    ∃ f r, (g'.node? = upd g.node? n (some ⟨f, i, o, r⟩)) ∧ ¬ (1 ≤ i + o ∧ i + o < m.capacity) ∧ r = PG.nextPow2 (i + o) ∧
      ∀ s, 0 < s → freeSlabs g' s =
        (if s = m.capacity then [m.first] else []) ++ if s = r then (freeSlabs g s).tail else freeSlabs g s := by
  obtain ⟨own, fs, hP, -⟩ := hI.slots
  have hb := hP.bound n m hn
  unfold PG.setNumPorts at h
  rw [if_pos (by omega), hn] at h
  simp only at h
  rw [if_neg hne] at h
  by_cases hin : 1 ≤ i + o ∧ i + o < m.capacity
  · rw [if_pos hin] at h
    obtain ⟨g2, tr1, tr2, h1, hI2, hR, -, -, g1, fs1, h2, hf1, hf2⟩ := resizeInplace_full hI hn hi hin.2
    rw [h] at h1
    simp only [Option.some.injEq, Prod.mk.injEq] at h1
    obtain ⟨rfl, -⟩ := h1
    obtain ⟨g1', tr', h3, hI1, -, -, -, -, -, hfr⟩ := free_drop hI hn i o
    rw [h2] at h3
    simp only [Option.some.injEq, Prod.mk.injEq] at h3
    obtain ⟨rfl, -⟩ := h3
    refine Or.inl ⟨hin.1, hin.2, hR.1, fun s hs => ?_⟩
    rw [frees_eq hI2 hf2 hs, ← frees_eq hI1 hf1 hs, hfr s hs]
  · rw [if_neg hin] at h
    have htot' : i + o ≤ 32768 := by omega
    obtain ⟨g1, tr1, h3, hI1, hnode1, hport1, hpm1, -, hdrop, hfr⟩ := free_drop hI hn i o
    have hp1 := nextPow2_spec (i + o)
    have hp2 := nextPow2_le htot'
    obtain ⟨f, g2, g4, g5, nm, hnm, ha, hr, hnlt, hfree, hle, hInv, hnode, -, -, -, -, -, -, -, fs2, hf2, hf5⟩ :=
      realloc_full hI1 (by rw [hnode1]; exact hn) (extra := PG.nextPow2 (i + o) - (i + o)) hi (by omega) hdrop
    rw [h3] at h
    simp only at h
    rw [ha] at h
    simp only at h
    rw [hr] at h
    simp only at h
    rw [if_pos hnlt, hfree] at h
    simp only at h
    rw [if_pos hle] at h
    simp only [Option.some.injEq, Prod.mk.injEq] at h
    obtain ⟨rfl, -⟩ := h
    refine Or.inr ⟨f, PG.nextPow2 (i + o), ?_, hin, rfl, fun s hs => ?_⟩
    · show g5.node? = _
      rw [hnode, hnode1, hnm]
      congr 3
      omega
    · obtain ⟨own1, fs1, hP1, -⟩ := hI1.slots
      have hf2' := free_alloc hI1.len hP1 hi (by omega) ha
      have e2 : ∀ t, 0 < t → fs2 t = (if i + o + (PG.nextPow2 (i + o) - (i + o)) = 0 then fs1 else
          upd fs1 (i + o + (PG.nextPow2 (i + o) - (i + o))) (fs1 (i + o + (PG.nextPow2 (i + o) - (i + o)))).tail) t :=
        fun t ht => chain_unique (hf2 t ht) (hf2' t ht)
      rw [show i + o + (PG.nextPow2 (i + o) - (i + o)) = PG.nextPow2 (i + o) by omega] at e2
      have e1 : ∀ t, 0 < t → fs1 t = freeSlabs g t := fun t ht => by rw [← freeSlabs_eq hP1 ht, hfr t ht]
      rw [frees_eq hInv (fs := if m.capacity = 0 then fs2 else upd fs2 m.capacity (m.first :: fs2 m.capacity)) hf5 hs]
      have e3 : fs2 s = if s = PG.nextPow2 (i + o) then (freeSlabs g s).tail else freeSlabs g s := by
        rw [e2 s hs]
        by_cases hz : PG.nextPow2 (i + o) = 0
        · rw [if_pos hz, if_neg (by omega), e1 s hs]
        · rw [if_neg hz]
          simp only [upd]
          split
          · next e => subst e; rw [e1 _ hs]
          · rw [e1 s hs]
      by_cases hc : m.capacity = 0
      · rw [if_pos hc, if_neg (by omega), e3]; rfl
      · rw [if_neg hc]
        simp only [upd]
        split
        · next e => subst e; rw [← e3]; rfl
        · rw [← e3]; rfl

end Verif.Slots
