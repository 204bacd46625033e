import Verif.PortGraph.Steps

/-! Preservation of `PInv` when a node changes its ports or its name. -/

namespace Verif.PG

open Verif (Direction)

/-- `p` is a `d` port slot of `m`. -/
def NodeMeta.has (m : NodeMeta) (d : Direction) (p : Nat) : Bool :=
  inRange (m.start d) (m.numPorts d) p

@[simp] theorem NodeMeta.has_iff {m : NodeMeta} {d p} :
    m.has d p = true ↔ m.start d ≤ p ∧ p < m.start d + m.numPorts d := by simp [NodeMeta.has]

/-- New place of a port when the node entry `m` is replaced by `nm`. -/
def shift (m nm : NodeMeta) (p : Nat) : Nat :=
  if m.has .incoming p then nm.start .incoming + (p - m.start .incoming)
  else if m.has .outgoing p then nm.start .outgoing + (p - m.start .outgoing)
  else p

/-- Links after replacing `m` by `nm`. -/
def relinked (pt : Nat → Option (Nat × Direction)) (lk : Nat → Option Nat) (m nm : NodeMeta)
    (p : Nat) : Option Nat :=
  if nm.has .incoming p then
    if p - nm.start .incoming < m.numPorts .incoming then
      (lk (m.start .incoming + (p - nm.start .incoming))).map (shift m nm)
    else none
  else if nm.has .outgoing p then
    if p - nm.start .outgoing < m.numPorts .outgoing then
      (lk (m.start .outgoing + (p - nm.start .outgoing))).map (shift m nm)
    else none
  else if inRange m.first m.capacity p || inRange nm.first nm.capacity p then none
  else if (pt p).isSome then (lk p).map (shift m nm) else lk p

/-- Port entries after replacing `m` by `nm`. -/
def reclaimed (pt : Nat → Option (Nat × Direction)) (n : Nat) (m nm : NodeMeta) (p : Nat) :
    Option (Nat × Direction) :=
  if nm.has .incoming p then some (n, .incoming)
  else if nm.has .outgoing p then some (n, .outgoing)
  else if inRange m.first m.capacity p then none
  else pt p

theorem NodeMeta.has_disj {m : NodeMeta} {p} (h : m.has .outgoing p = true) :
    m.has .incoming p = false := by
  simp only [NodeMeta.has, inRange_iff, inRange_eq_false, NodeMeta.start, NodeMeta.numPorts] at *
  omega

theorem NodeMeta.has_unique {m : NodeMeta} {p d d'} (h : m.has d p = true) (h' : m.has d' p = true) :
    d = d' := by
  cases d <;> cases d' <;> first | rfl | skip
  · rw [NodeMeta.has_disj h'] at h; simp at h
  · rw [NodeMeta.has_disj h] at h'; simp at h'

theorem shift_has {m nm : NodeMeta} {d p} (h : m.has d p = true) :
    shift m nm p = nm.start d + (p - m.start d) := by
  cases d
  · simp [shift, h]
  · simp [shift, h, NodeMeta.has_disj h]

theorem shift_other {m nm : NodeMeta} {p} (h : ∀ d, m.has d p = false) : shift m nm p = p := by
  simp [shift, h]

theorem relinked_has {pt lk} {m nm : NodeMeta} {d p} (h : nm.has d p = true) :
    relinked pt lk m nm p = if p - nm.start d < m.numPorts d then
      (lk (m.start d + (p - nm.start d))).map (shift m nm) else none := by
  cases d
  · simp [relinked, h]
  · simp [relinked, h, NodeMeta.has_disj h]

theorem relinked_slab {pt lk} {m nm : NodeMeta} {p} (h : ∀ d, nm.has d p = false)
    (h' : inRange m.first m.capacity p = true ∨ inRange nm.first nm.capacity p = true) :
    relinked pt lk m nm p = none := by
  have : (inRange m.first m.capacity p || inRange nm.first nm.capacity p) = true := by
    rcases h' with h' | h' <;> simp [h']
  simp [relinked, h, this]

theorem relinked_other {pt lk} {m nm : NodeMeta} {p} (h : ∀ d, nm.has d p = false)
    (h' : inRange m.first m.capacity p = false) (h'' : inRange nm.first nm.capacity p = false) :
    relinked pt lk m nm p = if (pt p).isSome then (lk p).map (shift m nm) else lk p := by
  simp [relinked, h, h', h'']

theorem reclaimed_has {pt n} {m nm : NodeMeta} {d p} (h : nm.has d p = true) :
    reclaimed pt n m nm p = some (n, d) := by
  cases d
  · simp [reclaimed, h]
  · simp [reclaimed, h, NodeMeta.has_disj h]

theorem reclaimed_slab {pt n} {m nm : NodeMeta} {p} (h : ∀ d, nm.has d p = false)
    (h' : inRange m.first m.capacity p = true) : reclaimed pt n m nm p = none := by
  simp [reclaimed, h, h']

theorem reclaimed_other {pt n} {m nm : NodeMeta} {p} (h : ∀ d, nm.has d p = false)
    (h' : inRange m.first m.capacity p = false) : reclaimed pt n m nm p = pt p := by
  simp [reclaimed, h, h']

theorem NodeMeta.has_slab {m : NodeMeta} {d p} (hb : m.incoming + m.outgoing ≤ m.capacity)
    (h : m.has d p = true) : inRange m.first m.capacity p = true := by
  rw [NodeMeta.has_iff] at h
  have := m.range_sub d p hb h.1 h.2
  simp [this.1, this.2.2]

theorem NodeMeta.not_has {m : NodeMeta} {p} (hb : m.incoming + m.outgoing ≤ m.capacity)
    (h : inRange m.first m.capacity p = false) (d) : m.has d p = false := by
  cases e : m.has d p with
  | false => rfl
  | true => rw [NodeMeta.has_slab hb e] at h; simp at h

section
variable {len : Nat} {nd : Nat → Option NodeMeta} {pt : Nat → Option (Nat × Direction)}
  {lk : Nat → Option Nat} {heads : Nat → Option Nat} {own : Nat → Owner} {fs : Nat → List Nat}

theorem PInv.ports_has (h : PInv len nd pt lk heads own fs) {n m} (hm : nd n = some m) {d p} :
    pt p = some (n, d) ↔ m.has d p = true := by
  rw [h.ports, NodeMeta.has_iff]
  constructor
  · rintro ⟨m', hm', h1⟩; rw [hm] at hm'; cases hm'; exact h1
  · intro h1; exact ⟨m, hm, h1⟩

theorem PInv.replace (h : PInv len nd pt lk heads own fs) {n} {m nm : NodeMeta} (hm : nd n = some m)
    (hb : nm.incoming + nm.outgoing ≤ nm.capacity ∧ nm.first + nm.capacity ≤ len ∧
      (nm.capacity = 0 → nm.first = 0) ∧ nm.incoming ≤ 65534 ∧ nm.capacity ≤ 65535)
    (ho : ∀ p, nm.first ≤ p → p < nm.first + nm.capacity → own p = .none ∨ own p = .node n)
    (hdrop : ∀ d p, m.has d p = true → nm.numPorts d ≤ p - m.start d → lk p = none) :
    PInv len (upd nd n (some nm)) (reclaimed pt n m nm) (relinked pt lk m nm) heads
      (fun p => if inRange nm.first nm.capacity p then .node n
        else if inRange m.first m.capacity p then .none else own p) fs := by
  have hbm := h.bound n m hm
  -- a slot owned by something else is in neither slab
  have hsep : ∀ p, own p ≠ .none → own p ≠ .node n →
      inRange m.first m.capacity p = false ∧ inRange nm.first nm.capacity p = false := by
    intro p h1 h2
    constructor
    · rw [inRange_eq_false]; intro h3; exact h2 (h.ownNode n m hm p h3.1 h3.2)
    · rw [inRange_eq_false]; intro h3; rcases ho p h3.1 h3.2 with h4 | h4
      · exact h1 h4
      · exact h2 h4
  have hother : ∀ p n' d, pt p = some (n', d) → n' ≠ n →
      inRange m.first m.capacity p = false ∧ inRange nm.first nm.capacity p = false := by
    intro p n' d hp hne
    have := h.pt_own hp
    apply hsep <;> rw [this] <;> simp
    exact hne
  have hcl : ∀ p n' d, reclaimed pt n m nm p = some (n', d) ↔
      (n' = n ∧ nm.has d p = true) ∨ (n' ≠ n ∧ pt p = some (n', d)) := by
    intro p n' d
    by_cases e : ∃ d', nm.has d' p = true
    · obtain ⟨d', hd'⟩ := e
      rw [reclaimed_has hd']
      constructor
      · intro h1; cases h1; exact Or.inl ⟨rfl, hd'⟩
      · rintro (⟨rfl, h1⟩ | ⟨h1, h2⟩)
        · rw [NodeMeta.has_unique h1 hd']
        · have h3 := (hother p n' d h2 h1).2
          rw [NodeMeta.has_slab hb.1 hd'] at h3; simp at h3
    · have e' : ∀ d', nm.has d' p = false := fun d' => by
        cases e2 : nm.has d' p with
        | false => rfl
        | true => exact absurd ⟨d', e2⟩ e
      cases e2 : inRange m.first m.capacity p with
      | true =>
        rw [reclaimed_slab e' e2]
        constructor
        · intro h1; cases h1
        · rintro (⟨rfl, h1⟩ | ⟨h1, h2⟩)
          · rw [e' d] at h1; simp at h1
          · have h3 := (hother p n' d h2 h1).1
            rw [e2] at h3; simp at h3
      | false =>
        rw [reclaimed_other e' e2]
        constructor
        · intro h1
          right
          refine ⟨?_, h1⟩
          rintro rfl
          have h3 := NodeMeta.has_slab hbm.1 ((h.ports_has hm).1 h1)
          rw [e2] at h3; simp at h3
        · rintro (⟨rfl, h1⟩ | ⟨h1, h2⟩)
          · rw [e' d] at h1; simp at h1
          · exact h2
  -- the image of a linked port
  have himg : ∀ q n' d, pt q = some (n', d) → (lk q).isSome → ∀ p n'', pt p = some (n'', d.reverse) →
      lk q = some p → relinked pt lk m nm (shift m nm q) = some (shift m nm p) ∧
      reclaimed pt n m nm (shift m nm q) = some (n', d) := by
    intro q n' d hq hl p n'' hp hqp
    by_cases e : n' = n
    · subst e
      have hmq := (h.ports_has hm).1 hq
      have hk : q - m.start d < nm.numPorts d := by
        apply Classical.byContradiction
        intro hc
        rw [hdrop d q hmq (by omega)] at hl; simp at hl
      have hs := shift_has (nm := nm) hmq
      have hmq' := NodeMeta.has_iff.1 hmq
      have hn : nm.has d (shift m nm q) = true := by rw [hs, NodeMeta.has_iff]; omega
      refine ⟨?_, by rw [reclaimed_has hn]⟩
      rw [relinked_has hn, hs, Nat.add_sub_cancel_left, if_pos (by omega),
        Nat.add_sub_cancel' hmq'.1, hqp, Option.map_some]
    · have h1 := hother q n' d hq e
      have h2 : shift m nm q = q := shift_other (NodeMeta.not_has hbm.1 h1.1)
      rw [h2, relinked_other (NodeMeta.not_has hb.1 h1.2) h1.1 h1.2, hq, hqp,
        reclaimed_other (NodeMeta.not_has hb.1 h1.2) h1.1]
      exact ⟨by simp, hq⟩
  have hslabsep : ∀ s f, f ∈ fs s → ∀ p, f ≤ p → p < f + s →
      inRange m.first m.capacity p = false ∧ inRange nm.first nm.capacity p = false := by
    intro s f hf p h1 h2
    have := h.slabOwn s f hf p h1 h2
    apply hsep <;> rw [this] <;> simp
  constructor
  · intro n' m' hm'
    simp only [upd] at hm'
    split at hm'
    · cases hm'; exact hb
    · exact h.bound n' m' hm'
  · intro n' m' hm' p h1 h2
    simp only [upd] at hm'
    split at hm'
    · cases hm'; subst n'; simp [h1, h2]
    · have e := h.ownNode n' m' hm' p h1 h2
      have h3 := hsep p (by rw [e]; simp) (by rw [e]; simpa)
      simp [h3.1, h3.2, e]
  · intro p n' d
    rw [hcl]
    constructor
    · rintro (⟨rfl, h1⟩ | ⟨h1, h2⟩)
      · exact ⟨nm, by simp [upd], NodeMeta.has_iff.1 h1⟩
      · obtain ⟨m', hm', h3⟩ := (h.ports _ _ _).1 h2
        exact ⟨m', by simp [upd, h1, hm'], h3⟩
    · rintro ⟨m', hm', h1⟩
      simp only [upd] at hm'
      split at hm'
      · cases hm'; left; exact ⟨by assumption, NodeMeta.has_iff.2 h1⟩
      · right; exact ⟨by assumption, (h.ports _ _ _).2 ⟨m', hm', h1⟩⟩
  · intro p' n' d q' hp' hq'
    -- the old name of `p'`
    have hold : ∃ p q, pt p = some (n', d) ∧ lk p = some q ∧ shift m nm p = p' ∧
        shift m nm q = q' := by
      rcases (hcl p' n' d).1 hp' with ⟨rfl, h1⟩ | ⟨h1, h2⟩
      · rw [relinked_has h1] at hq'
        have h1' := NodeMeta.has_iff.1 h1
        split at hq'
        · rename_i hlt
          cases e : lk (m.start d + (p' - nm.start d)) with
          | none => rw [e] at hq'; simp at hq'
          | some q =>
            rw [e] at hq'; simp at hq'
            have hmp : m.has d (m.start d + (p' - nm.start d)) = true := by
              rw [NodeMeta.has_iff]; omega
            refine ⟨_, q, (h.ports_has hm).2 hmp, e, ?_, hq'⟩
            rw [shift_has hmp]; omega
        · simp at hq'
      · have h3 := hother p' n' d h2 h1
        rw [relinked_other (NodeMeta.not_has hb.1 h3.2) h3.1 h3.2, h2] at hq'
        simp at hq'
        obtain ⟨q, hq, hq'⟩ := hq'
        exact ⟨p', q, h2, hq, shift_other (NodeMeta.not_has hbm.1 h3.1), hq'⟩
    obtain ⟨p, q, hp, hpq, rfl, rfl⟩ := hold
    obtain ⟨h1, n'', h2⟩ := h.links p n' d q hp hpq
    have h3 := himg q n'' d.reverse h2 (by simp [h1]) p n'
      (by rw [Direction.reverse_reverse]; exact hp) h1
    exact ⟨h3.1, n'', h3.2⟩
  · intro n' m' hm' p h1 h2
    simp only [upd] at hm'
    split at hm'
    · cases hm'
      apply relinked_slab
      · intro d
        cases e : nm.has d p with
        | false => rfl
        | true =>
          rw [NodeMeta.has_iff] at e
          have := nm.range_sub d p hb.1 e.1 e.2; omega
      · right; simp; omega
    · rename_i hne
      have e := h.ownNode n' m' hm' p (by omega) h2
      have h3 := hsep p (by rw [e]; simp) (by rw [e]; simpa)
      have h4 := h.unused n' m' hm' p h1 h2
      rw [relinked_other (NodeMeta.not_has hb.1 h3.2) h3.1 h3.2, h4]
      simp
  · exact h.slab
  · intro s f hf p h1 h2
    have := hslabsep s f hf p h1 h2
    simp [this.1, this.2, h.slabOwn s f hf p h1 h2]
  · intro s hs
    refine (h.chain s hs).congr fun x hx => ?_
    have h3 := hslabsep s x hx x (Nat.le_refl _) (by have := h.slab s x hx; omega)
    rw [relinked_other (NodeMeta.not_has hb.1 h3.2) h3.1 h3.2, h.slab_notPort hx]
    simp
  · exact h.nodup
  · intro p n' hp
    split at hp
    · next hr =>
      cases hp
      have hr' := inRange_iff.1 hr
      exact ⟨nm, by simp [upd], hr'.1, hr'.2⟩
    · split at hp
      · cases hp
      · next hr =>
        obtain ⟨m', hm', h1, h2⟩ := h.nodeOf p n' hp
        have hne : n' ≠ n := by
          rintro rfl
          rw [hm] at hm'; cases hm'
          exact hr (inRange_iff.2 ⟨h1, h2⟩)
        exact ⟨m', by simp [upd, hne, hm'], h1, h2⟩
  · intro p f s hp
    split at hp
    · cases hp
    · next hr1 =>
      split at hp
      · cases hp
      · next hr2 =>
        obtain ⟨h1, h2, h3, h4⟩ := h.slabOf p f s hp
        refine ⟨h1, h2, h3, fun e => ?_⟩
        rw [Bool.not_eq_true] at hr1 hr2
        rw [relinked_other (NodeMeta.not_has hb.1 hr1) hr2 hr1, h4 e]
        simp
  · intro p hp
    split at hp
    · cases hp
    · next hr1 =>
      rw [Bool.not_eq_true] at hr1
      split at hp
      · next hr2 => exact relinked_slab (NodeMeta.not_has hb.1 hr1) (.inl hr2)
      · next hr2 =>
        rw [Bool.not_eq_true] at hr2
        rw [relinked_other (NodeMeta.not_has hb.1 hr1) hr2 hr1, h.orphan p hp]
        simp

/-- Renaming the nodes owns the same slots. -/
theorem rename_full {len : Nat} {own : Nat → Owner} (ρ : Nat → Nat) (h : ∀ p < len, own p ≠ .none) :
    ∀ p < len, (fun p => match own p with | .node n => .node (ρ n) | o => o) p ≠ Owner.none := by
  intro p hp
  have := h p hp
  cases e : own p <;> simp_all

/-- Renaming nodes by `ρ`. -/
theorem PInv.rename (h : PInv len nd pt lk heads own fs) {nd' : Nat → Option NodeMeta}
    {pt' : Nat → Option (Nat × Direction)} (ρ : Nat → Nat)
    (hnd : ∀ n' m, nd' n' = some m ↔ ∃ n, ρ n = n' ∧ nd n = some m)
    (hpt : ∀ p, pt' p = (pt p).map fun x => (ρ x.1, x.2)) :
    PInv len nd' pt' lk heads
      (fun p => match own p with | .node n => .node (ρ n) | o => o) fs := by
  constructor
  · intro n' m hm
    obtain ⟨n, -, hn⟩ := (hnd n' m).1 hm
    exact h.bound n m hn
  · intro n' m hm p h1 h2
    obtain ⟨n, rfl, hn⟩ := (hnd n' m).1 hm
    simp [h.ownNode n m hn p h1 h2]
  · intro p n' d
    rw [hpt]
    constructor
    · intro hq
      cases e : pt p with
      | none => simp [e] at hq
      | some x =>
        obtain ⟨n, d'⟩ := x
        simp [e] at hq
        obtain ⟨rfl, rfl⟩ := hq
        obtain ⟨m, hm, h1⟩ := (h.ports _ _ _).1 e
        exact ⟨m, (hnd _ _).2 ⟨n, rfl, hm⟩, h1⟩
    · rintro ⟨m, hm, h1⟩
      obtain ⟨n, rfl, hn⟩ := (hnd n' m).1 hm
      rw [(h.ports _ _ _).2 ⟨m, hn, h1⟩]; rfl
  · intro p n' d q hp hq
    rw [hpt] at hp
    cases e : pt p with
    | none => simp [e] at hp
    | some x =>
      obtain ⟨n, d'⟩ := x
      simp [e] at hp
      obtain ⟨rfl, rfl⟩ := hp
      obtain ⟨h1, n'', h2⟩ := h.links p n d' q e hq
      exact ⟨h1, ρ n'', by rw [hpt, h2]; rfl⟩
  · intro n' m hm p h1 h2
    obtain ⟨n, -, hn⟩ := (hnd n' m).1 hm
    exact h.unused n m hn p h1 h2
  · exact h.slab
  · intro s f hf p h1 h2
    simp [h.slabOwn s f hf p h1 h2]
  · exact h.chain
  · exact h.nodup
  · intro p n' hp
    cases e : own p with
    | none => simp [e] at hp
    | slab f s => simp [e] at hp
    | node n =>
      simp [e] at hp
      obtain ⟨m, hm, h1⟩ := h.nodeOf p n e
      exact ⟨m, (hnd n' m).2 ⟨n, hp, hm⟩, h1⟩
  · intro p f s hp
    cases e : own p with
    | none => simp [e] at hp
    | node n => simp [e] at hp
    | slab f' s' =>
      simp [e] at hp
      obtain ⟨rfl, rfl⟩ := hp
      exact h.slabOf p _ _ e
  · intro p hp
    cases e : own p with
    | none => exact h.orphan p e
    | node n => simp [e] at hp
    | slab f' s' => simp [e] at hp

end

end Verif.PG
