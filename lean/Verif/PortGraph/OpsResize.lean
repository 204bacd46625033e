import Verif.PortGraph.OpsMove

/-! Effect of `set_num_ports`. -/

namespace Verif.PG

open Verif (Direction)

/-! ## Arithmetic of the new capacity -/

theorem nextPow2.go_spec (n fuel p : Nat) (hp : ∃ k, p = 2 ^ k) (hlow : p < 2 * n ∨ p = 1)
    (hfuel : n ≤ p * 2 ^ fuel) :
    n ≤ PG.nextPow2.go n fuel p ∧ (PG.nextPow2.go n fuel p < 2 * n ∨ PG.nextPow2.go n fuel p = 1) ∧
      ∃ k, PG.nextPow2.go n fuel p = 2 ^ k := by
  induction fuel generalizing p with
  | zero => simp at hfuel; exact ⟨hfuel, hlow, hp⟩
  | succ fuel ih =>
    simp only [PG.nextPow2.go]
    split
    · rename_i h; exact ⟨h, hlow, hp⟩
    · rename_i h
      apply ih
      · obtain ⟨k, rfl⟩ := hp; exact ⟨k + 1, by rw [Nat.pow_succ]; omega⟩
      · left; omega
      · rw [Nat.pow_succ] at hfuel
        have : 2 * p * 2 ^ fuel = p * (2 ^ fuel * 2) := by
          rw [Nat.mul_comm 2 p, Nat.mul_assoc, Nat.mul_comm 2]
        omega

theorem nextPow2_spec (n : Nat) : n ≤ PG.nextPow2 n ∧ (PG.nextPow2 n < 2 * n ∨ PG.nextPow2 n = 1) ∧
    ∃ k, PG.nextPow2 n = 2 ^ k := by
  apply nextPow2.go_spec
  · exact ⟨0, rfl⟩
  · right; rfl
  · have := Nat.lt_two_pow_self (n := n); omega

theorem nextPow2_le {n : Nat} (hn : n ≤ 32768) : PG.nextPow2 n ≤ 32768 := by
  obtain ⟨_, h2, k, hk⟩ := nextPow2_spec n
  rcases h2 with h2 | h2
  · rw [hk] at h2 ⊢
    have : 2 ^ k < 2 ^ 16 := by have : (2:Nat) ^ 16 = 65536 := by decide
                                omega
    have hk16 : k < 16 := (Nat.pow_lt_pow_iff_right (by omega)).1 this
    have : (2:Nat) ^ k ≤ 2 ^ 15 := Nat.pow_le_pow_right (by omega) (by omega)
    have : (2:Nat) ^ 15 = 32768 := by decide
    omega
  · omega

/-! ## Lists of pairs -/

theorem zip_range' (a b j k : Nat) : (List.range' a j).zip (List.range' b k) =
    (List.range' a (min j k)).zip (List.range' b (min j k)) := by
  induction j generalizing a b k with
  | zero => simp
  | succ j ih =>
    cases k with
    | zero => simp
    | succ k =>
      rw [show min (j + 1) (k + 1) = min j k + 1 by omega]
      simp only [List.range'_succ, List.zip_cons_cons]
      rw [ih]

theorem mem_droppedPorts {m : NodeMeta} {inc out p : Nat} :
    p ∈ PG.droppedPorts m inc out ↔
      (m.has .incoming p = true ∧ inc ≤ p - m.start .incoming) ∨
      (m.has .outgoing p = true ∧ out ≤ p - m.start .outgoing) := by
  simp only [PG.droppedPorts, NodeMeta.ports, List.mem_append, NodeMeta.has_iff]
  simp only [List.drop_range', List.mem_range'_1]
  constructor
  · rintro (h | h)
    · left; omega
    · right; omega
  · rintro (h | h)
    · left; omega
    · right; omega

/-! ## Counting -/

theorem cnt_conj {len : Nat} {pt : Nat → Option (Nat × Direction)} {lk : Nat → Option Nat} {τ : Nat → Nat}
    (hinv : ∀ p, τ (τ p) = p) (hpt : ∀ p, pt (τ p) = pt p) (hlen : ∀ p, (pt p).isSome → p < len)
    (d : Direction) :
    cnt len (linkedDir pt (conj pt lk τ) d) = cnt len (linkedDir pt lk d) := by
  have key : ∀ p, linkedDir pt (conj pt lk τ) d (τ p) = linkedDir pt lk d p := by
    intro p
    unfold linkedDir
    rw [hpt]
    cases e : pt p with
    | none => rfl
    | some x => simp [conj, hpt, e, hinv]
  have hs : ∀ lk p, linkedDir pt lk d p = true → p < len := by
    intro lk p h
    obtain ⟨n, h1, _⟩ := linkedDir_iff.1 h
    exact hlen p (by simp [h1])
  apply cnt_bij τ τ
  · intro i hi h
    have h2 : linkedDir pt lk d (τ i) = true := by rw [← key, hinv]; exact h
    exact ⟨hs _ _ h2, h2, hinv i⟩
  · intro i hi h
    have h2 : linkedDir pt (conj pt lk τ) d (τ i) = true := by rw [key]; exact h
    exact ⟨hs _ _ h2, h2, hinv i⟩

theorem cnt_reclaimed {len : Nat} {pt : Nat → Option (Nat × Direction)} {n} {m nm : NodeMeta}
    (hb : nm.incoming + nm.outgoing ≤ nm.capacity ∧ nm.first + nm.capacity ≤ len)
    (ho : ∀ p, nm.first ≤ p → p < nm.first + nm.capacity → inRange m.first m.capacity p = true ∨ pt p = none) :
    cnt len (fun p => (reclaimed pt n m nm p).isSome) =
      cnt len (fun p => (if inRange m.first m.capacity p then none else pt p).isSome) + nm.portCount := by
  apply cnt_insert_range (a := nm.first) (k := nm.portCount)
  · simp only [NodeMeta.portCount]; omega
  · intro i h1 h2
    simp only [NodeMeta.portCount] at h2
    rcases ho i h1 (by omega) with h | h
    · simp [h]
    · split <;> simp [h]
  · intro i h1 h2
    simp only [NodeMeta.portCount] at h2
    obtain ⟨d, hd⟩ := nm.range_dir i h1 (by omega)
    rw [reclaimed_has (NodeMeta.has_iff.2 hd)]; rfl
  · intro j _ hj
    simp only [NodeMeta.portCount] at hj
    have hnh : ∀ d, nm.has d j = false := by
      intro d
      cases e : nm.has d j with
      | false => rfl
      | true =>
        have e := NodeMeta.has_iff.1 e
        have := nm.range_sub d j hb.1 e.1 e.2
        omega
    cases e : inRange m.first m.capacity j with
    | true => rw [reclaimed_slab hnh e]; rfl
    | false => rw [reclaimed_other hnh e]; rfl

/-- Counting links when the ports of one node move. -/
theorem cnt_relinked {len : Nat} {nd pt lk heads own fs} (h : PInv len nd pt lk heads own fs) {n}
    {m nm : NodeMeta} (hm : nd n = some m)
    (hb : nm.incoming + nm.outgoing ≤ nm.capacity ∧ nm.first + nm.capacity ≤ len)
    (ho : ∀ p, nm.first ≤ p → p < nm.first + nm.capacity → own p = .none ∨ own p = .node n)
    (hdrop : ∀ d p, m.has d p = true → nm.numPorts d ≤ p - m.start d → lk p = none) (d : Direction) :
    cnt len (linkedDir (reclaimed pt n m nm) (relinked pt lk m nm) d) = cnt len (linkedDir pt lk d) := by
  have hbm := h.bound n m hm
  have hout : ∀ p n' d', pt p = some (n', d') → n' ≠ n →
      inRange m.first m.capacity p = false ∧ inRange nm.first nm.capacity p = false := by
    intro p n' d' hp hne
    have e := h.pt_own hp
    constructor
    · rw [inRange_eq_false]; intro h3
      have := h.ownNode n m hm p h3.1 h3.2; rw [e] at this; simp at this; exact hne this
    · rw [inRange_eq_false]; intro h3
      rcases ho p h3.1 h3.2 with h4 | h4 <;> rw [e] at h4 <;> simp at h4; exact hne h4
  symm
  apply cnt_bij (shift m nm) (shift nm m)
  · intro p hp hl
    obtain ⟨n', hpt, hlk⟩ := linkedDir_iff.1 hl
    by_cases e : n' = n
    · subst e
      have hmp := (h.ports_has hm).1 hpt
      have hmp' := NodeMeta.has_iff.1 hmp
      have hk : p - m.start d < nm.numPorts d := by
        apply Classical.byContradiction
        intro hc
        rw [hdrop d p hmp (by omega)] at hlk; simp at hlk
      have hs := shift_has (nm := nm) hmp
      have hn : nm.has d (shift m nm p) = true := by rw [hs, NodeMeta.has_iff]; omega
      have hr := nm.range_sub d _ hb.1 (NodeMeta.has_iff.1 hn).1 (NodeMeta.has_iff.1 hn).2
      refine ⟨by omega, ?_, ?_⟩
      · rw [linkedDir_iff]
        refine ⟨n', reclaimed_has hn, ?_⟩
        rw [relinked_has hn, hs, Nat.add_sub_cancel_left, if_pos (by omega), Nat.add_sub_cancel' hmp'.1]
        simpa using hlk
      · rw [shift_has hn, hs]; omega
    · have h1 := hout p n' d hpt e
      have h2 : shift m nm p = p := shift_other (NodeMeta.not_has hbm.1 h1.1)
      have h3 : shift nm m p = p := shift_other (NodeMeta.not_has hb.1 h1.2)
      refine ⟨by omega, ?_, by rw [h2, h3]⟩
      rw [h2, linkedDir_iff]
      refine ⟨n', by rw [reclaimed_other (NodeMeta.not_has hb.1 h1.2) h1.1]; exact hpt, ?_⟩
      rw [relinked_other (NodeMeta.not_has hb.1 h1.2) h1.1 h1.2, hpt]
      simpa using hlk
  · intro p hp hl
    obtain ⟨n', hpt, hlk⟩ := linkedDir_iff.1 hl
    by_cases e : ∃ d', nm.has d' p = true
    · obtain ⟨d', hd'⟩ := e
      rw [reclaimed_has hd'] at hpt
      simp at hpt
      obtain ⟨rfl, rfl⟩ := hpt
      rw [relinked_has hd'] at hlk
      have hd := NodeMeta.has_iff.1 hd'
      split at hlk
      · rename_i hlt
        have hs := shift_has (nm := m) hd'
        have hmh : m.has d' (m.start d' + (p - nm.start d')) = true := by rw [NodeMeta.has_iff]; omega
        have hr := m.range_sub d' _ hbm.1 (NodeMeta.has_iff.1 hmh).1 (NodeMeta.has_iff.1 hmh).2
        rw [hs]
        refine ⟨by omega, ?_, ?_⟩
        · rw [linkedDir_iff]
          exact ⟨n, (h.ports_has hm).2 hmh, by simpa using hlk⟩
        · rw [shift_has hmh]; omega
      · simp at hlk
    · have e' : ∀ d', nm.has d' p = false := fun d' => by
        cases e2 : nm.has d' p with
        | false => rfl
        | true => exact absurd ⟨d', e2⟩ e
      cases e2 : inRange m.first m.capacity p with
      | true => rw [reclaimed_slab e' e2] at hpt; simp at hpt
      | false =>
        rw [reclaimed_other e' e2] at hpt
        cases e3 : inRange nm.first nm.capacity p with
        | true => rw [relinked_slab e' (Or.inr e3)] at hlk; simp at hlk
        | false =>
          rw [relinked_other e' e2 e3, hpt] at hlk
          have h2 : shift m nm p = p := shift_other (NodeMeta.not_has hbm.1 e2)
          have h3 : shift nm m p = p := shift_other e'
          rw [h3, h2]
          refine ⟨hp, ?_, rfl⟩
          rw [linkedDir_iff]
          exact ⟨n', hpt, by simpa using hlk⟩

end Verif.PG
