import Verif.Index.Model

/-! Helper lemmas about the bit operations of `Verif.Index.Model`. -/

namespace Verif.Index

theorem msbMask_eq (w : Nat) (hw : 0 < w) : msbMask w = BitVec.twoPow w (w - 1) := by
  apply BitVec.eq_of_toNat_eq
  obtain ⟨k, rfl⟩ : ∃ k, w = k + 1 := ⟨w - 1, by omega⟩
  have h1 : 2 ^ (k + 1) = 2 * 2 ^ k := by rw [Nat.pow_succ]; omega
  have h2 : 0 < 2 ^ k := Nat.two_pow_pos k
  simp [msbMask, BitVec.toNat_sub, BitVec.toNat_twoPow, Nat.shiftRight_eq_div_pow]
  rw [h1]
  have h3 : (2 * 2 ^ k - 1) / 2 = 2 ^ k - 1 := by omega
  rw [h3]
  have h4 : 2 * 2 ^ k - (2 ^ k - 1) + (2 * 2 ^ k - 1) = 2 ^ k + 2 * 2 ^ k := by omega
  rw [h4, Nat.add_mod_right]

theorem maxIndex_eq (w : Nat) (hw : 2 ≤ w) : maxIndex w = 2 ^ (w - 1) - 2 := by
  obtain ⟨k, rfl⟩ : ∃ k, w = k + 1 := ⟨w - 1, by omega⟩
  have h1 : 2 ^ (k + 1) = 2 * 2 ^ k := by rw [Nat.pow_succ]; omega
  simp [maxIndex, Nat.shiftRight_eq_div_pow]
  rw [h1]; omega

theorem half_lt (w : Nat) (hw : 2 ≤ w) : 2 ^ w = 2 * 2 ^ (w - 1) ∧ 2 ≤ 2 ^ (w - 1) := by
  obtain ⟨k, rfl⟩ : ∃ k, w = k + 2 := ⟨w - 2, by omega⟩
  have h1 : 2 ^ (k + 1) = 2 * 2 ^ k := by rw [Nat.pow_succ]; omega
  have h2 : 2 ^ (k + 2) = 2 * 2 ^ (k + 1) := by rw [Nat.pow_succ 2 (k + 1)]; omega
  have h3 : 0 < 2 ^ k := Nat.two_pow_pos k
  simp; omega

/-- The mask test reads the most significant bit. -/
theorem and_msb (w : Nat) (hw : 0 < w) (b : BitVec w) :
    ((b &&& msbMask w) != 0#w) = b.msb := by
  rw [msbMask_eq w hw, BitVec.msb_eq_getLsbD_last]
  by_cases hb : b.getLsbD (w - 1)
  · rw [hb, bne_iff_ne]
    intro h
    have := congrArg (fun x => x.getLsbD (w - 1)) h
    simp [hb] at this
    omega
  · simp only [Bool.not_eq_true] at hb
    rw [hb]
    simp only [bne_eq_false_iff_eq]
    apply BitVec.eq_of_getLsbD_eq
    intro i hi
    simp [BitVec.getLsbD_twoPow]
    intro h1 h2 h3
    subst h3; simp [hb] at h1

theorem indexUnchecked_eq (w : Nat) (hw : 0 < w) (b : BitVec w) :
    indexUnchecked b = b.toNat % 2 ^ (w - 1) := by
  unfold indexUnchecked
  rw [msbMask_eq w hw]
  apply Nat.eq_of_testBit_eq
  intro i
  have e : (b &&& ~~~BitVec.twoPow w (w - 1)).toNat.testBit i
      = (b &&& ~~~BitVec.twoPow w (w - 1)).getLsbD i := (BitVec.testBit_toNat _)
  rw [e, Nat.testBit_mod_two_pow]
  simp [BitVec.getLsbD_twoPow, BitVec.testBit_toNat]
  by_cases h : i < w
  · by_cases h2 : w - 1 = i
    · simp [h2]
    · have : i < w - 1 := by omega
      simp [h, h2, this]
  · have h1 : b.getLsbD i = false := BitVec.getLsbD_of_ge _ _ (by omega)
    simp [h1]

theorem setFlag_toNat (w : Nat) (hw : 0 < w) (n : Nat) (hn : n < 2 ^ (w - 1)) :
    (BitVec.ofNat w n ||| msbMask w).toNat = n + 2 ^ (w - 1) := by
  rw [msbMask_eq w hw]
  have h2 : 2 ^ (w - 1) < 2 ^ w := Nat.pow_lt_pow_right (by omega) (by omega)
  rw [BitVec.toNat_or, BitVec.toNat_ofNat, BitVec.toNat_twoPow, Nat.mod_eq_of_lt (by omega),
    Nat.mod_eq_of_lt h2]
  have := Nat.two_pow_add_eq_or_of_lt hn 1
  rw [Nat.mul_one] at this
  rw [Nat.add_comm, this, Nat.or_comm]

theorem isNone_iff {w : Nat} (b : BitVec w) : isNone b = true ↔ b.toNat = 2 ^ w - 1 := by
  unfold isNone newNone
  rw [beq_iff_eq, ← BitVec.toNat_inj, BitVec.toNat_allOnes]

theorem isNone_false_iff {w : Nat} (b : BitVec w) : isNone b = false ↔ b.toNat ≠ 2 ^ w - 1 := by
  rw [← Bool.not_eq_true, isNone_iff]

theorem msb_eq (w : Nat) (b : BitVec w) : b.msb = decide (2 ^ (w - 1) ≤ b.toNat) :=
  BitVec.msb_eq_decide b

end Verif.Index
