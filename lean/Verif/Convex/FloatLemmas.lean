import Verif.Convex.FloatModel
import Mathlib.Tactic.Linarith
import Mathlib.Tactic.Positivity
import Mathlib.Tactic.FieldSimp
import Mathlib.Tactic.NormNum
import Mathlib.Tactic.Push

/-!
# Rounding keeps the order and small integers
-/

namespace Verif.Convex

namespace Line

theorem roundEven_le (x : ℚ) : ⌊x⌋ ≤ roundEven x ∧ roundEven x ≤ ⌊x⌋ + 1 := by
  unfold roundEven
  split_ifs <;> omega

theorem roundEven_mono {x y : ℚ} (h : x ≤ y) : roundEven x ≤ roundEven y := by
  have h1 : ⌊x⌋ ≤ ⌊y⌋ := Int.floor_le_floor h
  rcases Int.lt_or_eq_of_le h1 with h1 | h1
  · have := (roundEven_le x).2
    have := (roundEven_le y).1
    omega
  · unfold roundEven
    rw [← h1]
    have h2 : x - (⌊x⌋ : ℚ) ≤ y - (⌊x⌋ : ℚ) := by linarith
    split_ifs <;> first | omega | (exfalso; linarith)

theorem roundEven_int (n : ℤ) : roundEven (n : ℚ) = n := by
  unfold roundEven
  rw [Int.floor_intCast, if_pos (by norm_num)]

theorem zpos (e : ℤ) : (0 : ℚ) < 2 ^ e := zpow_pos (by norm_num) e

theorem zpow_nat (k : ℕ) : (2 : ℚ) ^ (k : ℤ) = ((2 ^ k : ℤ) : ℚ) := by
  rw [zpow_natCast]; push_cast; rfl

/-- A multiple of the last digit is kept. -/
theorem round_mul {z e : ℤ} (h : e ≤ z) : (roundEven ((2 : ℚ) ^ z / 2 ^ e) : ℚ) * 2 ^ e = 2 ^ z := by
  obtain ⟨k, rfl⟩ := Int.le.dest h
  rw [zpow_add₀ (by norm_num), mul_div_cancel_left₀ _ (ne_of_gt (zpos e)), zpow_nat, roundEven_int, mul_comm]

theorem f64_nonneg (x : ℚ) : 0 ≤ f64 x := by
  unfold f64
  split_ifs with h
  · exact le_refl _
  · have h1 : (0 : ℤ) ≤ roundEven (x / (2 : ℚ) ^ max (Int.log 2 x - 52) (-1074)) := by
      have := roundEven_mono (x := ((0 : ℤ) : ℚ)) (y := x / (2 : ℚ) ^ max (Int.log 2 x - 52) (-1074)) (by push_cast; exact le_of_lt (div_pos (not_le.1 h) (zpos _)))
      rwa [roundEven_int] at this
    have h2 : (0 : ℚ) ≤ (roundEven (x / (2 : ℚ) ^ max (Int.log 2 x - 52) (-1074)) : ℚ) := by exact_mod_cast h1
    exact mul_nonneg h2 (le_of_lt (zpos _))

theorem f64_mono {x y : ℚ} (h : x ≤ y) : f64 x ≤ f64 y := by
  by_cases hx : x ≤ 0
  · have : f64 x = 0 := by unfold f64; rw [if_pos hx]
    rw [this]; exact f64_nonneg y
  · have hx' : 0 < x := not_le.1 hx
    have hy' : 0 < y := lt_of_lt_of_le hx' h
    have hlog : Int.log 2 x ≤ Int.log 2 y := Int.log_mono_right hx' h
    unfold f64
    rw [if_neg hx, if_neg (not_le.2 hy')]
    generalize hex : max (Int.log 2 x - 52) (-1074) = ex
    generalize hey : max (Int.log 2 y - 52) (-1074) = ey
    by_cases he : ex = ey
    · subst he
      have h1 := roundEven_mono (div_le_div_of_nonneg_right h (le_of_lt (zpos ex)))
      have h2 : (roundEven (x / 2 ^ ex) : ℚ) ≤ roundEven (y / 2 ^ ex) := by exact_mod_cast h1
      exact mul_le_mul_of_nonneg_right h2 (le_of_lt (zpos _))
    · have hlt : ex < ey := by omega
      have hl : Int.log 2 x < Int.log 2 y := by omega
      have h1 : x ≤ 2 ^ Int.log 2 y := by
        have := Int.lt_zpow_succ_log_self (b := 2) (by norm_num) x
        have h2 : ((2 : ℕ) : ℚ) ^ (Int.log 2 x + 1) ≤ (2 : ℚ) ^ Int.log 2 y := by
          push_cast
          exact zpow_le_zpow_right₀ (by norm_num) (by omega)
        exact le_of_lt (lt_of_lt_of_le this h2)
      have h2 : (2 : ℚ) ^ Int.log 2 y ≤ y := by
        have := Int.zpow_log_le_self (b := 2) (by norm_num) hy'
        exact_mod_cast this
      calc (roundEven (x / 2 ^ ex) : ℚ) * 2 ^ ex
          ≤ (roundEven ((2 : ℚ) ^ Int.log 2 y / 2 ^ ex) : ℚ) * 2 ^ ex := by
            have h3 := roundEven_mono (div_le_div_of_nonneg_right h1 (le_of_lt (zpos ex)))
            exact mul_le_mul_of_nonneg_right (by exact_mod_cast h3) (le_of_lt (zpos _))
        _ = 2 ^ Int.log 2 y := round_mul (by omega)
        _ = (roundEven ((2 : ℚ) ^ Int.log 2 y / 2 ^ ey) : ℚ) * 2 ^ ey := (round_mul (by omega)).symm
        _ ≤ (roundEven (y / 2 ^ ey) : ℚ) * 2 ^ ey := by
            have h3 := roundEven_mono (div_le_div_of_nonneg_right h2 (le_of_lt (zpos ey)))
            exact mul_le_mul_of_nonneg_right (by exact_mod_cast h3) (le_of_lt (zpos _))

/-- Integers up to `2 ^ 53` are kept. -/
theorem f64_nat {n : ℕ} (h : n ≤ 2 ^ 53) : f64 n = n := by
  unfold f64
  split_ifs with h0
  · have : n = 0 := by exact_mod_cast le_antisymm h0 (by positivity)
    subst this; simp
  · have hn : 0 < n := by
      rcases Nat.eq_zero_or_pos n with e | e
      · subst e; simp at h0
      · exact e
    have hlog : Int.log 2 (n : ℚ) = (Nat.log 2 n : ℤ) := Int.log_natCast _ _
    rw [hlog]
    have h1 : 2 ^ Nat.log 2 n ≤ n := Nat.pow_log_le_self 2 (by omega)
    have h2 : Nat.log 2 n ≤ 53 := (Nat.pow_le_pow_iff_right (by norm_num)).1 (le_trans h1 h)
    rcases Nat.lt_or_ge (Nat.log 2 n) 53 with h3 | h3
    · have e : max ((Nat.log 2 n : ℤ) - 52) (-1074) = -((52 - Nat.log 2 n : ℕ) : ℤ) := by omega
      rw [e, zpow_neg, div_inv_eq_mul, zpow_nat]
      have : ((n : ℚ) * ((2 ^ (52 - Nat.log 2 n) : ℤ) : ℚ)) = (((n : ℤ) * 2 ^ (52 - Nat.log 2 n) : ℤ) : ℚ) := by push_cast; rfl
      rw [this, roundEven_int]
      push_cast
      rw [mul_assoc, mul_inv_cancel₀ (by positivity), mul_one]
    · have e1 : Nat.log 2 n = 53 := by omega
      have e2 : n = 2 ^ 53 := by rw [e1] at h1; omega
      rw [e1, e2]
      have e : max (((53 : ℕ) : ℤ) - 52) (-1074) = 1 := by norm_num
      rw [e]
      have : (((2 ^ 53 : ℕ) : ℚ) / 2 ^ (1 : ℤ)) = (((2 ^ 52 : ℤ)) : ℚ) := by norm_num
      rw [this, roundEven_int]
      norm_num

/-- The number added to `low` is at most `high - low`. -/
theorem offset_le {a b w : ℕ} (hab : a ≤ b) (hb : b ≤ 2 ^ 53) (hw : w ≤ 2 ^ 53) : offset a b w ≤ w := by
  unfold offset
  rw [f64_nat (le_trans hab hb), f64_nat hb, f64_nat hw]
  have h1 : (a : ℚ) / b ≤ 1 := div_le_one_of_le₀ (by exact_mod_cast hab) (by positivity)
  have h2 : f64 ((a : ℚ) / b) ≤ 1 := by
    have h3 := f64_mono h1
    have h4 : f64 ((1 : ℕ) : ℚ) = ((1 : ℕ) : ℚ) := f64_nat (by norm_num)
    rw [Nat.cast_one] at h4
    rwa [h4] at h3
  have h3 : f64 ((a : ℚ) / b) * w ≤ (w : ℚ) := mul_le_of_le_one_left (by positivity) h2
  have h4 : f64 (f64 ((a : ℚ) / b) * w) ≤ w := by
    have h5 := f64_mono h3
    rwa [f64_nat hw] at h5
  rw [Int.toNat_le]
  have h5 : ⌊f64 (f64 ((a : ℚ) / b) * w) + 1 / 2⌋ < (w : ℤ) + 1 := by
    rw [Int.floor_lt]
    push_cast
    linarith
  omega

end Line

end Verif.Convex
