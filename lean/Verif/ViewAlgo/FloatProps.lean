import Verif.Convex.FloatSearch
import Verif.Convex.FloatSpec
import Verif.ViewAlgo.LineSizeProps

/-!
# C84: the line checker with floating point numbers

The search for a position on a line guesses the index in floating point numbers. The guess is within
the bounds of the search, so that the results of C32 and C54 hold for the checker with `f64`.
-/

namespace Verif.Convex

namespace Line

theorem roundEven_near (t : ℚ) (k : ℤ) : |(roundEven t : ℚ) - t| ≤ |(k : ℚ) - t| := by
  have h1 := Int.floor_le t
  have h2 := Int.lt_floor_add_one t
  have hk : |(⌊t⌋ : ℚ) - t| ≤ |(k : ℚ) - t| ∨ (⌊t⌋ : ℚ) + 1 ≤ k := by
    rcases lt_or_ge ⌊t⌋ k with h | h
    · right; exact_mod_cast h
    · left
      have h' : (k : ℚ) ≤ ⌊t⌋ := by exact_mod_cast h
      rw [abs_of_nonpos (by linarith), abs_of_nonpos (by linarith)]
      linarith
  have hk' : |(⌊t⌋ : ℚ) + 1 - t| ≤ |(k : ℚ) - t| ∨ (k : ℚ) ≤ ⌊t⌋ := by
    rcases lt_or_ge ⌊t⌋ k with h | h
    · left
      have h' : (⌊t⌋ : ℚ) + 1 ≤ k := by exact_mod_cast h
      rw [abs_of_nonneg (by linarith), abs_of_nonneg (by linarith)]
      linarith
    · right; exact_mod_cast h
  have e1 : |(⌊t⌋ : ℚ) - t| = t - ⌊t⌋ := by rw [abs_of_nonpos (by linarith)]; ring
  have e2 : |(⌊t⌋ : ℚ) + 1 - t| = ⌊t⌋ + 1 - t := abs_of_nonneg (by linarith)
  have down : t - ⌊t⌋ ≤ 1 / 2 → |(⌊t⌋ : ℚ) - t| ≤ |(k : ℚ) - t| := by
    intro h
    rcases hk with hk | hk
    · exact hk
    · rw [e1, abs_of_nonneg (by linarith)]; linarith
  have up : 1 / 2 ≤ t - ⌊t⌋ → |((⌊t⌋ + 1 : ℤ) : ℚ) - t| ≤ |(k : ℚ) - t| := by
    intro h
    push_cast
    rcases hk' with hk | hk
    · exact hk
    · rw [e2, abs_of_nonpos (by linarith)]; linarith
  unfold roundEven
  split_ifs with h3 h4 h5
  · exact down (le_of_lt h3)
  · exact up (le_of_lt h4)
  · exact down (not_lt.1 h4)
  · exact up (not_lt.1 h3)

theorem f64_eq {x : ℚ} (hx : 0 < x) : ∃ e : ℤ, e = max (Int.log 2 x - 52) (-1074) ∧ f64 x = roundEven (x / 2 ^ e) * 2 ^ e ∧
    x < 2 ^ (Int.log 2 x + 1) ∧ (2 : ℚ) ^ Int.log 2 x ≤ x := by
  refine ⟨_, rfl, ?_, ?_, ?_⟩
  · unfold f64; rw [if_neg (not_le.2 hx)]
  · have := Int.lt_zpow_succ_log_self (b := 2) (by norm_num) x
    exact_mod_cast this
  · have := Int.zpow_log_le_self (b := 2) (by norm_num) hx
    exact_mod_cast this

/-- The rounded number is a floating point number, and no other one is nearer. -/
theorem C84_rounding {x : ℚ} (hx : 0 < x) : IsF64 (f64 x) ∧ ∀ y, IsF64 y → |f64 x - x| ≤ |y - x| := by
  obtain ⟨e, he, h1, h2, h3⟩ := f64_eq hx
  have hu := zpos e
  have hxu : x = x / 2 ^ e * 2 ^ e := (div_mul_cancel₀ _ (ne_of_gt hu)).symm
  have hmul : ∀ k : ℤ, |f64 x - x| ≤ |(k : ℚ) * 2 ^ e - x| := by
    intro k
    have h := roundEven_near (x / 2 ^ e) k
    have e1 : f64 x - x = (roundEven (x / 2 ^ e) - x / 2 ^ e) * 2 ^ e := by rw [h1, sub_mul, ← hxu]
    have e2 : (k : ℚ) * 2 ^ e - x = (k - x / 2 ^ e) * 2 ^ e := by rw [sub_mul, ← hxu]
    rw [e1, e2, abs_mul, abs_mul]
    exact mul_le_mul_of_nonneg_right h (abs_nonneg _)
  constructor
  · have h4 : (0 : ℤ) ≤ roundEven (x / 2 ^ e) := by
      have := roundEven_mono (x := ((0 : ℤ) : ℚ)) (y := x / 2 ^ e) (by push_cast; exact le_of_lt (div_pos hx hu))
      rwa [roundEven_int] at this
    have h5 : roundEven (x / 2 ^ e) ≤ 2 ^ 53 := by
      have h6 : x / 2 ^ e ≤ (((2 ^ 53 : ℤ)) : ℚ) := by
        rw [div_le_iff₀ hu]
        have h7 : (((2 ^ 53 : ℤ)) : ℚ) * 2 ^ e = 2 ^ (53 + e) := by
          rw [zpow_add₀ (by norm_num)]; norm_num
        rw [h7]
        exact le_trans (le_of_lt h2) (zpow_le_zpow_right₀ (by norm_num) (by omega))
      have := roundEven_mono h6
      rwa [roundEven_int] at this
    obtain ⟨m, hm⟩ := Int.eq_ofNat_of_zero_le h4
    rw [hm] at h1 h5
    have h5' : m ≤ 2 ^ 53 := by exact_mod_cast h5
    rcases Nat.lt_or_ge m (2 ^ 53) with h | h
    · exact ⟨m, e, h, by omega, by rw [h1]; norm_cast⟩
    · have : m = 2 ^ 53 := le_antisymm h5' h
      refine ⟨2 ^ 52, e + 1, by norm_num, by omega, ?_⟩
      rw [h1, this, zpow_add₀ (by norm_num)]
      push_cast
      ring
  · rintro y ⟨m, e', hm, he', rfl⟩
    rcases lt_or_ge e' e with h | h
    · have hlog : e = Int.log 2 x - 52 := by omega
      have h4 : (m : ℚ) * 2 ^ e' < 2 ^ Int.log 2 x := by
        have h5 : (m : ℚ) < (2 : ℚ) ^ (53 : ℤ) := by exact_mod_cast hm
        calc (m : ℚ) * 2 ^ e' < (2 : ℚ) ^ (53 : ℤ) * 2 ^ e' := mul_lt_mul_of_pos_right h5 (zpos _)
          _ = 2 ^ (53 + e') := by rw [zpow_add₀ (by norm_num)]
          _ ≤ 2 ^ Int.log 2 x := zpow_le_zpow_right₀ (by norm_num) (by omega)
      have h6 := hmul (2 ^ 52)
      have h7 : (((2 ^ 52 : ℤ)) : ℚ) * 2 ^ e = 2 ^ Int.log 2 x := by
        have : Int.log 2 x = 52 + e := by omega
        rw [this, zpow_add₀ (by norm_num)]; norm_num
      rw [h7] at h6
      refine le_trans h6 ?_
      rw [abs_of_nonpos (by linarith), abs_of_nonpos (by linarith)]
      linarith
    · obtain ⟨k, rfl⟩ := Int.le.dest h
      have h4 := hmul (m * 2 ^ k)
      have h5 : (((m : ℤ) * 2 ^ k : ℤ) : ℚ) * 2 ^ e = (m : ℚ) * 2 ^ (e + (k : ℤ)) := by
        rw [zpow_add₀ (by norm_num), zpow_nat]; push_cast; ring
      rwa [h5] at h4

theorem roundEven_tie (t : ℚ) (k : ℤ) (hk : k ≠ roundEven t) (h : |(k : ℚ) - t| = |(roundEven t : ℚ) - t|) :
    roundEven t % 2 = 0 ∧ |k - roundEven t| = 1 := by
  have h1 := Int.floor_le t
  have h2 := Int.lt_floor_add_one t
  -- the other nearest integer is the reflection at `t`
  have hsum : (k : ℚ) + roundEven t = 2 * t := by
    rcases abs_eq_abs.1 h with h | h
    · exact absurd (by have : (k : ℚ) = roundEven t := by linarith
                       exact_mod_cast this) hk
    · linarith
  have hr : roundEven t = ⌊t⌋ ∨ roundEven t = ⌊t⌋ + 1 := by
    unfold roundEven; split_ifs <;> simp
  have hkk : k = 2 * ⌊t⌋ + 1 - roundEven t := by
    have hlo : (2 * ⌊t⌋ : ℚ) ≤ k + roundEven t := by linarith
    have hhi : ((k : ℚ) + roundEven t) < 2 * ⌊t⌋ + 2 := by linarith
    have hlo' : 2 * ⌊t⌋ ≤ k + roundEven t := by exact_mod_cast hlo
    have hhi' : k + roundEven t < 2 * ⌊t⌋ + 2 := by exact_mod_cast hhi
    have : k + roundEven t ≠ 2 * ⌊t⌋ := by
      intro e
      have e' : (k : ℚ) + roundEven t = 2 * ⌊t⌋ := by exact_mod_cast e
      have ht : t = ⌊t⌋ := by linarith
      have : roundEven t = ⌊t⌋ := by
        conv_lhs => rw [ht]
        exact roundEven_int _
      omega
    omega
  have ht : t - ⌊t⌋ = 1 / 2 := by
    have : (k : ℚ) = 2 * ⌊t⌋ + 1 - roundEven t := by exact_mod_cast hkk
    linarith
  refine ⟨?_, ?_⟩
  · unfold roundEven
    rw [if_neg (by linarith), if_neg (by linarith)]
    split_ifs <;> omega
  · rcases hr with e | e
    · rw [hkk, e]; have : 2 * ⌊t⌋ + 1 - ⌊t⌋ - ⌊t⌋ = 1 := by ring
      rw [this]; rfl
    · rw [hkk, e]; have : 2 * ⌊t⌋ + 1 - (⌊t⌋ + 1) - (⌊t⌋ + 1) = -1 := by ring
      rw [this]; rfl

/-- If another floating point number is as near as the rounded one, the two are neighbours, and the
rounded one is an even multiple of their distance. -/
theorem C84_ties {x y : ℚ} (hx : 0 < x) (hy : IsF64 y) (hne : y ≠ f64 x) (htie : |y - x| = |f64 x - x|) :
    ∃ (k e : ℤ), f64 x = 2 * k * 2 ^ e ∧ |y - f64 x| = 2 ^ e := by
  obtain ⟨e, he, h1, h2, h3⟩ := f64_eq hx
  have hu := zpos e
  have hxu : x = x / 2 ^ e * 2 ^ e := (div_mul_cancel₀ _ (ne_of_gt hu)).symm
  have hm : ∃ k : ℤ, y = k * 2 ^ e := by
    obtain ⟨m, e', hm, he', rfl⟩ := hy
    rcases lt_or_ge e' e with h | h
    · exfalso
      have hlog : e = Int.log 2 x - 52 := by omega
      have h4 : (m : ℚ) * 2 ^ e' < 2 ^ Int.log 2 x := by
        have h5 : (m : ℚ) < (2 : ℚ) ^ (53 : ℤ) := by exact_mod_cast hm
        calc (m : ℚ) * 2 ^ e' < (2 : ℚ) ^ (53 : ℤ) * 2 ^ e' := mul_lt_mul_of_pos_right h5 (zpos _)
          _ = 2 ^ (53 + e') := by rw [zpow_add₀ (by norm_num)]
          _ ≤ 2 ^ Int.log 2 x := zpow_le_zpow_right₀ (by norm_num) (by omega)
      have h6 := (C84_rounding hx).2 (2 ^ Int.log 2 x) ⟨2 ^ 52, e, by norm_num, by omega, by
        have : Int.log 2 x = 52 + e := by omega
        rw [this, zpow_add₀ (by norm_num)]; norm_num⟩
      rw [← htie, abs_of_nonpos (by linarith), abs_of_nonpos (by linarith)] at h6
      linarith
    · obtain ⟨k, rfl⟩ := Int.le.dest h
      exact ⟨m * 2 ^ k, by rw [zpow_add₀ (by norm_num), zpow_nat]; push_cast; ring⟩
  obtain ⟨k, rfl⟩ := hm
  have e1 : f64 x - x = (roundEven (x / 2 ^ e) - x / 2 ^ e) * 2 ^ e := by rw [h1, sub_mul, ← hxu]
  have e2 : (k : ℚ) * 2 ^ e - x = (k - x / 2 ^ e) * 2 ^ e := by rw [sub_mul, ← hxu]
  rw [e1, e2, abs_mul, abs_mul] at htie
  have h4 := mul_right_cancel₀ (ne_of_gt (abs_pos.2 (ne_of_gt hu))) htie
  obtain ⟨h5, h6⟩ := roundEven_tie _ k (fun h => hne (by rw [h1, h])) h4
  obtain ⟨j, hj⟩ := Int.dvd_of_emod_eq_zero h5
  refine ⟨j, e, by rw [h1, hj]; push_cast; ring, ?_⟩
  rw [h1, ← sub_mul, abs_mul, abs_of_pos hu]
  have : |(k : ℚ) - roundEven (x / 2 ^ e)| = 1 := by exact_mod_cast h6
  rw [this, one_mul]

/-- The guess in floating point numbers: for `a` of `b` positions and `w` indices, the step is at most
`w`. All numbers that occur are below `2 ^ 53` since positions are `u32`. -/
theorem C84_guess {a b w : ℕ} (hab : a ≤ b) (hb : b ≤ 2 ^ 53) (hw : w ≤ 2 ^ 53) : offset a b w ≤ w := offset_le hab hb hw

/-- The loop of the model runs the rounds. -/
theorem findLoop_rounds {c : Line} {guess : Nat → Nat → Nat} {line : List Nat} {pos : Nat} (f : Nat) : ∀ low high s,
    rounds c (progress guess) line pos f (low, high) = some s → findLoop c guess line pos f low high = none := by
  have shift : ∀ f s, rounds c (progress guess) line pos (f + 1) s =
      (round c (progress guess) line pos s).bind (rounds c (progress guess) line pos f) := by
    intro f
    induction f with
    | zero => intro s; simp [rounds]
    | succ f ih =>
      intro s
      rw [rounds, ih]
      cases round c (progress guess) line pos s <;> rfl
  induction f with
  | zero => intros; rfl
  | succ f ih =>
    intro low high s h
    rw [shift] at h
    simp only [findLoop]
    show (match line[progress guess low high]? with
      | none => none
      | some n => _) = _
    simp only [round] at h
    cases hn : line[progress guess low high]? with
    | none => rfl
    | some n =>
      rw [hn] at h
      simp only at h ⊢
      split
      · next e => rw [if_pos e] at h; cases h
      · next e =>
        rw [if_neg e] at h
        split
        · next e => rw [if_pos e] at h; exact ih _ _ _ h
        · next e => rw [if_neg e] at h; exact ih _ _ _ h

/-- `find_index` for a position between those of the ends of a line where the line has no node: the
loop never ends, however many rounds it runs. -/
theorem C84_gap_endless {c : Line} {guess : Nat → Nat → Nat} {line : List Nat}
    (hg : ∀ low high, low < high → high < line.length → low ≤ guess low high ∧ guess low high ≤ high) {pos a b : Nat} (ha : line.head? = some a) (hb : line.getLast? = some b) (h1 : c.getPos a < pos)
    (h2 : pos < c.getPos b) (hgap : ∀ n ∈ line, c.getPos n ≠ pos) (k : Nat) :
    (rounds c (progress guess) line pos k (0, line.length - 1)).isSome = true ∧
      findLoop c guess line pos k 0 (line.length - 1) = none := by
  have key : ∃ low high a b, rounds c (progress guess) line pos k (0, line.length - 1) = some (low, high) ∧ low < high ∧
      line[low]? = some a ∧ line[high]? = some b ∧ c.getPos a < pos ∧ pos < c.getPos b := by
    induction k with
    | zero =>
      rw [List.head?_eq_getElem?] at ha
      rw [List.getLast?_eq_getElem?] at hb
      refine ⟨0, line.length - 1, a, b, rfl, ?_, ha, hb, h1, h2⟩
      rcases Nat.eq_zero_or_pos (line.length - 1) with e | e
      · rw [e, ha] at hb; cases hb; omega
      · exact e
    | succ k ih =>
      obtain ⟨low, high, a', b', g1, g2, g3, g4, g5, g6⟩ := ih
      have hh := (List.getElem?_eq_some_iff.1 g4).1
      have hb' := hg low high g2 hh
      have hp : low ≤ progress guess low high ∧ progress guess low high ≤ high := by
        unfold progress
        split
        · omega
        · split <;> omega
      have hn : line[progress guess low high]? = some (line[progress guess low high]'(by omega)) := List.getElem?_eq_getElem (by omega)
      generalize line[progress guess low high]'(by omega) = n at hn
      have hne := hgap n (List.mem_of_getElem? hn)
      rw [rounds, g1, Option.bind_some]
      simp only [round, hn]
      rw [if_neg hne]
      by_cases hlt : c.getPos n < pos
      · have : progress guess low high ≠ high := by
          intro e; rw [e, g4] at hn; cases hn; omega
        exact ⟨progress guess low high, high, n, b', by rw [if_pos hlt], by omega, hn, g4, hlt, g6⟩
      · have : progress guess low high ≠ low := by
          intro e; rw [e, g3] at hn; cases hn; omega
        exact ⟨low, progress guess low high, a', n, by rw [if_neg hlt], by omega, g3, hn, g5, by omega⟩
  obtain ⟨low, high, _, _, h, -⟩ := key
  exact ⟨by rw [h]; rfl, findLoop_rounds _ _ _ _ h⟩

end Line

end Verif.Convex

namespace Verif.View

open Verif (Direction)
open Verif.Algo Verif.Convex
open Verif.Convex.Line (floatGuess)

variable {E : Type} {G : GView E}

/-- The checker with floating point numbers searches as one with a guess that is always within the
bounds. The number of nodes of a graph is below `2 ^ 31`. -/
theorem float_same (ok : G.Ok) (hs : G.SingleIn .outgoing) (hac : Acyclic (G.ArcD .outgoing)) {c : Line}
    (hc : Line.new G.algo = some c) (hbig : G.nodeCount ≤ 2 ^ 53) :
    ∃ g : Line.Guess, g.OK ∧ ∀ l pos, c.findIndex (floatGuess c) l pos = c.findIndex g l pos := by
  obtain ⟨-, h, hw⟩ := line_of_new ok hs hac hc
  have hnode : ∀ line ∈ c.lines, ∀ n ∈ line, n ∈ G.nodes := by
    intro line hline n hn
    obtain ⟨l, hl⟩ := List.mem_iff_getElem?.1 hline
    exact hw.live n (List.ne_nil_of_mem ((h.mem l line n hl).1 hn))
  refine ⟨Line.clip (floatGuess c), Line.clip_ok _, Line.findIndex_clip (Line.floatGuess_within ?_ ?_)⟩
  · intro line hline
    obtain ⟨l, hl⟩ := List.mem_iff_getElem?.1 hline
    have hnd : line.Nodup := (h.inc hl).imp fun hab e => by rw [e] at hab; exact Nat.lt_irrefl _ hab
    have := (hnd.subperm (hnode line hline)).length_le
    rw [← ok.node_count] at this
    omega
  · intro line hline n hn
    have := C83_position_lt_partial ok hs hac hc ((ok.mem_nodes n).1 (hnode line hline n hn))
    omega

/-- `find_index` with floating point numbers finds a node on its line. -/
theorem C84_find_index_partial (ok : G.Ok) (hs : G.SingleIn .outgoing) (hac : Acyclic (G.ArcD .outgoing)) {c : Line}
    (hc : Line.new G.algo = some c) (hbig : G.nodeCount ≤ 2 ^ 53) {l i n : Nat} {line : List Nat} (hl : c.lines[l]? = some line)
    (hi : line[i]? = some n) : c.findIndex (floatGuess c) l (c.getPos n) = some (some i) := by
  obtain ⟨-, h, -⟩ := line_of_new ok hs hac hc
  obtain ⟨g, hg, e⟩ := float_same ok hs hac hc hbig
  rw [e]
  exact Line.findIndex_ok hg hl (h.inc hl) hi

/-- `find_index` returns nothing for a position before or after all nodes of the line. -/
theorem C84_find_index_outside {c : Line} (guess : Line.Guess) {l pos : Nat} {line : List Nat} (hl : c.lines[l]? = some line)
    (hpos : (∀ n ∈ line, pos < c.getPos n) ∨ (∀ n ∈ line, c.getPos n < pos)) : c.findIndex guess l pos = some none := by
  unfold Line.findIndex
  rw [hl]
  cases line with
  | nil => rfl
  | cons a rest =>
    have hb : (a :: rest).getLast? = some ((a :: rest).getLast (by simp)) := List.getLast?_eq_some_getLast (by simp)
    have hmb : (a :: rest).getLast (by simp) ∈ a :: rest := List.getLast_mem _
    generalize (a :: rest).getLast (by simp) = b at hb hmb
    have hma : a ∈ a :: rest := by simp
    simp only [List.head?_cons, hb]
    rcases hpos with h | h
    · have h1 := h a hma
      have h2 := h b hmb
      rw [if_neg (by omega), if_neg (by omega), if_pos (by simp [h1])]
    · have h1 := h a hma
      have h2 := h b hmb
      rw [if_neg (by omega), if_neg (by omega), if_pos (by simp [h2])]

/-- `is_node_convex` with floating point numbers decides convexity. -/
theorem C84_is_node_convex_partial (ok : G.Ok) (hs : G.SingleIn .outgoing) (hac : Acyclic (G.ArcD .outgoing)) {c : Line}
    (hc : Line.new G.algo = some c) (hbig : G.nodeCount ≤ 2 ^ 53) {S : List Nat} (hne : S ≠ []) (hnd : S.Nodup)
    (hS : ∀ n ∈ S, G.containsNode n = true) :
    ∃ r, c.isNodeConvex (floatGuess c) S = some r ∧ (r = true ↔ Convex (G.ArcD .outgoing) S) := by
  obtain ⟨g, hg, e⟩ := float_same ok hs hac hc hbig
  rw [Line.isNodeConvex_congr e]
  exact C54_is_node_convex_partial ok hs hac hc hg hne hnd hS

/-- `is_convex` with floating point numbers. -/
theorem C84_is_convex_partial (ok : G.Ok) (hs : G.SingleIn .outgoing) (hac : Acyclic (G.ArcD .outgoing)) {c : Line}
    (hc : Line.new G.algo = some c) (hbig : G.nodeCount ≤ 2 ^ 53) {S inputs outputs : List Nat} (hne : S ≠ []) (hnd : S.Nodup)
    (hS : ∀ n ∈ S, G.containsNode n = true) (hin : ∀ p ∈ inputs, ∃ n ∈ S, p ∈ G.ports n .incoming)
    (hout : ∀ p ∈ outputs, ∃ n ∈ S, p ∈ G.ports n .outgoing) (hone : ∀ p ∈ outputs, (G.portLinks p).length ≤ 1) :
    ∃ r, c.isConvex (floatGuess c) S inputs outputs = some r ∧ (r = true ↔ G.PortConvex S inputs outputs) := by
  obtain ⟨g, hg, e⟩ := float_same ok hs hac hc hbig
  rw [Line.isConvex_congr e]
  exact C54_is_convex_partial ok hs hac hc hg hne hnd hS hin hout hone

/-- `get_intervals_from_nodes` with floating point numbers. -/
theorem C84_intervals_partial (ok : G.Ok) (hs : G.SingleIn .outgoing) (hac : Acyclic (G.ArcD .outgoing)) {c : Line}
    (hc : Line.new G.algo = some c) (hbig : G.nodeCount ≤ 2 ^ 53) {S : List Nat} (hnd : S.Nodup) :
    ∃ I, c.intervals (floatGuess c) S = some I ∧ (I.isSome ↔ Contiguous c S) ∧ ∀ I', I = some I' → Represents c S I' := by
  obtain ⟨g, hg, e⟩ := float_same ok hs hac hc hbig
  rw [Line.intervals_congr e]
  exact C54_intervals_partial ok hs hac hc hg hnd

/-- `is_convex_by_intervals` with floating point numbers. -/
theorem C84_by_intervals_partial (ok : G.Ok) (hs : G.SingleIn .outgoing) (hac : Acyclic (G.ArcD .outgoing)) {c : Line}
    (hc : Line.new G.algo = some c) (hbig : G.nodeCount ≤ 2 ^ 53) {S : List Nat} {I : List Line.Interval} (hne : S ≠ [])
    (hS : ∀ n ∈ S, G.containsNode n = true) (hI : Represents c S I) :
    ∃ r, c.convexByIntervals (floatGuess c) I = some r ∧ (r = true ↔ Convex (G.ArcD .outgoing) S) := by
  obtain ⟨g, hg, e⟩ := float_same ok hs hac hc hbig
  rw [Line.byIntervals_congr e]
  exact C54_by_intervals_partial ok hs hac hc hg hne hS hI

/-- `try_extend_intervals` with floating point numbers. -/
theorem C84_try_extend_partial (ok : G.Ok) (hs : G.SingleIn .outgoing) (hac : Acyclic (G.ArcD .outgoing)) {c : Line}
    (hc : Line.new G.algo = some c) (hbig : G.nodeCount ≤ 2 ^ 53) {S : List Nat} {I : List Line.Interval} (hI : Represents c S I) (n : Nat) :
    ∃ r I', c.tryExtend (floatGuess c) I n = some (r, I') ∧ (r = true ↔ Contiguous c (n :: S)) ∧
      (r = true → Represents c (n :: S) I') ∧ (r = false → I' = I) := by
  obtain ⟨g, hg, e⟩ := float_same ok hs hac hc hbig
  rw [Line.tryExtend_congr e]
  exact C54_try_extend_partial ok hs hac hc hg hI n

/-- `nodes_in_intervals` with floating point numbers. -/
theorem C84_nodes_in_intervals_partial (ok : G.Ok) (hs : G.SingleIn .outgoing) (hac : Acyclic (G.ArcD .outgoing)) {c : Line}
    (hc : Line.new G.algo = some c) (hbig : G.nodeCount ≤ 2 ^ 53) {S : List Nat} {I : List Line.Interval}
    (hS : ∀ n ∈ S, G.containsNode n = true) (hI : Represents c S I) :
    ∃ out, (∀ out', c.NodesIn (floatGuess c) I out' ↔ out' = out) ∧ (∀ n, n ∈ out ↔ n ∈ S) ∧
      out.Pairwise fun a b => c.getPos a < c.getPos b ∨ c.getPos a = c.getPos b ∧ a < b := by
  obtain ⟨g, hg, e⟩ := float_same ok hs hac hc hbig
  simp only [Line.nodesIn_congr e]
  exact C54_nodes_in_intervals_partial ok hs hac hc hg hS hI

/-! ## Where it fails -/

/-- `0 → 1 → 2` and `0 → 2`: the second line skips the position 1. -/
def skipG : PG.PG :=
  (PG.PG.run 32766 PG.PG.empty [.addNode 0 2, .addNode 1 1, .addNode 2 0, .linkPorts 0 2, .linkPorts 3 4, .linkPorts 1 5]).getD PG.PG.empty

/-- The checker of the graph. -/
def skipC : Line := (Line.new (ofPG skipG 3 6).algo).getD ⟨(ofPG skipG 3 6).algo, fun _ => ⟨[], 0⟩, []⟩

/-- **C84 fails** for positions that are not on the line: `find_index` returns an option, but for the
position 1, which lies between the ends of the second line, its loop does not end. -/
theorem C84_witness_gap : skipC.lines = [[0, 1, 2], [0, 2]] ∧ skipC.getPos 0 = 0 ∧ skipC.getPos 2 = 2 ∧
    (skipC.findIndex (floatGuess skipC) 1 5 = some none) ∧
    ∀ k, (Line.rounds skipC (progress (floatGuess skipC 1 1)) [0, 2] 1 k (0, 1)).isSome = true ∧
      Line.findLoop skipC (floatGuess skipC 1 1) [0, 2] 1 k 0 1 = none := by
  have h1 : skipC.lines = [[0, 1, 2], [0, 2]] ∧ skipC.getPos 0 = 0 ∧ skipC.getPos 2 = 2 := by decide +kernel
  refine ⟨h1.1, h1.2.1, h1.2.2, by decide +kernel, fun k => ?_⟩
  refine Line.C84_gap_endless (c := skipC) (line := [0, 2]) (pos := 1) (a := 0) (b := 2) ?_ rfl rfl (by rw [h1.2.1]; omega) (by rw [h1.2.2]; omega) ?_ k
  · intro low high hlt hlen
    have e1 : low = 0 := by simp only [List.length_cons, List.length_nil] at hlen; omega
    have e2 : high = 1 := by simp only [List.length_cons, List.length_nil] at hlen; omega
    subst e1 e2
    decide +kernel
  · intro n hn
    simp only [List.mem_cons, List.not_mem_nil, or_false] at hn
    rcases hn with rfl | rfl
    · rw [h1.2.1]; omega
    · rw [h1.2.2]; omega

/-! The hypotheses can be met. -/

example := C84_find_index_partial exV_ok.1 (singleIn_of_single exV_ok.2.2.2.2 _) exV_acyclicD exVC_new (by decide +kernel) (l := 0)
  (i := 2) (n := 3) (line := [0, 1, 3, 4]) (by decide +kernel) rfl
example : exVC.findIndex (floatGuess exVC) 0 2 = some (some 2) := by decide +kernel
example := C84_find_index_outside (c := exVC) (floatGuess exVC) (l := 0) (pos := 9) (line := [0, 1, 3, 4]) (by decide +kernel)
  (by decide +kernel)
example := C84_is_node_convex_partial exV_ok.1 (singleIn_of_single exV_ok.2.2.2.2 _) exV_acyclicD exVC_new (by decide +kernel)
  (S := [0, 3]) (by simp) (by simp) (by decide +kernel)
example : exVC.isNodeConvex (floatGuess exVC) [0, 3] = some false ∧ exVC.isNodeConvex (floatGuess exVC) [0, 1, 2, 3] = some true := by
  decide +kernel
example := C84_is_convex_partial exV_ok.1 (singleIn_of_single exV_ok.2.2.2.2 _) exV_acyclicD exVC_new (by decide +kernel)
  (S := [0, 1]) (inputs := []) (outputs := []) (by simp) (by simp) (by decide +kernel) (by simp) (by simp) (by simp)
example := C84_intervals_partial exV_ok.1 (singleIn_of_single exV_ok.2.2.2.2 _) exV_acyclicD exVC_new (by decide +kernel)
  (S := [0, 1]) (by simp)
example := C84_by_intervals_partial (Multi.ofMG_ok fanM_ok 8 8) fanM_singleIn fanM_acyclic fanC_new (by decide +kernel) (S := [0, 2])
  (by simp) (by decide +kernel) fan_represents
example := C84_try_extend_partial (Multi.ofMG_ok fanM_ok 8 8) fanM_singleIn fanM_acyclic fanC_new (by decide +kernel) fan_represents 1
example := C84_nodes_in_intervals_partial (Multi.ofMG_ok fanM_ok 8 8) fanM_singleIn fanM_acyclic fanC_new (by decide +kernel)
  (by decide +kernel) fan_represents
example := Line.C84_rounding (x := 1 / 3) (by decide +kernel)
example : Line.f64 (1 / 3) = 6004799503160661 / 2 ^ 54 ∧ Line.offset 5 10 5 = 3 ∧ Line.offset 1 3 10 = 3 := by decide +kernel
-- `2 ^ 53 + 1` is between two numbers, `2 ^ 53` and `2 ^ 53 + 2`
example := Line.C84_ties (x := 2 ^ 53 + 1) (y := 2 ^ 53 + 2) (by decide +kernel) ⟨2 ^ 52 + 1, 1, by norm_num, by norm_num, by norm_num⟩
  (by decide +kernel) (by decide +kernel)
-- `0.1 + 0.2`, the usual example of rounding
example : Line.f64 (Line.f64 (1 / 10) + Line.f64 (2 / 10)) ≠ Line.f64 (3 / 10) := by decide +kernel

example := Line.C84_guess (a := 5) (b := 10) (w := 7) (by decide) (by decide) (by decide)

end Verif.View

#print axioms Verif.Convex.Line.C84_rounding
#print axioms Verif.Convex.Line.C84_ties
#print axioms Verif.Convex.Line.C84_guess
#print axioms Verif.Convex.Line.C84_gap_endless
#print axioms Verif.View.C84_find_index_partial
#print axioms Verif.View.C84_find_index_outside
#print axioms Verif.View.C84_is_node_convex_partial
#print axioms Verif.View.C84_is_convex_partial
#print axioms Verif.View.C84_intervals_partial
#print axioms Verif.View.C84_by_intervals_partial
#print axioms Verif.View.C84_try_extend_partial
#print axioms Verif.View.C84_nodes_in_intervals_partial
#print axioms Verif.View.C84_witness_gap
