import Verif.Lca.Query

/-! How many rounds the loops of the queries take. -/

namespace Verif.Lca

open Verif.Hier

variable {K : Kids} {par : Nat → Option Nat} {H : Nat}

/-! ## More rounds do not change the answer -/

theorem root_mono {s : LCA} {f f' u r : Nat} (hf : f ≤ f') (h : s.root f u = some r) : s.root f' u = some r := by
  induction f generalizing f' u with
  | zero => cases h
  | succ f ih =>
    obtain ⟨f', rfl⟩ : ∃ g, f' = g + 1 := ⟨f' - 1, by omega⟩
    simp only [LCA.root] at h ⊢
    cases hl : (s.climb u).getLast? with
    | none => rw [hl] at h; exact h
    | some v => rw [hl] at h; exact ih (by omega) h

theorem ascend_mono {s : LCA} {b f f' u r : Nat} (hf : f ≤ f') (h : s.ascend b f u = some r) :
    s.ascend b f' u = some r := by
  induction f generalizing f' u with
  | zero => cases h
  | succ f ih =>
    obtain ⟨f', rfl⟩ : ∃ g, f' = g + 1 := ⟨f' - 1, by omega⟩
    simp only [LCA.ascend] at h ⊢
    cases hl : (s.climb u).getLast? with
    | none => rw [hl] at h; exact h
    | some v =>
      rw [hl] at h
      simp only at h ⊢
      split
      · next hc => rw [if_pos hc] at h; exact h
      · next hc => rw [if_neg hc] at h; exact ih (by omega) h

theorem search_mono {s : LCA} {b f f' u i r : Nat} (hf : f ≤ f') (h : s.search b f u i = some r) :
    s.search b f' u i = some r := by
  induction f generalizing f' u i with
  | zero => cases h
  | succ f ih =>
    obtain ⟨f', rfl⟩ : ∃ g, f' = g + 1 := ⟨f' - 1, by omega⟩
    simp only [LCA.search] at h ⊢
    split
    · next hc => rw [if_pos hc] at h; exact h
    · next hc =>
      rw [if_neg hc] at h
      cases hv : (s.climb u)[i - 1]? with
      | none => rw [hv] at h; cases h
      | some v =>
        rw [hv] at h
        simp only at h ⊢
        split
        · next hc => rw [if_pos hc] at h; exact ih (by omega) h
        · next hc =>
          rw [if_neg hc] at h
          split
          · next hc => rw [if_pos hc] at h; cases h
          · next hc => rw [if_neg hc] at h; exact ih (by omega) h

theorem lcaWith_mono {s : LCA} {R A F R' A' F' a b : Nat} {o : Option Nat} (hR : R ≤ R') (hA : A ≤ A') (hF : F ≤ F')
    (h : s.lcaWith R A F a b = some o) : s.lcaWith R' A' F' a b = some o := by
  simp only [LCA.lcaWith] at h ⊢
  split
  · next hc => rw [if_pos hc] at h; exact h
  · next hc =>
    rw [if_neg hc] at h
    split
    · next hc => rw [if_pos hc] at h; exact h
    · next hc =>
      rw [if_neg hc] at h
      cases h1 : s.root R a with
      | none => rw [h1] at h; cases h
      | some ra =>
        cases h2 : s.root R b with
        | none => rw [h1, h2] at h; cases h
        | some rb =>
          rw [root_mono hR h1, root_mono hR h2]
          rw [h1, h2] at h
          simp only at h ⊢
          split
          · next hc => rw [if_pos hc] at h; exact h
          · next hc =>
            rw [if_neg hc] at h
            cases h3 : s.ascend b A a with
            | none => rw [h3] at h; cases h
            | some u =>
              rw [ascend_mono hA h3]
              rw [h3] at h
              simp only at h ⊢
              split
              · next hc => rw [if_pos hc] at h; cases h
              · next hc =>
                rw [if_neg hc] at h
                cases h4 : s.search b F u ((s.climb u).length - 1) with
                | none => rw [h4] at h; cases h
                | some w =>
                  rw [search_mono hF h4]
                  rw [h4] at h
                  exact h

theorem scan_mono {C : Nat → List Nat} {S S' : Nat} (hS : S ≤ S') : ∀ {p i l}, scan C S p i = some l →
    scan C S' p i = some l := by
  induction S generalizing S' with
  | zero =>
    intro p i l h
    cases p with
    | none => cases S' <;> exact h
    | some a => cases h
  | succ S ih =>
    intro p i l h
    obtain ⟨S', rfl⟩ : ∃ g, S' = g + 1 := ⟨S' - 1, by omega⟩
    cases p with
    | none => exact h
    | some a =>
      simp only [scan] at h ⊢
      cases hs : scan C S (C a)[i]? (i + 1) with
      | none => rw [hs] at h; cases h
      | some l' => rw [ih (by omega) hs]; rw [hs] at h; exact h

theorem loop_mono {S S' : Nat} (hS : S ≤ S') {F F' : Nat} (hF : F ≤ F') : ∀ {st s t o},
    loop K S F st s t = some o → loop K S' F' st s t = some o := by
  induction F generalizing F' with
  | zero =>
    intro st s t o h
    cases st with
    | nil => cases F' <;> exact h
    | cons d st => cases h
  | succ F ih =>
    intro st s t o h
    obtain ⟨F', rfl⟩ : ∃ g, F' = g + 1 := ⟨F' - 1, by omega⟩
    cases st with
    | nil => exact h
    | cons d st =>
      cases d with
      | visit n p =>
        simp only [loop] at h ⊢
        cases hs : scan s.climb S p 0 with
        | none => rw [hs] at h; cases h
        | some c => rw [scan_mono hS hs]; rw [hs] at h; exact ih (by omega) h
      | finish n => simp only [loop] at h ⊢; exact ih (by omega) h

theorem roots_mono {isRoot : Nat → Bool} {S S' F F' : Nat} (hS : S ≤ S') (hF : F ≤ F') : ∀ {rs s t o},
    roots K isRoot S F rs s t = some o → roots K isRoot S' F' rs s t = some o := by
  intro rs
  induction rs with
  | nil => intro s t o h; exact h
  | cons r rs ih =>
    intro s t o h
    simp only [roots] at h ⊢
    split
    · next hc => rw [if_pos hc] at h; exact ih h
    · next hc =>
      rw [if_neg hc] at h
      cases hl : loop K S F [.visit r none] s t with
      | none => rw [hl] at h; cases h
      | some x =>
        rw [loop_mono hS hF hl]
        rw [hl] at h
        exact ih h

/-! ## Enough rounds -/

/-- The rounds of the search before the last descent, when the next common ancestor is at most
`2^m` levels up and no table has more than `L + 1` entries. -/
def sweeps (L : Nat) : Nat → Nat
  | 0 => 0
  | m + 1 => (L - m) + 1 + sweeps L m

theorem two_sweeps (L : Nat) : ∀ m, m ≤ L → 2 * sweeps L m + m * m = m * (2 * L + 3) := by
  intro m
  induction m with
  | zero => intro _; simp [sweeps]
  | succ m ih =>
    intro hm
    have := ih (by omega)
    simp only [sweeps, Nat.mul_add, Nat.add_mul, Nat.mul_one, Nat.one_mul] at this ⊢
    omega

theorem sweeps_all (k : Nat) : 1 + sweeps k k = (k + 1) * (k + 2) / 2 := by
  have := two_sweeps k k (Nat.le_refl _)
  have e : (k + 1) * (k + 2) = 2 * (1 + sweeps k k) := by
    simp only [Nat.mul_add, Nat.add_mul, Nat.mul_one, Nat.one_mul, Nat.mul_left_comm k 2 k] at this ⊢
    omega
  rw [e, Nat.mul_div_cancel_left _ (by omega)]

section
variable {cov : Nat → Prop} {s : LCA} (T : Tree K par H) (G : Good K par cov s)
include T G

theorem climb_length_fast {u k : Nat} (hu : cov u) (h : Lca.up par (2 ^ k) u = none) : (s.climb u).length ≤ k := by
  rw [← G.climb u hu, List.getElem?_eq_none_iff] at h
  exact h

/-- The last entry of the table leads more than half of the way up. -/
theorem last_half {u v k : Nat} (hu : cov u) (h : Lca.up par (2 ^ (k + 1)) u = none)
    (hl : (s.climb u).getLast? = some v) : Lca.up par (2 ^ k) v = none ∧ Anc K v u ∧ cov v := by
  have hlen := climb_length_fast T G hu h
  have hne : 0 < (s.climb u).length := by
    cases hc : s.climb u with
    | nil => rw [hc] at hl; cases hl
    | cons x l => simp
  rw [List.getLast?_eq_getElem?, G.climb u hu] at hl
  have hn : Lca.up par (2 ^ (s.climb u).length) u = none := by
    rw [← G.climb u hu, List.getElem?_eq_none_iff]; exact Nat.le_refl _
  have e : 2 ^ (s.climb u).length = 2 ^ ((s.climb u).length - 1) + 2 ^ ((s.climb u).length - 1) := by
    rw [← Nat.mul_two, ← Nat.pow_succ]; congr 1; omega
  rw [e, up_add, hl] at hn
  have hv : Anc K v u := T.anc_iff.2 ⟨_, hl⟩
  refine ⟨?_, hv, G.up u v hu hv⟩
  by_contra hc
  exact up_mono (Nat.pow_le_pow_right (by omega) (by omega)) hc hn

theorem root_fast (k : Nat) : ∀ u, cov u → Lca.up par (2 ^ k) u = none →
    ∃ r, s.root (k + 1) u = some r ∧ par r = none ∧ Anc K r u := by
  induction k with
  | zero =>
    intro u hu h
    have := climb_length_fast T G hu h
    have hl : (s.climb u).getLast? = none := by
      rw [List.getLast?_eq_none_iff, ← List.length_eq_zero_iff]; omega
    exact ⟨u, by simp [LCA.root, hl], last_none T G hu hl, .refl _⟩
  | succ k ih =>
    intro u hu h
    simp only [LCA.root]
    cases hl : (s.climb u).getLast? with
    | none => exact ⟨u, rfl, last_none T G hu hl, .refl _⟩
    | some v =>
      obtain ⟨h1, h2, h3⟩ := last_half T G hu h hl
      obtain ⟨r, a1, a2, a3⟩ := ih v h3 h1
      exact ⟨r, a1, a2, a3.trans h2⟩

theorem ascend_fast {b r : Nat} (hb : cov b) (hr : par r = none) (hrb : Anc K r b) (k : Nat) :
    ∀ u, cov u → Lca.up par (2 ^ k) u = none → Anc K r u → ¬ Anc K u b →
    ∃ u' v, s.ascend b (k + 1) u = some u' ∧ Anc K u' u ∧ ¬ Anc K u' b ∧ (s.climb u').getLast? = some v ∧ Anc K v b := by
  induction k with
  | zero =>
    intro u hu h hru hub
    have := climb_length_fast T G hu h
    have hl : (s.climb u).getLast? = none := by
      rw [List.getLast?_eq_none_iff, ← List.length_eq_zero_iff]; omega
    have := T.root_unique hr (last_none T G hu hl) hru (.refl _)
    exact absurd (this ▸ hrb) hub
  | succ k ih =>
    intro u hu h hru hub
    simp only [LCA.ascend]
    cases hl : (s.climb u).getLast? with
    | none =>
      have := T.root_unique hr (last_none T G hu hl) hru (.refl _)
      exact absurd (this ▸ hrb) hub
    | some v =>
      obtain ⟨h1, hv, hcv⟩ := last_half T G hu h hl
      by_cases hvb : Anc K v b
      · simp only [if_pos ((G.anc v b hcv hb).2 hvb)]
        exact ⟨u, v, rfl, .refl _, hub, hl, hvb⟩
      · simp only [(G.anc v b hcv hb), hvb, if_false]
        have hrv : Anc K r v := by
          rcases T.anc_total hru hv with h | h
          · exact h
          · rw [T.anc_root hr h]; exact .refl _
        obtain ⟨u', w, a1, a2, a3⟩ := ih v hcv h1 hrv hvb
        exact ⟨u', w, a1, a2.trans hv, a3⟩

theorem up_none_anc {u v n : Nat} (h : Lca.up par n u = none) (hv : Anc K v u) : Lca.up par n v = none := by
  obtain ⟨j, hj⟩ := T.anc_iff.1 hv
  by_contra hc
  have h1 : Lca.up par (j + n) u ≠ none := by rw [up_add, hj]; exact hc
  exact up_mono (by omega : n ≤ j + n) h1 h

theorem search_fast {b L : Nat} (hb : cov b) (F : Nat) :
    ∀ u i m w w', cov u → Lca.up par (2 ^ (L + 1)) u = none → m ≤ i → (i - m) + 1 + sweeps L m ≤ F →
    (s.climb u)[i]? = some w' → (s.climb u)[m]? = some w → Anc K w b → ¬ Anc K u b →
    ∃ u' p, s.search b F u i = some u' ∧ (s.climb u')[0]? = some p := by
  induction F with
  | zero => intros; omega
  | succ F ih =>
    intro u i m w w' hu hL hmi hF hw' hw hwb hub
    simp only [LCA.search]
    obtain ⟨hil, _⟩ := List.getElem?_eq_some_iff.1 hw'
    by_cases hi : i = 0
    · subst hi
      rw [if_pos rfl]
      exact ⟨u, w', rfl, hw'⟩
    · rw [if_neg hi]
      have hv : (s.climb u)[i - 1]? = some (s.climb u)[i - 1] := List.getElem?_eq_getElem (by omega)
      generalize (s.climb u)[i - 1] = v at hv
      rw [hv]
      simp only
      have hv' := hv
      rw [G.climb u hu] at hw hv'
      have hva : Anc K v u := T.anc_iff.2 ⟨_, hv'⟩
      have hcv := G.up u v hu hva
      by_cases hvb : Anc K v b
      · rw [if_pos ((G.anc v b hcv hb).2 hvb)]
        by_cases hm : m ≤ i - 1
        · exact ih u (i - 1) m w v hu hL hm (by omega) hv (by rw [G.climb u hu]; exact hw) hwb hub
        · obtain rfl : m = i := by omega
          obtain ⟨m, rfl⟩ : ∃ g, m = g + 1 := ⟨m - 1, by omega⟩
          simp only [sweeps] at hF
          exact ih u _ m v v hu hL (by omega) (by simp only [Nat.add_sub_cancel]; omega) hv
            (by simpa using hv) hvb hub
      · simp only [(G.anc v b hcv hb), hvb, if_false]
        have hmi' : m = i := by
          by_contra hne
          apply hvb
          obtain ⟨c, hc⟩ := Nat.exists_eq_add_of_le
            (Nat.pow_le_pow_right (by omega : 0 < 2) (by omega : m ≤ i - 1))
          rw [hc, up_add, hw] at hv'
          exact Anc.trans (T.anc_iff.2 ⟨c, hv'⟩) hwb
        subst hmi'
        obtain ⟨m, rfl⟩ : ∃ g, m = g + 1 := ⟨m - 1, by omega⟩
        simp only [Nat.add_sub_cancel] at hv' ⊢
        have hvw : Lca.up par (2 ^ m) v = some w := by
          rw [Nat.pow_succ, Nat.mul_two, up_add, hv'] at hw; exact hw
        have hvm : (s.climb v)[m]? = some w := by rw [G.climb v hcv]; exact hvw
        obtain ⟨hlen, _⟩ := List.getElem?_eq_some_iff.1 hvm
        rw [if_neg (by omega), show max m ((s.climb v).length - 1) = (s.climb v).length - 1 by omega]
        have hvL := up_none_anc T G hL hva
        have := climb_length_fast T G hcv hvL
        simp only [sweeps] at hF
        exact ih v _ m w _ hcv hvL (by omega) (by omega) (List.getElem?_eq_getElem (by omega)) hvm hwb hvb

theorem lca_fast {a b k : Nat} (ha : cov a) (hb : cov b) (hka : Lca.up par (2 ^ k) a = none)
    (hkb : Lca.up par (2 ^ k) b = none) : s.lcaWith (k + 1) (k + 1) (k * (k + 1) / 2) a b = s.lca H a b := by
  have key : ∃ o, s.lcaWith (k + 1) (k + 1) (k * (k + 1) / 2) a b = some o := by
    simp only [LCA.lcaWith]
    by_cases hab : Anc K a b
    · rw [if_pos ((G.anc a b ha hb).2 hab)]; exact ⟨_, rfl⟩
    · simp only [(G.anc a b ha hb), hab, if_false]
      by_cases hba : Anc K b a
      · rw [if_pos ((G.anc b a hb ha).2 hba)]; exact ⟨_, rfl⟩
      · simp only [(G.anc b a hb ha), hba, if_false]
        obtain ⟨ra, a1, a2, a3⟩ := root_fast T G k a ha hka
        obtain ⟨rb, b1, b2, b3⟩ := root_fast T G k b hb hkb
        rw [a1, b1]
        simp only
        by_cases hr : ra = rb
        · subst hr
          simp only [ne_eq, not_true_eq_false, if_false]
          obtain ⟨u, v, u1, u2, u3, u4, u5⟩ := ascend_fast T G hb a2 b3 k a ha hka a3 hab
          rw [u1]
          simp only
          have hcu := G.up a u ha u2
          have hl : (s.climb u).length ≠ 0 := by
            intro h; rw [List.length_eq_zero_iff] at h; rw [h] at u4; cases u4
          rw [if_neg hl]
          rw [List.getLast?_eq_getElem?] at u4
          have huk := up_none_anc T G hka u2
          have hle := climb_length_fast T G hcu huk
          obtain ⟨l, hl'⟩ : ∃ l, (s.climb u).length = l + 1 := ⟨(s.climb u).length - 1, by omega⟩
          rw [hl', Nat.add_sub_cancel] at u4 ⊢
          have hul : Lca.up par (2 ^ (l + 1)) u = none := by
            rw [← G.climb u hcu, List.getElem?_eq_none_iff]; omega
          obtain ⟨w, p, w1, w4⟩ := search_fast T G hb (k * (k + 1) / 2) u l l v v hcu hul (Nat.le_refl _) (by
            rw [Nat.sub_self, Nat.zero_add, sweeps_all]
            exact Nat.div_le_div_right (Nat.mul_le_mul (by omega) (by omega))) u4 u4 u5 u3
          rw [w1]
          simp only [w4, Option.map_some]
          exact ⟨_, rfl⟩
        · rw [if_pos hr]; exact ⟨_, rfl⟩
  obtain ⟨o, ho⟩ := key
  obtain ⟨o', ho', -⟩ := lca_ok T G ha hb
  rw [ho, ho']
  rw [LCA.lca] at ho'
  have h1 := lcaWith_mono (Nat.le_max_left (k + 1) H) (Nat.le_max_left (k + 1) H)
    (Nat.le_max_left (k * (k + 1) / 2) (H * (H + 1) + H + 1)) ho
  have h2 := lcaWith_mono (Nat.le_max_right (k + 1) H) (Nat.le_max_right (k + 1) H)
    (Nat.le_max_right (k * (k + 1) / 2) (H * (H + 1) + H + 1)) ho'
  rw [h1] at h2
  exact h2

/-! ## Too few rounds -/

/-- On a chain of `2^(k+1)` nodes numbered downwards from the root 0, with `b` next to the node
`2^k`. -/
theorem search_slow {b k : Nat} (hcov : ∀ x, x < 2 ^ (k + 1) → cov x) (hb : cov b)
    (hup : ∀ x j, x < 2 ^ (k + 1) → Lca.up par j x = if j ≤ x then some (x - j) else none)
    (hanc : ∀ y, y < 2 ^ (k + 1) → (Anc K y b ↔ y < 2 ^ k)) (F : Nat) :
    ∀ j i, j ≤ i → i ≤ k → F < (i - j) + 1 + sweeps k j → s.search b F (2 ^ k - 1 + 2 ^ j) i = none := by
  have hpos := Nat.two_pow_pos k
  have hdbl : 2 ^ (k + 1) = 2 ^ k + 2 ^ k := by rw [Nat.pow_succ, Nat.mul_two]
  have hlen : ∀ x, 2 ^ k ≤ x → x < 2 ^ (k + 1) → (s.climb x).length = k + 1 := by
    intro x h1 h2
    have a1 := G.climb x (hcov x h2) k
    have a2 := G.climb x (hcov x h2) (k + 1)
    rw [hup x _ h2, if_pos h1] at a1
    rw [hup x _ h2, if_neg (by omega), List.getElem?_eq_none_iff] at a2
    obtain ⟨a3, _⟩ := List.getElem?_eq_some_iff.1 a1
    omega
  induction F with
  | zero => intros; rfl
  | succ F ih =>
    intro j i hji hik hF
    have hj := Nat.two_pow_pos j
    have hjk : 2 ^ j ≤ 2 ^ k := Nat.pow_le_pow_right (by omega) (by omega)
    simp only [LCA.search]
    by_cases hi : i = 0
    · subst hi
      obtain rfl : j = 0 := by omega
      simp only [sweeps] at hF
      omega
    · rw [if_neg hi]
      have hi1 : 2 ^ (i - 1) ≤ 2 ^ k := Nat.pow_le_pow_right (by omega) (by omega)
      have hpi := Nat.two_pow_pos (i - 1)
      rw [G.climb _ (hcov _ (by omega)), hup _ _ (by omega), if_pos (by omega)]
      simp only
      by_cases hj1 : j ≤ i - 1
      · have hji' : 2 ^ j ≤ 2 ^ (i - 1) := Nat.pow_le_pow_right (by omega) hj1
        rw [if_pos ((G.anc _ b (hcov _ (by omega)) hb).2 ((hanc _ (by omega)).2 (by omega)))]
        exact ih j (i - 1) hj1 (by omega) (by omega)
      · obtain rfl : j = i := by omega
        obtain ⟨j, rfl⟩ : ∃ g, j = g + 1 := ⟨j - 1, by omega⟩
        have hjd : 2 ^ (j + 1) = 2 ^ j + 2 ^ j := by rw [Nat.pow_succ, Nat.mul_two]
        simp only [Nat.add_sub_cancel] at hpi hi1 ⊢
        have e : 2 ^ k - 1 + 2 ^ (j + 1) - 2 ^ j = 2 ^ k - 1 + 2 ^ j := by omega
        rw [e]
        have hna : ¬ s.isAncestor (2 ^ k - 1 + 2 ^ j) b = true := by
          rw [G.anc _ b (hcov _ (by omega)) hb, hanc _ (by omega)]; omega
        rw [if_neg hna, hlen _ (by omega) (by omega), if_neg (by omega)]
        rw [show max j (k + 1 - 1) = k by omega]
        simp only [sweeps] at hF
        exact ih j k (by omega) (Nat.le_refl _) (by omega)

end

end Verif.Lca
