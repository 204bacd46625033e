import Verif.Basic

/-! Helper lemmas about `cnt`, `fill` and lists without duplicates. -/

namespace Verif

/-! ## `fill` -/

@[simp] theorem length_fill {α} (l : List α) (a k : Nat) (x : α) :
    (fill l a k x).length = l.length := by simp [fill]

theorem getElem?_fill {α} (l : List α) (a k : Nat) (x : α) (i : Nat) :
    (fill l a k x)[i]? =
      if a ≤ i ∧ i < a + k then (l[i]?).map (fun _ => x) else l[i]? := by
  simp only [fill, List.getElem?_mapIdx]
  cases l[i]? <;> simp
  split <;> rfl

/-! ## `cnt` -/

theorem cnt_zero (P : Nat → Bool) : cnt 0 P = 0 := rfl

theorem cnt_succ (n : Nat) (P : Nat → Bool) :
    cnt (n + 1) P = cnt n P + (if P n then 1 else 0) := by
  simp [cnt, List.range_succ, List.countP_append, List.countP_singleton]

theorem cnt_congr {n : Nat} {P Q : Nat → Bool} (h : ∀ i, i < n → P i = Q i) :
    cnt n P = cnt n Q := by
  induction n with
  | zero => rfl
  | succ n ih =>
    rw [cnt_succ, cnt_succ, ih (fun i hi => h i (by omega)), h n (by omega)]

theorem cnt_le (n : Nat) (P : Nat → Bool) : cnt n P ≤ n := by
  induction n with
  | zero => simp [cnt_zero]
  | succ n ih => rw [cnt_succ]; split <;> omega

/-- Elements past `n` that do not satisfy `P` do not count. -/
theorem cnt_extend {n m : Nat} {P : Nat → Bool} (hnm : n ≤ m)
    (h : ∀ i, n ≤ i → i < m → P i = false) : cnt m P = cnt n P := by
  induction m with
  | zero => have : n = 0 := by omega
            subst this; rfl
  | succ m ih =>
    by_cases e : n = m + 1
    · subst e; rfl
    · rw [cnt_succ, ih (by omega) (fun i h1 h2 => h i h1 (by omega)), h m (by omega) (by omega)]
      simp

/-- Switching one element on. -/
theorem cnt_insert {n : Nat} {P Q : Nat → Bool} {i : Nat} (hi : i < n)
    (hP : P i = false) (hQ : Q i = true) (h : ∀ j, j < n → j ≠ i → P j = Q j) :
    cnt n Q = cnt n P + 1 := by
  induction n with
  | zero => omega
  | succ n ih =>
    rw [cnt_succ, cnt_succ]
    by_cases e : i = n
    · subst e
      rw [cnt_congr (n := i) (P := Q) (Q := P)
        (fun j hj => (h j (by omega) (by omega)).symm), hP, hQ]
      simp
    · rw [ih (by omega) (fun j hj hji => h j (by omega) hji), h n (by omega) (fun e' => e e'.symm)]
      omega

/-- Switching a whole range on. -/
theorem cnt_insert_range {n : Nat} {P Q : Nat → Bool} {a k : Nat} (hk : a + k ≤ n)
    (hP : ∀ i, a ≤ i → i < a + k → P i = false) (hQ : ∀ i, a ≤ i → i < a + k → Q i = true)
    (h : ∀ j, j < n → ¬ (a ≤ j ∧ j < a + k) → P j = Q j) :
    cnt n Q = cnt n P + k := by
  induction k generalizing Q with
  | zero => simpa using (cnt_congr fun j hj => h j hj (by omega)).symm
  | succ k ih =>
    have h1 := ih (Q := fun i => if i = a + k then false else Q i) (by omega)
      (fun i h1 h2 => hP i h1 (by omega))
      (fun i h1 h2 => by simp [show i ≠ a + k by omega, hQ i h1 (by omega)])
      (fun j hj hn => by
        by_cases e : j = a + k
        · simp [e, hP (a + k) (by omega) (by omega)]
        · simp [e]; exact h j hj (by omega))
    have h2 := cnt_insert (n := n) (P := fun i => if i = a + k then false else Q i) (Q := Q)
      (i := a + k) (by omega) (by simp) (hQ _ (by omega) (by omega))
      (fun j hj hne => by simp [hne])
    omega

theorem cnt_pos {n : Nat} {P : Nat → Bool} {i : Nat} (hi : i < n) (h : P i = true) :
    0 < cnt n P := by
  have := cnt_insert (n := n) (P := fun j => if j = i then false else P j) (Q := P) hi
    (by simp) h (fun j hj hne => by simp [hne])
  omega

theorem cnt_eq_zero {n : Nat} {P : Nat → Bool} (h : ∀ i, i < n → P i = false) : cnt n P = 0 := by
  rw [cnt_congr (Q := fun _ => false) h]
  induction n with
  | zero => rfl
  | succ n ih => rw [cnt_succ, ih (fun i hi => h i (by omega))]; simp

theorem cnt_pos_iff {n : Nat} {P : Nat → Bool} : 0 < cnt n P ↔ ∃ i, i < n ∧ P i = true := by
  constructor
  · intro h
    apply Classical.byContradiction
    intro hc
    have : cnt n P = 0 := cnt_eq_zero fun i hi => by
      cases hb : P i with
      | false => rfl
      | true => exact absurd ⟨i, hi, hb⟩ hc
    omega
  · rintro ⟨i, hi, h⟩; exact cnt_pos hi h

theorem cnt_mono {n m : Nat} (P : Nat → Bool) (h : n ≤ m) : cnt n P ≤ cnt m P := by
  induction m with
  | zero => have : n = 0 := by omega
            subst this; omega
  | succ m ih =>
    by_cases e : n = m + 1
    · subst e; omega
    · have := ih (by omega)
      rw [cnt_succ]; omega

/-- `cnt · P` is strictly increasing on the elements of `P`. -/
theorem cnt_lt {n m : Nat} {P : Nat → Bool} (h : n < m) (hn : P n = true) : cnt n P < cnt m P := by
  have h1 := cnt_mono P (show n + 1 ≤ m by omega)
  rw [cnt_succ, hn] at h1
  simp at h1; omega

theorem cnt_inj {n m : Nat} {P : Nat → Bool} (hn : P n = true) (hm : P m = true) (h : cnt n P = cnt m P) :
    n = m := by
  rcases Nat.lt_trichotomy n m with h1 | h1 | h1
  · have := cnt_lt h1 hn; omega
  · exact h1
  · have := cnt_lt h1 hm; omega

theorem cnt_surj {n : Nat} {P : Nat → Bool} {q : Nat} (h : q < cnt n P) :
    ∃ p, p < n ∧ P p = true ∧ cnt p P = q := by
  induction n with
  | zero => simp [cnt_zero] at h
  | succ n ih =>
    rcases Nat.lt_or_ge q (cnt n P) with h1 | h1
    · obtain ⟨p, h2, h3⟩ := ih h1; exact ⟨p, by omega, h3⟩
    · rw [cnt_succ] at h
      cases e : P n with
      | false => rw [e] at h; simp at h; omega
      | true => rw [e] at h; simp at h; exact ⟨n, by omega, e, by omega⟩

/-- `cnt · P` advances in steps of one on a block of elements of `P`. -/
theorem cnt_block {P : Nat → Bool} {a k : Nat} (h : ∀ i, a ≤ i → i < a + k → P i = true) {j : Nat} (hj : j ≤ k) :
    cnt (a + j) P = cnt a P + j := by
  induction j with
  | zero => rfl
  | succ j ih =>
    rw [← Nat.add_assoc, cnt_succ, ih (by omega), h (a + j) (by omega) (by omega)]
    simp; omega

/-- A list that keeps the elements of `P` in order. -/
theorem cnt_filter {α} (l : List α) (P : α → Bool) {Q : Nat → Bool} (hQ : ∀ i, Q i = (l[i]?).any P) :
    (l.filter P).length = cnt l.length Q ∧
    ∀ i x, l[i]? = some x → P x = true → (l.filter P)[cnt i Q]? = some x := by
  induction l generalizing Q with
  | nil => simp [cnt_zero]
  | cons a l ih =>
    have hs : ∀ n, cnt (n + 1) Q = (if P a then 1 else 0) + cnt n (fun i => Q (i + 1)) := by
      intro n
      induction n with
      | zero => rw [cnt_succ, cnt_zero, cnt_zero, hQ 0]; simp
      | succ n ih' => rw [cnt_succ, ih', cnt_succ (P := fun i => Q (i + 1))]; omega
    obtain ⟨h1, h2⟩ := ih (Q := fun i => Q (i + 1)) (by intro i; rw [hQ]; simp)
    constructor
    · rw [List.length_cons, hs, ← h1, List.filter_cons]
      split <;> simp <;> omega
    · intro i x hi hx
      cases i with
      | zero =>
        simp at hi; subst hi
        rw [List.filter_cons, if_pos hx, cnt_zero]; rfl
      | succ i =>
        rw [hs]
        rw [List.getElem?_cons_succ] at hi
        have := h2 i x hi hx
        rw [List.filter_cons]
        split
        · rw [Nat.add_comm, List.getElem?_cons_succ]; exact this
        · simpa using this

theorem length_filter_range (n : Nat) (P : Nat → Bool) :
    ((List.range n).filter P).length = cnt n P := by
  rw [cnt, List.countP_eq_length_filter]

/-! ## Lists without duplicates -/

theorem nodup_length_le {α} [DecidableEq α] {l l' : List α} (hl : l.Nodup)
    (h : ∀ x, x ∈ l → x ∈ l') : l.length ≤ l'.length := by
  induction l generalizing l' with
  | nil => simp
  | cons a l ih =>
    have ha := h a (by simp)
    have h1 : l.length ≤ (l'.erase a).length := by
      apply ih (List.nodup_cons.mp hl).2
      intro x hx
      have hne : x ≠ a := by rintro rfl; exact (List.nodup_cons.mp hl).1 hx
      exact (List.mem_erase_of_ne hne).mpr (h x (by simp [hx]))
    have h2 := List.length_erase_of_mem ha
    have h3 : 0 < l'.length := List.length_pos_of_mem ha
    simp; omega

theorem nodup_filter_range (n : Nat) (P : Nat → Bool) : ((List.range n).filter P).Nodup :=
  List.nodup_range.filter _

/-- Counting is invariant under injections in one direction. -/
theorem cnt_le_of_inj {n n' : Nat} {P P' : Nat → Bool} (σ : Nat → Nat)
    (h : ∀ i, i < n → P i = true → σ i < n' ∧ P' (σ i) = true)
    (inj : ∀ i j, i < n → j < n → P i = true → P j = true → σ i = σ j → i = j) :
    cnt n P ≤ cnt n' P' := by
  rw [← length_filter_range, ← length_filter_range, ← List.length_map (f := σ)]
  apply nodup_length_le
  · rw [List.nodup_iff_pairwise_ne, List.pairwise_map]
    apply List.Pairwise.imp_of_mem (R := (· ≠ ·))
    · intro a b ha hb hne e
      simp at ha hb
      exact hne (inj a b ha.1 hb.1 ha.2 hb.2 e)
    · exact List.nodup_iff_pairwise_ne.mp (nodup_filter_range n P)
  · intro x hx
    simp at hx
    obtain ⟨i, ⟨hi, hPi⟩, rfl⟩ := hx
    simpa using h i hi hPi

/-- Counting is invariant under bijections. -/
theorem cnt_bij {n n' : Nat} {P P' : Nat → Bool} (σ τ : Nat → Nat)
    (h : ∀ i, i < n → P i = true → σ i < n' ∧ P' (σ i) = true ∧ τ (σ i) = i)
    (h' : ∀ i, i < n' → P' i = true → τ i < n ∧ P (τ i) = true ∧ σ (τ i) = i) :
    cnt n P = cnt n' P' := by
  apply Nat.le_antisymm
  · apply cnt_le_of_inj σ (fun i hi hp => ⟨(h i hi hp).1, (h i hi hp).2.1⟩)
    intro i j hi hj pi pj e
    rw [← (h i hi pi).2.2, ← (h j hj pj).2.2, e]
  · apply cnt_le_of_inj τ (fun i hi hp => ⟨(h' i hi hp).1, (h' i hi hp).2.1⟩)
    intro i j hi hj pi pj e
    rw [← (h' i hi pi).2.2, ← (h' j hj pj).2.2, e]

/-- Counting a sum of disjoint predicates. -/
theorem cnt_add {n : Nat} {P Q R : Nat → Bool}
    (h : ∀ i, i < n → R i = (P i || Q i)) (hd : ∀ i, i < n → ¬ (P i = true ∧ Q i = true)) :
    cnt n R = cnt n P + cnt n Q := by
  induction n with
  | zero => rfl
  | succ n ih =>
    rw [cnt_succ, cnt_succ, cnt_succ, ih (fun i hi => h i (by omega)) (fun i hi => hd i (by omega)),
      h n (by omega)]
    have := hd n (by omega)
    cases hp : P n <;> cases hq : Q n <;> simp_all <;> omega

end Verif
