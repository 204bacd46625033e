import Verif.Lca.Model

/-! Lemmas on lowest common ancestors. -/

namespace Verif.Lca

open Verif.Hier

theorem set_get {V : Type} (f : Nat → V) (k : Nat) (v : V) (x : Nat) : set f k v x = if x = k then v else f x := rfl

/-- The `k`-th node above. -/
def up (par : Nat → Option Nat) : Nat → Nat → Option Nat
  | 0, x => some x
  | k + 1, x => (par x).bind (up par k)

variable {K : Kids} {par : Nat → Option Nat} {H : Nat}

/-- The setting: an ordered forest of bounded depth, and its parent function. -/
structure Tree (K : Kids) (par : Nat → Option Nat) (H : Nat) : Prop where
  forest : Forest K
  par_iff : ∀ n p, par n = some p ↔ n ∈ K p
  depth : ∀ x, up par H x = none
  pos : 0 < H

theorem up_add (a b x : Nat) : up par (a + b) x = (up par a x).bind (up par b) := by
  induction a generalizing x with
  | zero => simp [up]
  | succ a ih =>
    rw [Nat.succ_add]
    simp only [up]
    cases par x with
    | none => rfl
    | some p => simpa using ih p

theorem up_mono {a b x : Nat} (h : a ≤ b) (hb : up par b x ≠ none) : up par a x ≠ none := by
  obtain ⟨c, rfl⟩ := Nat.exists_eq_add_of_le h
  intro hc
  rw [up_add, hc] at hb
  exact hb rfl

theorem Tree.up_none (T : Tree K par H) {k x : Nat} (h : H ≤ k) : up par k x = none := by
  by_contra hc
  exact up_mono h hc (T.depth x)

theorem Tree.up_lt (T : Tree K par H) {k x y : Nat} (h : up par k x = some y) : k < H := by
  by_contra hc
  rw [T.up_none (by omega)] at h; cases h

theorem Tree.anc_iff (T : Tree K par H) {a x : Nat} : Anc K a x ↔ ∃ k, up par k x = some a := by
  constructor
  · intro h
    induction h with
    | refl => exact ⟨0, rfl⟩
    | step _ hm ih =>
      obtain ⟨k, hk⟩ := ih
      exact ⟨k + 1, by simp [up, (T.par_iff _ _).2 hm, hk]⟩
  · rintro ⟨k, hk⟩
    induction k generalizing x with
    | zero => simp [up] at hk; rw [hk]; exact .refl _
    | succ k ih =>
      simp only [up] at hk
      cases hp : par x with
      | none => rw [hp] at hk; cases hk
      | some p =>
        rw [hp] at hk
        exact .step (ih hk) ((T.par_iff _ _).1 hp)

theorem Tree.up_inj (T : Tree K par H) {a x i j : Nat} (hi : up par i x = some a) (hj : up par j x = some a) : i = j := by
  have key : ∀ i j, i < j → up par i x = some a → up par j x = some a → False := by
    intro i j hij hi hj
    obtain ⟨c, rfl⟩ := Nat.exists_eq_add_of_lt hij
    rw [show i + c + 1 = i + (c + 1) by omega, up_add, hi] at hj
    simp only [Option.bind_some, up] at hj
    cases hp : par a with
    | none => rw [hp] at hj; cases hj
    | some p =>
      rw [hp] at hj
      exact T.forest.acyclic p a ((T.par_iff _ _).1 hp) (T.anc_iff.2 ⟨c, hj⟩)
  rcases Nat.lt_trichotomy i j with h | h | h
  · exact (key i j h hi hj).elim
  · exact h
  · exact (key j i h hj hi).elim

theorem Tree.anc_antisymm (T : Tree K par H) {a b : Nat} (h1 : Anc K a b) (h2 : Anc K b a) : a = b := by
  obtain ⟨i, hi⟩ := T.anc_iff.1 h1
  obtain ⟨j, hj⟩ := T.anc_iff.1 h2
  have : up par (i + j) b = some b := by rw [up_add, hi]; exact hj
  have h0 : up par 0 b = some b := rfl
  have := T.up_inj this h0
  have : i = 0 := by omega
  subst this
  simp [up] at hi
  exact hi.symm

/-- The ancestors of a node are a chain. -/
theorem Tree.anc_total (T : Tree K par H) {a b x : Nat} (ha : Anc K a x) (hb : Anc K b x) : Anc K a b ∨ Anc K b a := by
  obtain ⟨i, hi⟩ := T.anc_iff.1 ha
  obtain ⟨j, hj⟩ := T.anc_iff.1 hb
  rcases Nat.le_total i j with h | h
  · right
    obtain ⟨c, rfl⟩ := Nat.exists_eq_add_of_le h
    rw [up_add, hi] at hj
    exact T.anc_iff.2 ⟨c, hj⟩
  · left
    obtain ⟨c, rfl⟩ := Nat.exists_eq_add_of_le h
    rw [up_add, hj] at hi
    exact T.anc_iff.2 ⟨c, hi⟩

/-- The entry of a node in the table of climb nodes is right. -/
def ClimbOK (par : Nat → Option Nat) (C : Nat → List Nat) (x : Nat) : Prop := ∀ i, (C x)[i]? = up par (2 ^ i) x

theorem lt_two_pow (i : Nat) : i < 2 ^ i := Nat.lt_two_pow_self

theorem scan_ok (T : Tree K par H) {C : Nat → List Nat} {n : Nat}
    (hC : ∀ a k, up par (k + 1) n = some a → ClimbOK par C a) (f : Nat) :
    ∀ i, H ≤ 2 ^ (f + i) → ∃ l, scan C f (up par (2 ^ i) n) i = some l ∧ ∀ j, l[j]? = up par (2 ^ (i + j)) n := by
  induction f with
  | zero =>
    intro i hi
    have hn : up par (2 ^ i) n = none := T.up_none (by simpa using hi)
    rw [hn]
    refine ⟨[], rfl, fun j => ?_⟩
    rw [T.up_none]
    · simp
    · refine Nat.le_trans (by simpa using hi) (Nat.pow_le_pow_right (by omega) (by omega : i ≤ i + j))
  | succ f ih =>
    intro i hi
    cases hu : up par (2 ^ i) n with
    | none =>
      refine ⟨[], rfl, fun j => ?_⟩
      by_cases hc : up par (2 ^ (i + j)) n = none
      · simp [hc]
      · exact absurd hu (up_mono (Nat.pow_le_pow_right (by omega) (by omega)) hc)
    | some a =>
      have hCa : ClimbOK par C a := hC a (2 ^ i - 1) (by
        have : 2 ^ i - 1 + 1 = 2 ^ i := by have := Nat.two_pow_pos i; omega
        rw [this]; exact hu)
      have hnext : (C a)[i]? = up par (2 ^ (i + 1)) n := by
        rw [hCa i, Nat.pow_succ, Nat.mul_two, up_add, hu]; rfl
      obtain ⟨l, h1, h2⟩ := ih (i + 1) (by rw [show f + (i + 1) = f + 1 + i by omega]; exact hi)
      refine ⟨a :: l, ?_, ?_⟩
      · simp [scan, hnext, h1]
      · intro j
        cases j with
        | zero => simp [hu]
        | succ j =>
          rw [List.getElem?_cons_succ, h2 j]
          congr 2; omega

/-! ## The traversal -/

/-- What the traversal of a set `L` of nodes, closed downwards, does between the times `t` and
`t'`. -/
structure Done (K : Kids) (par : Nat → Option Nat) (L : List Nat) (s s' : LCA) (t t' : Nat) : Prop where
  nodup : L.Nodup
  time : t' = t + 2 * L.length
  keep : ∀ x, x ∉ L → s'.first x = s.first x ∧ s'.last x = s.last x ∧ s'.climb x = s.climb x
  span : ∀ x ∈ L, t ≤ s'.first x ∧ s'.first x < s'.last x ∧ s'.last x < t'
  nest : ∀ x ∈ L, ∀ y ∈ L, Anc K x y ↔ s'.first x ≤ s'.first y ∧ s'.last y ≤ s'.last x
  climb : ∀ x ∈ L, ClimbOK par s'.climb x

theorem Done.nil (K : Kids) (par) (s : LCA) (t : Nat) : Done K par [] s s t t where
  nodup := by simp
  time := by simp
  keep := by simp
  span := by simp
  nest := by simp
  climb := by simp

/-- Two unrelated sets one after the other. -/
theorem Done.append {L L' : List Nat} {s s' s'' : LCA} {t t' t'' : Nat} (h : Done K par L s s' t t')
    (h' : Done K par L' s' s'' t' t'') (hd : ∀ x ∈ L, ∀ y ∈ L', ¬ Anc K x y ∧ ¬ Anc K y x) :
    Done K par (L ++ L') s s'' t t'' := by
  have hdis : ∀ x ∈ L, x ∉ L' := fun x hx hx' => (hd x hx x hx').1 (.refl _)
  have k1 : ∀ x ∈ L, s''.first x = s'.first x ∧ s''.last x = s'.last x ∧ s''.climb x = s'.climb x :=
    fun x hx => h'.keep x (hdis x hx)
  refine ⟨?_, ?_, ?_, ?_, ?_, ?_⟩
  · rw [List.nodup_append]; exact ⟨h.nodup, h'.nodup, by rintro a ha b hb rfl; exact hdis a ha hb⟩
  · rw [h'.time, h.time, List.length_append]; omega
  · intro x hx
    rw [List.mem_append, not_or] at hx
    obtain ⟨a1, a2, a3⟩ := h'.keep x hx.2
    obtain ⟨b1, b2, b3⟩ := h.keep x hx.1
    exact ⟨a1.trans b1, a2.trans b2, a3.trans b3⟩
  · intro x hx
    rw [List.mem_append] at hx
    have e1 := h.time
    have e2 := h'.time
    rcases hx with hx | hx
    · obtain ⟨a1, a2, _⟩ := k1 x hx
      have := h.span x hx
      omega
    · have := h'.span x hx
      omega
  · intro x hx y hy
    rw [List.mem_append] at hx hy
    rcases hx with hx | hx <;> rcases hy with hy | hy
    · obtain ⟨a1, a2, _⟩ := k1 x hx
      obtain ⟨b1, b2, _⟩ := k1 y hy
      rw [a1, a2, b1, b2]; exact h.nest x hx y hy
    · obtain ⟨a1, a2, _⟩ := k1 x hx
      have s1 := h.span x hx
      have s2 := h'.span y hy
      constructor
      · intro hc; exact absurd hc (hd x hx y hy).1
      · rintro ⟨c1, c2⟩; omega
    · obtain ⟨a1, a2, _⟩ := k1 y hy
      have s1 := h.span y hy
      have s2 := h'.span x hx
      constructor
      · intro hc; exact absurd hc (hd y hy x hx).2
      · rintro ⟨c1, c2⟩; omega
    · exact h'.nest x hx y hy
  · intro x hx
    rw [List.mem_append] at hx
    rcases hx with hx | hx
    · intro i; rw [(k1 x hx).2.2]; exact h.climb x hx i
    · exact h'.climb x hx

theorem level_child {K : Kids} {n c : Nat} (hc : c ∈ K n) : ∀ {k x}, x ∈ level K c k → x ∈ level K n (k + 1) := by
  intro k
  induction k with
  | zero =>
    intro x hx
    simp only [level, List.mem_singleton] at hx
    simp only [level, List.flatMap_cons, List.flatMap_nil, List.append_nil]
    rw [hx]; exact hc
  | succ k ih =>
    intro x hx
    obtain ⟨p, hp, hm⟩ := List.mem_flatMap.1 hx
    exact List.mem_flatMap.2 ⟨p, ih hp, hm⟩

theorem anc_child {K : Kids} {n x : Nat} (h : Anc K n x) : x = n ∨ ∃ c ∈ K n, Anc K c x := by
  induction h with
  | refl => exact .inl rfl
  | step _ hm ih =>
    rcases ih with rfl | ⟨c, hc, h⟩
    · exact .inr ⟨_, hm, .refl _⟩
    · exact .inr ⟨c, hc, .step h hm⟩

/-- Siblings and their subtrees are unrelated. -/
theorem Tree.sib_apart (T : Tree K par H) {n c c' x y : Nat} (hc : c ∈ K n) (hc' : c' ∈ K n) (hne : c ≠ c')
    (hx : Anc K c x) (hy : Anc K c' y) : ¬ Anc K x y := by
  have key : ∀ {c c'}, c ∈ K n → c' ∈ K n → c ≠ c' → ¬ Anc K c c' := by
    intro c c' hc hc' hne h
    cases h with
    | refl => exact hne rfl
    | step h hm =>
      have := T.forest.oneParent _ _ _ hm hc'
      subst this
      exact T.forest.acyclic _ _ hc h
  intro h
  rcases T.anc_total (hx.trans h) hy with h' | h'
  · exact key hc hc' hne h'
  · exact key hc' hc (Ne.symm hne) h'

theorem visit_ok (T : Tree K par H) {S : Nat} (hS : H ≤ 2 ^ S) (k : Nat) : ∀ n, level K n k = [] → ∀ (s : LCA) (t : Nat),
    s.climb n = [] → (∀ a j, up par (j + 1) n = some a → ClimbOK par s.climb a) →
    (∀ x, Anc K n x → s.climb x = []) →
    ∃ L s', (∀ x, x ∈ L ↔ Anc K n x) ∧ Done K par L s s' t (t + 2 * L.length) ∧
      ∀ f st, loop K S (2 * L.length + f) (.visit n (par n) :: st) s t = loop K S f st s' (t + 2 * L.length) := by
  induction k with
  | zero => intro n hn; simp [level] at hn
  | succ k ih =>
    intro n hn s t hs hanc hsub
    -- the subtrees of a list of children
    have kids : ∀ (l : List Nat), l.Nodup → (∀ c ∈ l, c ∈ K n) → ∀ (s : LCA) (t : Nat), ClimbOK par s.climb n →
        (∀ a j, up par (j + 1) n = some a → ClimbOK par s.climb a) →
        (∀ c ∈ l, ∀ x, Anc K c x → s.climb x = []) →
        ∃ L s', (∀ x, x ∈ L ↔ ∃ c ∈ l, Anc K c x) ∧ Done K par L s s' t (t + 2 * L.length) ∧
          ∀ f st, loop K S (2 * L.length + f) (l.map (.visit · (some n)) ++ st) s t = loop K S f st s' (t + 2 * L.length) := by
      intro l
      induction l with
      | nil =>
        intro _ _ s t _ _ _
        exact ⟨[], s, by simp, by simpa using Done.nil K par s t, by simp⟩
      | cons c l ihl =>
        intro hnd hl s t hcn hca hemp
        rw [List.nodup_cons] at hnd
        have hc : c ∈ K n := hl c (by simp)
        have hpc : par c = some n := (T.par_iff _ _).2 hc
        have hupc : ∀ a j, up par (j + 1) c = some a → ClimbOK par s.climb a := by
          intro a j hj
          simp only [up, hpc, Option.bind_some] at hj
          cases j with
          | zero => simp [up] at hj; rw [← hj]; exact hcn
          | succ j => exact hca a j hj
        obtain ⟨L1, s1, a1, a2, a3⟩ := ih c (by
          rw [List.eq_nil_iff_forall_not_mem]
          intro x hx
          have := level_child hc hx
          rw [hn] at this; simp at this) s t (hemp c (by simp) c (.refl _)) hupc (hemp c (by simp))
        have hnL : n ∉ L1 := fun h => T.forest.acyclic n c hc ((a1 n).1 h)
        have hupL : ∀ a j, up par (j + 1) n = some a → a ∉ L1 := by
          intro a j hj h
          have h1 := (a1 a).1 h
          have h2 : Anc K a n := T.anc_iff.2 ⟨j + 1, hj⟩
          exact T.forest.acyclic n c hc (h1.trans h2)
        have keepOK : ∀ a, a ∉ L1 → ClimbOK par s.climb a → ClimbOK par s1.climb a := by
          intro a ha h i; rw [(a2.keep a ha).2.2]; exact h i
        obtain ⟨L2, s2, b1, b2, b3⟩ := ihl hnd.2 (fun c hc => hl c (by simp [hc])) s1 (t + 2 * L1.length)
          (keepOK n hnL hcn) (fun a j hj => keepOK a (hupL a j hj) (hca a j hj)) (by
            intro c' hc' x hx
            rw [(a2.keep x ?_).2.2]
            · exact hemp c' (by simp [hc']) x hx
            · intro hxL
              exact T.sib_apart hc (hl c' (by simp [hc'])) (by rintro rfl; exact hnd.1 hc') ((a1 x).1 hxL) hx (.refl _))
        refine ⟨L1 ++ L2, s2, ?_, ?_, ?_⟩
        · intro x
          rw [List.mem_append, a1, b1]
          simp
        · have := a2.append b2 (by
            intro x hx y hy
            obtain ⟨c', hc', hy⟩ := (b1 y).1 hy
            have hne : c ≠ c' := by rintro rfl; exact hnd.1 hc'
            have hc'' := hl c' (by simp [hc'])
            exact ⟨T.sib_apart hc hc'' hne ((a1 x).1 hx) hy, T.sib_apart hc'' hc (Ne.symm hne) hy ((a1 x).1 hx)⟩)
          rw [List.length_append, Nat.mul_add, ← Nat.add_assoc]; exact this
        · intro f st
          rw [List.length_append, Nat.mul_add, Nat.add_assoc, List.map_cons, List.cons_append]
          have h3 := a3 (2 * L2.length + f) (l.map (.visit · (some n)) ++ st)
          rw [hpc] at h3
          rw [h3, b3, ← Nat.add_assoc]
    -- the visit of the node itself
    obtain ⟨c, hc1, hc2⟩ := scan_ok T (C := s.climb) (n := n) hanc S 0 hS
    have hp0 : up par (2 ^ 0) n = par n := by
      simp only [Nat.pow_zero, up]
      cases par n <;> rfl
    rw [hp0] at hc1
    let C1 : Nat → List Nat := if c.isEmpty then s.climb else set s.climb n c
    have hC1 : ∀ x, C1 x = if x = n then c else s.climb x := by
      intro x
      show (if c.isEmpty then s.climb else set s.climb n c) x = _
      cases c with
      | nil =>
        simp only [List.isEmpty_nil, if_true]
        split
        · next e => rw [e, hs]
        · rfl
      | cons y c => simp [set_get]
    let s1 : LCA := ⟨set s.first n t, s.last, C1⟩
    have hnOK : ClimbOK par s1.climb n := by
      intro i
      show (C1 n)[i]? = _
      rw [hC1, if_pos rfl, hc2, Nat.zero_add]
    have hne_up : ∀ a j, up par (j + 1) n = some a → a ≠ n := by
      rintro a j hj rfl
      have h0 : up par 0 a = some a := rfl
      have := T.up_inj hj h0
      omega
    obtain ⟨L, s2, a1, a2, a3⟩ := kids (K n).reverse ((List.reverse_perm _).nodup_iff.2 (T.forest.once n)) (by simp) s1 (t + 1)
      hnOK (by
        intro a j hj i
        show (C1 a)[i]? = _
        rw [hC1, if_neg (hne_up a j hj)]; exact hanc a j hj i) (by
        intro c' hc' x hx
        show C1 x = []
        rw [List.mem_reverse] at hc'
        have : x ≠ n := by rintro rfl; exact T.forest.acyclic _ _ hc' hx
        rw [hC1, if_neg this]
        exact hsub x ((Anc.refl n).step hc' |>.trans hx))
    have hLmem : ∀ x, x ∈ L ↔ ∃ c ∈ K n, Anc K c x := by intro x; rw [a1]; simp
    have hnL : n ∉ L := by
      rw [hLmem]; rintro ⟨c', hc', h⟩; exact T.forest.acyclic _ _ hc' h
    let s3 : LCA := { s2 with last := set s2.last n (t + 1 + 2 * L.length) }
    have hn2 := a2.keep n hnL
    have hf2 : s2.first n = t := by rw [hn2.1]; simp [s1, set_get]
    refine ⟨n :: L, s3, ?_, ?_, ?_⟩
    · intro x
      rw [List.mem_cons, hLmem]
      constructor
      · rintro (rfl | ⟨c', hc', h⟩)
        · exact .refl _
        · exact ((Anc.refl n).step hc').trans h
      · exact anc_child
    · have hlast : ∀ x, x ∈ L → s3.last x = s2.last x := by
        intro x hx
        show set s2.last n _ x = _
        rw [set_get, if_neg (by rintro rfl; exact hnL hx)]
      have hlastn : s3.last n = t + 1 + 2 * L.length := by simp [s3, set_get]
      refine ⟨List.nodup_cons.2 ⟨hnL, a2.nodup⟩, rfl, ?_, ?_, ?_, ?_⟩
      · intro x hx
        rw [List.mem_cons, not_or] at hx
        obtain ⟨b1, b2, b3⟩ := a2.keep x hx.2
        refine ⟨?_, ?_, ?_⟩
        · show s2.first x = _
          rw [b1]; simp [s1, set_get, hx.1]
        · show set s2.last n _ x = _
          rw [set_get, if_neg hx.1, b2]
        · show s2.climb x = _
          rw [b3]; show C1 x = _
          rw [hC1, if_neg hx.1]
      · intro x hx
        rw [List.mem_cons] at hx
        rcases hx with rfl | hx
        · show t ≤ s2.first x ∧ s2.first x < s3.last x ∧ s3.last x < _
          rw [hf2, hlastn, List.length_cons]; omega
        · show t ≤ s2.first x ∧ s2.first x < s3.last x ∧ s3.last x < _
          have := a2.span x hx
          rw [hlast x hx, List.length_cons]; omega
      · intro x hx y hy
        show Anc K x y ↔ s2.first x ≤ s2.first y ∧ s3.last y ≤ s3.last x
        rw [List.mem_cons] at hx hy
        rcases hx with rfl | hx <;> rcases hy with rfl | hy
        · simp [Anc.refl]
        · have := a2.span y hy
          rw [hf2, hlastn, hlast y hy]
          constructor
          · intro _; omega
          · intro _
            obtain ⟨c', hc', h⟩ := (hLmem y).1 hy
            exact ((Anc.refl x).step hc').trans h
        · have := a2.span x hx
          rw [hf2, hlastn, hlast x hx]
          constructor
          · intro hxn
            obtain ⟨c', hc', h⟩ := (hLmem x).1 hx
            exact absurd (h.trans hxn) (T.forest.acyclic _ _ hc')
          · intro _; omega
        · rw [hlast x hx, hlast y hy]; exact a2.nest x hx y hy
      · intro x hx
        rw [List.mem_cons] at hx
        rcases hx with rfl | hx
        · intro i; show (s2.climb x)[i]? = _
          rw [hn2.2.2]; exact hnOK i
        · exact a2.climb x hx
    · intro f st
      have e : 2 * (n :: L).length + f = (2 * L.length + (f + 1)) + 1 := by rw [List.length_cons]; omega
      rw [e]
      conv => lhs; unfold loop
      rw [hc1]
      simp only
      have h3 := a3 (f + 1) (.finish n :: st)
      show loop K S (2 * L.length + (f + 1)) ((K n).reverse.map (.visit · (some n)) ++ .finish n :: st) s1 (t + 1) = _
      rw [h3]
      conv => lhs; unfold loop
      rw [List.length_cons]
      congr 1
      omega

end Verif.Lca
