import Verif.Algo.DomModel
import Verif.Algo.DomSpec
import Mathlib.Data.List.Nodup
import Mathlib.Data.List.Perm.Subperm
import Mathlib.Tactic.ByContra

/-!
Correctness of the iteration of Cooper, Harvey and Kennedy on post-order indices.

The nodes are `0, …, N - 1`, the entry is `N - 1`, and `P i` lists the predecessors of `i`. -/

namespace Verif.Algo.Dom

theorem Walk.mem {R e l n} (h : Walk R e l n) : n ∈ l := by cases h <;> simp

theorem Walk.suffix {R e l n} (h : Walk R e l n) {x : Nat} (hx : x ∈ l) : ∃ l', Walk R e l' x ∧ l' <:+ l := by
  induction h with
  | root =>
    rw [List.mem_singleton] at hx; subst hx
    exact ⟨_, .root, List.suffix_refl _⟩
  | @step l m n hw hr ih =>
    rw [List.mem_cons] at hx
    rcases hx with rfl | hx
    · exact ⟨_, .step hw hr, List.suffix_refl _⟩
    · obtain ⟨l', h1, h2⟩ := ih hx
      exact ⟨l', h1, h2.trans (List.suffix_cons _ _)⟩

/-- Every walk contains one without repetitions. -/
theorem Walk.simple {R e l n} (h : Walk R e l n) : ∃ l', Walk R e l' n ∧ l'.Nodup ∧ l' ⊆ l := by
  induction h with
  | root => exact ⟨_, .root, by simp, List.Subset.refl _⟩
  | @step l m n hw hr ih =>
    obtain ⟨l', h1, h2, h3⟩ := ih
    by_cases hn : n ∈ l'
    · obtain ⟨l'', a1, a2⟩ := h1.suffix hn
      exact ⟨l'', a1, h2.sublist a2.sublist, fun x hx => List.mem_cons_of_mem _ (h3 (a2.subset hx))⟩
    · exact ⟨n :: l', .step h1 hr, List.nodup_cons.2 ⟨hn, h2⟩, List.cons_subset_cons _ h3⟩

theorem Dominates.root {R e d} (h : Dominates R e d e) : d = e := by
  have := h _ .root
  simpa using this

variable {N : Nat} {P : Nat → List Nat}

/-- Arcs between indices. -/
abbrev IArc (N : Nat) (P : Nat → List Nat) (p i : Nat) : Prop := i < N ∧ p ∈ P i

/-- The setting. -/
structure Ctx (N : Nat) (P : Nat → List Nat) : Prop where
  pos : 0 < N
  lt : ∀ i, i < N → ∀ p ∈ P i, p < N
  up : ∀ i, i < N - 1 → ∃ p ∈ P i, i < p

/-- The chain of dominators. -/
inductive Chain (D : List (Option Nat)) : Nat → Nat → Prop where
  | refl {i} : Chain D i i
  | step {i k j} : D[i]? = some (some k) → Chain D k j → Chain D i j

theorem Chain.trans {D a b c} (h : Chain D a b) (h' : Chain D b c) : Chain D a c := by
  induction h with
  | refl => exact h'
  | step e _ ih => exact .step e (ih h')

/-- A known entry. -/
def Known (D : List (Option Nat)) (i : Nat) : Prop := ∃ k, D[i]? = some (some k)

/-- The shape of the vector of dominators. -/
structure Shape (N : Nat) (D : List (Option Nat)) : Prop where
  len : D.length = N
  root : D[N - 1]? = some (some (N - 1))
  up : ∀ i k, i < N - 1 → D[i]? = some (some k) → i < k ∧ k < N ∧ Known D k

/-- Every strict dominator of a node dominates its entry. -/
def Sound (N : Nat) (P : Nat → List Nat) (D : List (Option Nat)) : Prop :=
  ∀ i k, i < N - 1 → D[i]? = some (some k) → ∀ d, d ≠ i → Dominates (IArc N P) (N - 1) d i → Dominates (IArc N P) (N - 1) d k

theorem Chain.le {D} (S : Shape N D) {a b} (h : Chain D a b) (ha : a < N) : a ≤ b ∧ b < N := by
  induction h with
  | refl => exact ⟨Nat.le_refl _, ha⟩
  | @step i k j e _ ih =>
    by_cases hi : i < N - 1
    · obtain ⟨h1, h2, _⟩ := S.up i k hi e
      have := ih h2
      omega
    · have : i = N - 1 := by omega
      subst this
      rw [S.root] at e
      cases e
      exact ih ha

theorem Chain.root {D} (S : Shape N D) {b} (h : Chain D (N - 1) b) : b = N - 1 := by
  generalize hi : N - 1 = i at h
  induction h with
  | refl => rfl
  | step e _ ih =>
    subst hi
    rw [S.root] at e
    cases e
    exact ih rfl

/-- A dominator is on the chain. -/
theorem dom_chain {D} (S : Shape N D) (Q : Sound N P D) {d : Nat} : ∀ k i, N - i ≤ k → i < N → Known D i →
    Dominates (IArc N P) (N - 1) d i → Chain D i d := by
  intro k
  induction k with
  | zero => intro i h1 h2; omega
  | succ k ih =>
    intro i h1 h2 hk hd
    by_cases hdi : d = i
    · subst hdi; exact .refl
    · by_cases hi : i < N - 1
      · obtain ⟨c, hc⟩ := hk
        obtain ⟨a1, a2, a3⟩ := S.up i c hi hc
        exact .step hc (ih c (by omega) a2 a3 (Q i c hi hc d hdi hd))
      · have : i = N - 1 := by omega
        subst this
        exact absurd hd.root hdi

theorem intersect_ok {D} (S : Shape N D) (Q : Sound N P D) (f : Nat) : ∀ a b, a < N → b < N → Known D a → Known D b →
    2 * N < f + a + b → ∃ c, intersect D f a b = some c ∧ c < N ∧ Known D c ∧ Chain D a c ∧ Chain D b c ∧
      ∀ d, Dominates (IArc N P) (N - 1) d a → Dominates (IArc N P) (N - 1) d b → Dominates (IArc N P) (N - 1) d c := by
  induction f with
  | zero => intros; omega
  | succ f ih =>
    intro a b ha hb hka hkb hf
    unfold intersect
    rcases Nat.lt_trichotomy a b with h | h | h
    · rw [if_pos h]
      obtain ⟨k, hk⟩ := hka
      obtain ⟨a1, a2, a3⟩ := S.up a k (by omega) hk
      rw [hk]
      obtain ⟨c, c1, c2, c3, c4, c5, c6⟩ := ih k b a2 hb a3 hkb (by omega)
      refine ⟨c, c1, c2, c3, .step hk c4, c5, fun d h1 h2 => c6 d (Q a k (by omega) hk d ?_ h1) h2⟩
      rintro rfl
      have := (dom_chain S Q (N - b) b (by omega) hb hkb h2).le S hb
      omega
    · subst h
      rw [if_neg (by omega), if_pos rfl]
      exact ⟨a, rfl, ha, hka, .refl, .refl, fun d h _ => h⟩
    · rw [if_neg (by omega), if_neg (by omega)]
      obtain ⟨k, hk⟩ := hkb
      obtain ⟨a1, a2, a3⟩ := S.up b k (by omega) hk
      rw [hk]
      obtain ⟨c, c1, c2, c3, c4, c5, c6⟩ := ih a k ha a2 hka a3 (by omega)
      refine ⟨c, c1, c2, c3, c4, .step hk c5, fun d h1 h2 => c6 d h1 (Q b k (by omega) hk d ?_ h2)⟩
      rintro rfl
      have := (dom_chain S Q (N - a) a (by omega) ha hka h1).le S ha
      omega

theorem fold_ok {D} (S : Shape N D) (Q : Sound N P D) (bs : List Nat) : ∀ a, a < N → Known D a →
    (∀ b ∈ bs, b < N ∧ Known D b) →
    ∃ c, fold D (2 * D.length + 1) bs a = some c ∧ c < N ∧ Known D c ∧ (∀ b ∈ a :: bs, Chain D b c) ∧
      ∀ d, (∀ b ∈ a :: bs, Dominates (IArc N P) (N - 1) d b) → Dominates (IArc N P) (N - 1) d c := by
  induction bs with
  | nil => intro a ha hk _; exact ⟨a, rfl, ha, hk, by simp; exact .refl, fun d h => h a (by simp)⟩
  | cons b bs ih =>
    intro a ha hk hbs
    obtain ⟨hb, hkb⟩ := hbs b (by simp)
    obtain ⟨c, c1, c2, c3, c4, c5, c6⟩ := intersect_ok S Q (2 * D.length + 1) a b ha hb hk hkb (by rw [S.len]; omega)
    obtain ⟨e, e1, e2, e3, e4, e5⟩ := ih c c2 c3 (fun b hb => hbs b (by simp [hb]))
    refine ⟨e, by simp [fold, c1, e1], e2, e3, ?_, ?_⟩
    · intro x hx
      rw [List.mem_cons, List.mem_cons] at hx
      rcases hx with rfl | rfl | hx
      · exact c4.trans (e4 c (by simp))
      · exact c5.trans (e4 c (by simp))
      · exact e4 x (by simp [hx])
    · intro d hd
      apply e5
      intro x hx
      rw [List.mem_cons] at hx
      rcases hx with rfl | hx
      · exact c6 d (hd a (by simp)) (hd b (by simp))
      · exact hd x (by simp [hx])

/-- The chain of `j` is contained in every walk to `j` with at most `b` nodes. -/
def Exact (N : Nat) (P : Nat → List Nat) (D : List (Option Nat)) (j b : Nat) : Prop :=
  ∀ l, Walk (IArc N P) (N - 1) l j → l.length ≤ b → Known D j ∧ ∀ c, Chain D j c → c ∈ l

theorem get_set {D : List (Option Nat)} {i j : Nat} {v : Option Nat} (hi : i < D.length) :
    (D.set i v)[j]? = if j = i then some v else D[j]? := by
  rw [List.getElem?_set]
  by_cases h : i = j
  · subst h; simp [hi]
  · rw [if_neg h, if_neg (Ne.symm h)]

theorem known_set {D : List (Option Nat)} {i j c : Nat} (hi : i < D.length) (h : Known D j) : Known (D.set i (some c)) j := by
  unfold Known
  rw [get_set hi]
  by_cases hj : j = i
  · rw [if_pos hj]; exact ⟨c, rfl⟩
  · rw [if_neg hj]; exact h

/-- One update. -/
theorem update_ok {D} (C : Ctx N P) (S : Shape N D) (Q : Sound N P D) {i c b : Nat} (hi : i < N - 1) {l : List Nat}
    (hl : ∀ p, p ∈ l ↔ p ∈ P i ∧ Known D p)
    (hall : ∀ j, i < j → j < N → Known D j)
    (hcN : c < N) (hck : Known D c) (hch : ∀ p ∈ l, Chain D p c)
    (hdom : ∀ d, (∀ p ∈ l, Dominates (IArc N P) (N - 1) d p) → Dominates (IArc N P) (N - 1) d c)
    {bs : Nat → Nat} (hb : ∀ j, b ≤ bs j ∧ bs j ≤ b + 1) (hE : ∀ j, Exact N P D j (bs j)) :
    Shape N (D.set i (some c)) ∧ Sound N P (D.set i (some c)) ∧
      ∀ j, Exact N P (D.set i (some c)) j (if j = i then b + 1 else bs j) := by
  have hiD : i < D.length := by rw [S.len]; omega
  -- the new entry is above
  have hic : i < c := by
    obtain ⟨p, hp, hip⟩ := C.up i hi
    have hpN := C.lt i (by omega) p hp
    have := (hch p ((hl p).2 ⟨hp, hall p hip hpN⟩)).le S hpN
    omega
  have S' : Shape N (D.set i (some c)) := by
    refine ⟨by rw [List.length_set, S.len], ?_, ?_⟩
    · rw [get_set hiD, if_neg (by omega)]; exact S.root
    · intro j k hj e
      rw [get_set hiD] at e
      split at e
      · next h => cases e; subst h; exact ⟨hic, hcN, known_set hiD hck⟩
      · obtain ⟨a1, a2, a3⟩ := S.up j k hj e
        exact ⟨a1, a2, known_set hiD a3⟩
  have hup : ∀ x y, Chain (D.set i (some c)) x y → i < x → x < N → Chain D x y := by
    intro x y h
    induction h with
    | refl => intros; exact .refl
    | @step x k y e h ih =>
      intro hx hxN
      have hk := (Chain.step e .refl : Chain (D.set i (some c)) x k).le S' hxN
      rw [get_set hiD, if_neg (by omega)] at e
      exact .step e (ih (by omega) hk.2)
  have hsplit : ∀ x y, Chain (D.set i (some c)) x y → Chain D x y ∨ (Chain D x i ∧ Chain D c y) := by
    intro x y h
    induction h with
    | refl => exact .inl .refl
    | @step x k y e h ih =>
      rw [get_set hiD] at e
      split at e
      · next hxi => cases e; subst hxi; exact .inr ⟨.refl, hup c y h hic hcN⟩
      · rcases ih with ih | ⟨i1, i2⟩
        · exact .inl (.step e ih)
        · exact .inr ⟨.step e i1, i2⟩
  have hEi : ∀ w, Walk (IArc N P) (N - 1) w i → w.length ≤ b + 1 → ∀ y, y = i ∨ Chain D c y → y ∈ w := by
    intro w hw hlen y hy
    cases hw with
    | root => omega
    | @step w p _ hw hr =>
      rcases hy with rfl | hy
      · simp
      · simp only [List.length_cons] at hlen
        obtain ⟨a1, a2⟩ := hE p w hw (by have := (hb p).1; omega)
        exact List.mem_cons_of_mem _ (a2 y ((hch p ((hl p).2 ⟨hr.2, a1⟩)).trans hy))
  refine ⟨S', ?_, ?_⟩
  · intro j k hj e d hd hdj
    rw [get_set hiD] at e
    split at e
    · next h =>
      subst h
      cases e
      apply hdom
      intro p hp w hw
      have := hdj (j :: w) (.step hw ⟨by omega, ((hl p).1 hp).1⟩)
      rw [List.mem_cons] at this
      exact this.resolve_left hd
    · exact Q j k hj e d hd hdj
  · intro j w hw hlen
    by_cases hj : j = i
    · subst hj
      rw [if_pos rfl] at hlen
      refine ⟨⟨c, by rw [get_set hiD, if_pos rfl]⟩, fun y hy => hEi w hw hlen y ?_⟩
      cases hy with
      | refl => exact .inl rfl
      | step e h =>
        rw [get_set hiD, if_pos rfl] at e
        cases e
        exact .inr (hup c y h hic hcN)
    · rw [if_neg hj] at hlen
      obtain ⟨a1, a2⟩ := hE j w hw hlen
      refine ⟨known_set hiD a1, fun y hy => ?_⟩
      rcases hsplit j y hy with h | ⟨h1, h2⟩
      · exact a2 y h
      · obtain ⟨w', b1, b2⟩ := hw.suffix (a2 i h1)
        have := b2.length_le
        have := (hb j).2
        exact b2.subset (hEi w' b1 (by omega) y (.inr h2))

/-! ## The passes, abstractly -/

/-- The new dominator of index `i` is computed from the list `l` of known predecessors. -/
def NewOK (P : Nat → List Nat) (nd : List (Option Nat) → Nat → Option Nat) : Prop :=
  ∀ D i, D.length = N → i < N → ∃ l : List Nat, (∀ p, p ∈ l ↔ p ∈ P i ∧ Known D p) ∧
    nd D i = match l with
      | [] => none
      | a :: bs => fold D (2 * D.length + 1) bs a

/-- The `for` loop over indices. -/
def ipass (nd : List (Option Nat) → Nat → Option Nat) : Nat → List (Option Nat) → Bool → Option (List (Option Nat) × Bool)
  | 0, D, ch => some (D, ch)
  | k + 1, D, ch =>
    match nd D k with
    | none => none
    | some c => if D[k]? = some (some c) then ipass nd k D ch else ipass nd k (D.set k (some c)) true

def iiterate (N : Nat) (nd : List (Option Nat) → Nat → Option Nat) : Nat → List (Option Nat) → Option (List (Option Nat))
  | 0, _ => none
  | f + 1, D =>
    match ipass nd (N - 1) D false with
    | none => none
    | some (D, ch) => if ch then iiterate N nd f D else some D

theorem set_self {D : List (Option Nat)} {k : Nat} {v : Option Nat} (h : D[k]? = some v) : D.set k v = D := by
  apply List.ext_getElem?
  intro j
  have hk : k < D.length := (List.getElem?_eq_some_iff.1 h).1
  rw [get_set hk]
  split
  · next e => rw [e, h]
  · rfl

theorem ipass_ok {nd} (C : Ctx N P) (hnd : NewOK (N := N) P nd) {b : Nat} (k : Nat) : ∀ D ch, k ≤ N - 1 → Shape N D → Sound N P D →
    (∀ j, k ≤ j → j < N → Known D j) → (∀ j, Exact N P D j (if k ≤ j then b + 1 else b)) →
    ∃ D' ch', ipass nd k D ch = some (D', ch') ∧ Shape N D' ∧ Sound N P D' ∧ (∀ j, j < N → Known D' j) ∧
      (∀ j, Exact N P D' j (b + 1)) ∧ (∀ j, k ≤ j → D'[j]? = D[j]?) ∧ (ch' = true ↔ ch = true ∨ D' ≠ D) := by
  induction k with
  | zero =>
    intro D ch _ S Q hK hE
    exact ⟨D, ch, rfl, S, Q, fun j => hK j (by omega), fun j => by simpa using hE j, fun _ _ => rfl, by simp⟩
  | succ k ih =>
    intro D ch hk S Q hK hE
    have hiD : k < D.length := by rw [S.len]; omega
    obtain ⟨l, hl, hn⟩ := hnd D k S.len (by omega)
    obtain ⟨p, hp, hkp⟩ := C.up k (by omega)
    have hpN := C.lt k (by omega) p hp
    have hpl : p ∈ l := (hl p).2 ⟨hp, hK p hkp hpN⟩
    cases l with
    | nil => cases hpl
    | cons a bs =>
      simp only at hn
      have hmem : ∀ x ∈ a :: bs, x < N ∧ Known D x := by
        intro x hx
        obtain ⟨h1, h2⟩ := (hl x).1 hx
        exact ⟨C.lt k (by omega) x h1, h2⟩
      obtain ⟨c, c1, c2, c3, c4, c5⟩ := fold_ok S Q bs a (hmem a (by simp)).1 (hmem a (by simp)).2
        (fun x hx => hmem x (by simp [hx]))
      obtain ⟨S', Q', E'⟩ := update_ok C S Q (i := k) (by omega) hl (fun j hj => hK j hj) c2 c3 c4 c5
        (b := b) (bs := fun j => if k + 1 ≤ j then b + 1 else b) (by intro j; split <;> omega) hE
      obtain ⟨D', ch', d1, d2, d3, d4, d5, d6, d7⟩ := ih (D.set k (some c)) (if D[k]? = some (some c) then ch else true)
        (by omega) S' Q' (by
          intro j hj hjN
          by_cases h : j = k
          · subst h; exact ⟨c, by rw [get_set hiD, if_pos rfl]⟩
          · exact known_set hiD (hK j (by omega) hjN)) (by
          intro j
          have := E' j
          by_cases h : j = k
          · subst h; simpa using this
          · rw [if_neg h] at this
            by_cases h' : k ≤ j
            · rw [if_pos h']; rw [if_pos (by omega)] at this; exact this
            · rw [if_neg h']; rw [if_neg (by omega)] at this; exact this)
      refine ⟨D', ch', ?_, d2, d3, d4, d5, ?_, ?_⟩
      · unfold ipass
        rw [hn, c1]
        simp only
        split
        · next h => rw [if_pos h, set_self h] at d1; exact d1
        · next h => rw [if_neg h] at d1; exact d1
      · intro j hj
        rw [d6 j (by omega), get_set hiD, if_neg (by omega)]
      · rw [d7]
        by_cases h : D[k]? = some (some c)
        · rw [if_pos h, set_self h]
        · rw [if_neg h]
          simp only [true_or, true_iff]
          right
          rintro rfl
          have := d6 k (Nat.le_refl _)
          rw [get_set hiD, if_pos rfl] at this
          exact h this

/-- The vector holds the immediate dominators. -/
def Right (N : Nat) (P : Nat → List Nat) (D : List (Option Nat)) : Prop :=
  ∀ i, i < N - 1 → ∃ k, D[i]? = some (some k) ∧ k < N ∧ k ≠ i ∧ Dominates (IArc N P) (N - 1) k i ∧
    ∀ d, d ≠ i → Dominates (IArc N P) (N - 1) d i → Dominates (IArc N P) (N - 1) d k

theorem walk_lt (C : Ctx N P) {l i} (h : Walk (IArc N P) (N - 1) l i) : ∀ x ∈ l, x < N := by
  induction h with
  | root => intro x hx; have := C.pos; simp at hx; omega
  | step _ hr ih =>
    intro x hx
    rw [List.mem_cons] at hx
    rcases hx with rfl | hx
    · exact hr.1
    · exact ih x hx

/-- Every index is the end of a walk. -/
theorem walk_exists (C : Ctx N P) (i : Nat) (hi : i < N) : ∃ l, Walk (IArc N P) (N - 1) l i := by
  have key : ∀ k i, N - i ≤ k → i < N → ∃ l, Walk (IArc N P) (N - 1) l i := by
    intro k
    induction k with
    | zero => intro i h1 h2; omega
    | succ k ih =>
      intro i h1 h2
      by_cases h : i < N - 1
      · obtain ⟨p, hp, hip⟩ := C.up i h
        obtain ⟨l, hl⟩ := ih p (by omega) (C.lt i h2 p hp)
        exact ⟨i :: l, .step hl ⟨h2, hp⟩⟩
      · have : i = N - 1 := by omega
        subst this
        exact ⟨_, .root⟩
  exact key N i (by omega) hi

theorem right_of_exact {D} (C : Ctx N P) (S : Shape N D) (Q : Sound N P D) (hK : ∀ j, j < N → Known D j)
    (hE : ∀ j, Exact N P D j N) : Right N P D := by
  intro i hi
  obtain ⟨k, hk⟩ := hK i (by omega)
  obtain ⟨h1, h2, _⟩ := S.up i k hi hk
  refine ⟨k, hk, h2, by omega, ?_, fun d hd h => Q i k hi hk d hd h⟩
  intro l hl
  obtain ⟨l', a1, a2, a3⟩ := hl.simple
  have hlen : l'.length ≤ N := by
    have := (a2.subperm (l₂ := List.range N) fun x hx => List.mem_range.2 (walk_lt C a1 x hx)).length_le
    simpa using this
  exact a3 ((hE i l' a1 hlen).2 k (.step hk .refl))

theorem dominates_antisymm (C : Ctx N P) {a b : Nat} (ha : a < N) (h1 : Dominates (IArc N P) (N - 1) a b)
    (h2 : Dominates (IArc N P) (N - 1) b a) : a = b := by
  -- the shortest walk to `a` passes through `b` before, and that one passes through `a` before
  by_contra hne
  have key : ∀ n l, l.length ≤ n → ¬ Walk (IArc N P) (N - 1) l a := by
    intro n
    induction n with
    | zero => intro l hl hw; have := hw.mem; rw [List.length_eq_zero_iff.1 (by omega : l.length = 0)] at this; cases this
    | succ n ih =>
      intro l hl hw
      have hb : b ∈ l := h2 l hw
      have strict : ∀ {x y l}, Walk (IArc N P) (N - 1) l x → y ∈ l → y ≠ x → ∃ l', Walk (IArc N P) (N - 1) l' y ∧ l'.length < l.length := by
        intro x y l hw hy hne
        obtain ⟨l', w1, w2⟩ := hw.suffix hy
        refine ⟨l', w1, ?_⟩
        rcases Nat.lt_or_ge l'.length l.length with h | h
        · exact h
        · have := w2.eq_of_length_le h
          subst this
          cases w1 <;> cases hw <;> exact absurd rfl hne
      obtain ⟨l1, w1, w2⟩ := strict hw hb (Ne.symm hne)
      obtain ⟨l2, w3, w4⟩ := strict w1 (h1 l1 w1) hne
      exact ih l2 (by omega) w3
  obtain ⟨l, hl⟩ := walk_exists C a ha
  exact key _ l (Nat.le_refl _) hl

theorem right_unique {D D'} (C : Ctx N P) (S : Shape N D) (S' : Shape N D') (h : Right N P D) (h' : Right N P D') : D = D' := by
  apply List.ext_getElem?
  intro i
  by_cases hi : i < N - 1
  · obtain ⟨k, a1, a2, a3, a4, a5⟩ := h i hi
    obtain ⟨k', b1, b2, b3, b4, b5⟩ := h' i hi
    rw [a1, b1, dominates_antisymm C a2 (b5 k a3 a4) (a5 k' b3 b4)]
  · by_cases hi' : i = N - 1
    · subst hi'; rw [S.root, S'.root]
    · rw [List.getElem?_eq_none (by rw [S.len]; omega), List.getElem?_eq_none (by rw [S'.len]; omega)]

theorem exact_mono {D j b b'} (h : Exact N P D j b) (hb : b' ≤ b) : Exact N P D j b' :=
  fun l hl hlen => h l hl (by omega)

theorem iiterate_ok {nd} (C : Ctx N P) (hnd : NewOK (N := N) P nd) (f : Nat) : ∀ D b, 0 < b → N < f + b → Shape N D → Sound N P D →
    (∀ j, Exact N P D j b) → ∃ D', iiterate N nd (f + 1) D = some D' ∧ Shape N D' ∧ Right N P D' := by
  -- one pass
  have one : ∀ D b, 0 < b → Shape N D → Sound N P D → (∀ j, Exact N P D j b) → ∃ D' ch, ipass nd (N - 1) D false = some (D', ch) ∧
      Shape N D' ∧ Sound N P D' ∧ (∀ j, j < N → Known D' j) ∧ (∀ j, Exact N P D' j (b + 1)) ∧ (ch = true ↔ D' ≠ D) := by
    intro D b hb S Q hE
    obtain ⟨D', ch, a1, a2, a3, a4, a5, _, a7⟩ := ipass_ok C hnd (b := b) (N - 1) D false (Nat.le_refl _) S Q (by
        intro j h1 h2
        have : j = N - 1 := by omega
        subst this
        exact ⟨_, S.root⟩) (by
        intro j
        by_cases h : N - 1 ≤ j
        · intro l hl _
          by_cases hj : j = N - 1
          · subst hj
            exact ⟨⟨_, S.root⟩, fun c hc => by rw [hc.root S]; exact hl.mem⟩
          · have := walk_lt C hl j hl.mem
            omega
        · rw [if_neg h]; exact hE j)
    exact ⟨D', ch, a1, a2, a3, a4, a5, by simpa using a7⟩
  -- when nothing changes, the bound can be raised
  have fix : ∀ D, Shape N D → Sound N P D → (∀ j, Exact N P D j 1) → ipass nd (N - 1) D false = some (D, false) →
      ∀ b, 0 < b → ∀ j, Exact N P D j b := by
    intro D S Q hE hp b
    induction b with
    | zero => intro h; omega
    | succ b ih =>
      intro _
      by_cases hb : b = 0
      · subst hb; exact hE
      · obtain ⟨D', ch, a1, _, _, _, a5, _⟩ := one D b (by omega) S Q (ih (by omega))
        rw [hp] at a1
        cases a1
        exact a5
  induction f with
  | zero =>
    intro D b hb hf S Q hE
    obtain ⟨D', ch, a1, a2, a3, a4, a5, a6⟩ := one D b hb S Q hE
    have hk : ∀ j, j < N → Known D j := by
      intro j hj
      obtain ⟨l, hl⟩ := walk_exists C j hj
      obtain ⟨l', h1, h2, h3⟩ := hl.simple
      have hlen : l'.length ≤ N := by
        have := (h2.subperm (l₂ := List.range N) fun x hx => List.mem_range.2 (walk_lt C h1 x hx)).length_le
        simpa using this
      exact (hE j l' h1 (by omega)).1
    have hR := right_of_exact C S Q hk (fun j => exact_mono (hE j) (by omega))
    have hR' := right_of_exact C a2 a3 a4 (fun j => exact_mono (a5 j) (by omega))
    have hD := right_unique C S a2 hR hR'
    subst hD
    have hch : ch = false := by
      cases ch with
      | false => rfl
      | true => exact absurd rfl (a6.1 rfl)
    subst hch
    exact ⟨D, by simp [iiterate, a1], S, hR⟩
  | succ f ih =>
    intro D b hb hf S Q hE
    obtain ⟨D', ch, a1, a2, a3, a4, a5, a6⟩ := one D b hb S Q hE
    cases ch with
    | true =>
      obtain ⟨D'', b1, b2⟩ := ih D' (b + 1) (by omega) (by omega) a2 a3 a5
      refine ⟨D'', ?_, b2⟩
      conv => lhs; unfold iiterate
      rw [a1]
      simpa using b1
    | false =>
      have hD : D' = D := by
        by_contra hc
        exact absurd (a6.2 hc) (by simp)
      subst hD
      refine ⟨D', by simp [iiterate, a1], a2, right_of_exact C a2 a3 a4 ?_⟩
      exact fix D' a2 a3 (fun j => exact_mono (hE j) (by omega)) a1 N C.pos

end Verif.Algo.Dom
