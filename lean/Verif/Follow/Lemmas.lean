import Verif.Follow.Model
import Verif.Hierarchy.Props
import Verif.PortGraph.PropsCompact

/-!
# Moving all nodes of a hierarchy
-/

namespace Verif.Follow

open Verif.Hier Verif.PG

/-- A node has a place in the forest: it has a parent or children. -/
def InUse (K : Kids) (n : Nat) : Prop := Attached K n ∨ K n ≠ []

/-- All transpositions one after the other. -/
def total : List (Nat × Nat) → Nat → Nat
  | [], x => x
  | y :: tr, x => total tr (transpose y.1 y.2 x)

theorem transpose_transpose (a b x : Nat) : transpose a b (transpose a b x) = x := by
  unfold transpose
  split <;> rename_i h1 <;> repeat' split
  all_goals simp_all

theorem transpose_inj {a b x y : Nat} (h : transpose a b x = transpose a b y) : x = y := by
  rw [← transpose_transpose a b x, h, transpose_transpose]

theorem total_inj : ∀ {tr : List (Nat × Nat)} {x y : Nat}, total tr x = total tr y → x = y
  | [], _, _, h => h
  | _ :: _, _, _, h => transpose_inj (total_inj h)

theorem total_surj : ∀ (tr : List (Nat × Nat)) (y : Nat), ∃ x, total tr x = y
  | [], y => ⟨y, rfl⟩
  | z :: tr, y => by
    obtain ⟨x, hx⟩ := total_surj tr y
    exact ⟨transpose z.1 z.2 x, by simp only [total, transpose_transpose]; exact hx⟩

/-- The calls reported by a compaction, from the new index `s` on. -/
structure Calls (s : Nat) (tr : List (Nat × Nat)) : Prop where
  inc : (tr.map (·.1)).Pairwise (· < ·)
  new : tr.map (·.2) = List.range' s tr.length
  ge : ∀ x ∈ tr, s ≤ x.1

theorem Calls.head {s : Nat} {y : Nat × Nat} {tr : List (Nat × Nat)} (h : Calls s (y :: tr)) :
    y.2 = s ∧ s ≤ y.1 ∧ (∀ x ∈ tr, y.1 < x.1) ∧ Calls (s + 1) tr := by
  have h1 := h.inc
  have h2 := h.new
  simp only [List.map_cons, List.pairwise_cons, List.length_cons, List.range'_succ, List.cons.injEq] at h1 h2
  have h3 : ∀ x ∈ tr, y.1 < x.1 := fun x hx => h1.1 _ (List.mem_map_of_mem hx)
  have h4 := h.ge y (by simp)
  exact ⟨h2.1, h4, h3, h1.2, h2.2, fun x hx => by have := h3 x hx; omega⟩

theorem total_lt {tr : List (Nat × Nat)} : ∀ {s x : Nat}, Calls s tr → x < s → total tr x = x := by
  induction tr with
  | nil => intros; rfl
  | cons y tr ih =>
    intro s x h hx
    obtain ⟨h1, h2, -, h4⟩ := h.head
    have : transpose y.1 y.2 x = x := by
      unfold transpose; rw [if_neg (by omega), if_neg (by omega)]
    simp only [total, this]
    exact ih h4 (by omega)

theorem total_mem {tr : List (Nat × Nat)} : ∀ {s : Nat} {x : Nat × Nat}, Calls s tr → x ∈ tr → total tr x.1 = x.2 := by
  induction tr with
  | nil => intro s x _ hx; cases hx
  | cons y tr ih =>
    intro s x h hx
    obtain ⟨h1, h2, h3, h4⟩ := h.head
    rcases List.mem_cons.1 hx with rfl | hx
    · have : transpose x.1 x.2 x.1 = x.2 := by simp [transpose]
      simp only [total, this]
      exact total_lt h4 (by omega)
    · have := h3 x hx
      have : transpose y.1 y.2 x.1 = x.1 := by
        unfold transpose; rw [if_neg (by omega), if_neg (by omega)]
      simp only [total, this]
      exact ih h4 hx

/-- Moving all names of the lists. -/
def Moved (f : Nat → Nat) (K K' : Kids) : Prop := ∀ n, K' (f n) = (K n).map f

theorem moved_swap (K : Kids) (a b : Nat) : Moved (transpose a b) K (K.swap a b) := by
  intro n
  simp only [Kids.swap, transpose_transpose]

theorem Moved.comp {f g : Nat → Nat} {K1 K2 K3 : Kids} (h1 : Moved f K1 K2) (h2 : Moved g K2 K3) :
    Moved (fun x => g (f x)) K1 K3 := by
  intro n
  rw [h2, h1, List.map_map]; rfl

theorem inUse_moved {f : Nat → Nat} {K K' : Kids} (hi : ∀ x y, f x = f y → x = y) (hs : ∀ y, ∃ x, f x = y)
    (h : Moved f K K') {n : Nat} : InUse K' (f n) ↔ InUse K n := by
  unfold InUse Attached
  constructor
  · rintro (⟨p, hp⟩ | hk)
    · obtain ⟨q, rfl⟩ := hs p
      rw [h, List.mem_map] at hp
      obtain ⟨m, hm, e⟩ := hp
      exact .inl ⟨q, by rw [← hi _ _ e]; exact hm⟩
    · rw [h] at hk
      exact .inr fun e => hk (by rw [e]; rfl)
  · rintro (⟨p, hp⟩ | hk)
    · exact .inl ⟨f p, by rw [h]; exact List.mem_map_of_mem hp⟩
    · right; rw [h]; intro e; exact hk (List.map_eq_nil_iff.1 e)

theorem inUse_swap {K : Kids} {a b n : Nat} : InUse (K.swap a b) n ↔ InUse K (transpose a b n) := by
  have := inUse_moved (n := transpose a b n) (fun _ _ => transpose_inj)
    (fun y => ⟨transpose a b y, transpose_transpose a b y⟩) (moved_swap K a b)
  rwa [transpose_transpose] at this

theorem swap_step {h : Hierarchy} (hr : Hier.Reach h) {a b : Nat} (ha : a < 2 ^ 31) (hb : b < 2 ^ 31) :
    ∃ h', h.swapNodes a b = some h' ∧ Hier.Reach h' ∧ h'.kids = h.kids.swap a b := by
  have hok : Hier.Op.ok (.swapNodes a b) := ⟨ha, hb⟩
  obtain ⟨h', e, hk⟩ := (C24_calls_partial hr hok).2 _ _ rfl
  obtain ⟨h1, e1, e2⟩ := Option.map_eq_some_iff.1 e
  cases e2
  exact ⟨h', e1, .step hr hok e, hk⟩

theorem rekey_step {h : Hierarchy} (hr : Hier.Reach h) {a b : Nat} (ha : a < 2 ^ 31) (hb : b < 2 ^ 31)
    (hu : ¬ InUse h.kids b) : ∃ h', h.rekey a b = some h' ∧ Hier.Reach h' ∧ h'.kids = h.kids.swap a b := by
  have hok : Hier.Op.ok (.rekey a b) := ⟨ha, hb⟩
  obtain ⟨h', e, hk⟩ := (C24_calls_partial hr hok).2 (.ok none) (h.kids.swap a b) (by
    unfold spec; exact if_neg hu)
  obtain ⟨h1, e1, e2⟩ := Option.map_eq_some_iff.1 e
  cases e2
  exact ⟨h', e1, .step hr hok e, hk⟩

theorem rekey_none {h : Hierarchy} (hr : Hier.Reach h) {a b : Nat} (ha : a < 2 ^ 31) (hb : b < 2 ^ 31)
    (hu : InUse h.kids b) : h.rekey a b = none := by
  have hok : Hier.Op.ok (.rekey a b) := ⟨ha, hb⟩
  have := (C24_calls_partial hr hok).1 (by unfold spec; exact if_pos hu)
  simpa [Hierarchy.step] using this

theorem swap_run {tr : List (Nat × Nat)} : ∀ {h : Hierarchy}, Hier.Reach h → (∀ x ∈ tr, x.1 < 2 ^ 31 ∧ x.2 < 2 ^ 31) →
    ∃ h', swapAll h tr = some h' ∧ Hier.Reach h' ∧ Moved (total tr) h.kids h'.kids := by
  induction tr with
  | nil => intro h hr _; exact ⟨h, rfl, hr, fun n => by simp [total]⟩
  | cons y tr ih =>
    intro h hr hb
    obtain ⟨h1, e1, r1, k1⟩ := swap_step hr (hb y (by simp)).1 (hb y (by simp)).2
    obtain ⟨h2, e2, r2, k2⟩ := ih r1 fun x hx => hb x (by simp [hx])
    refine ⟨h2, by simp only [swapAll, e1]; exact e2, r2, ?_⟩
    rw [k1] at k2
    exact (moved_swap h.kids y.1 y.2).comp k2

theorem rekey_run {tr : List (Nat × Nat)} : ∀ {s : Nat} {h : Hierarchy}, Hier.Reach h → Calls s tr →
    (∀ x ∈ tr, x.1 < 2 ^ 31) → (∀ n, s ≤ n → InUse h.kids n → n ∈ tr.map (·.1)) →
    (∀ x ∈ tr, x.1 = x.2 → ¬ InUse h.kids x.1) →
    ∃ h', rekeyAll h tr = some h' ∧ Hier.Reach h' ∧ Moved (total tr) h.kids h'.kids := by
  induction tr with
  | nil => intro s h hr _ _ _ _; exact ⟨h, rfl, hr, fun n => by simp [total]⟩
  | cons y tr ih =>
    intro s h hr hc hb hu hk
    obtain ⟨c1, c2, c3, c4⟩ := hc.head
    have hby := hb y (by simp)
    have hfree : ¬ InUse h.kids y.2 := by
      intro hi
      rcases Nat.lt_or_ge s y.1 with hl | hl
      · have := hu y.2 (by omega) hi
        simp only [List.map_cons, List.mem_cons, List.mem_map] at this
        rcases this with h1 | ⟨x, hx, h1⟩
        · omega
        · have := c3 x hx; omega
      · have he : y.1 = y.2 := by omega
        exact hk y (by simp) he (by rw [he]; exact hi)
    obtain ⟨h1, e1, r1, k1⟩ := rekey_step hr hby (by omega : y.2 < 2 ^ 31) hfree
    obtain ⟨h2, e2, r2, k2⟩ := ih r1 c4 (fun x hx => hb x (by simp [hx])) (by
      intro n hn hi
      rw [k1, inUse_swap] at hi
      by_cases hny : n = y.1
      · subst hny
        simp only [transpose, if_true] at hi
        exact absurd hi hfree
      · have : transpose y.1 y.2 n = n := by unfold transpose; rw [if_neg hny, if_neg (by omega)]
        rw [this] at hi
        have := hu n (by omega) hi
        simp only [List.map_cons, List.mem_cons] at this
        exact this.resolve_left hny) (by
      intro x hx he
      have := c3 x hx
      have ht : transpose y.1 y.2 x.1 = x.1 := by unfold transpose; rw [if_neg (by omega), if_neg (by omega)]
      rw [k1, inUse_swap, ht]
      exact hk x (by simp [hx]) he)
    refine ⟨h2, by simp only [rekeyAll, e1]; exact e2, r2, ?_⟩
    rw [k1] at k2
    exact (moved_swap h.kids y.1 y.2).comp k2

theorem rekey_stuck {tr : List (Nat × Nat)} : ∀ {s : Nat} {h : Hierarchy}, Hier.Reach h → Calls s tr →
    (∀ x ∈ tr, x.1 < 2 ^ 31) → ∀ {x : Nat × Nat}, x ∈ tr → x.1 = x.2 → InUse h.kids x.1 → rekeyAll h tr = none := by
  induction tr with
  | nil => intro s h _ _ _ x hx; cases hx
  | cons y tr ih =>
    intro s h hr hc hb x hx he hi
    obtain ⟨c1, c2, c3, c4⟩ := hc.head
    have hby := hb y (by simp)
    by_cases hy : InUse h.kids y.2
    · simp only [rekeyAll, rekey_none hr hby (by omega : y.2 < 2 ^ 31) hy]
    · rcases List.mem_cons.1 hx with rfl | hx
      · exact absurd (he ▸ hi) hy
      · obtain ⟨h1, e1, r1, k1⟩ := rekey_step hr hby (by omega : y.2 < 2 ^ 31) hy
        simp only [rekeyAll, e1]
        refine ih r1 c4 (fun x hx => hb x (by simp [hx])) hx he ?_
        have := c3 x hx
        have ht : transpose y.1 y.2 x.1 = x.1 := by unfold transpose; rw [if_neg (by omega), if_neg (by omega)]
        rw [k1, inUse_swap, ht]
        exact hi

theorem Calls.keeps {tr : List (Nat × Nat)} : ∀ {s : Nat} {x : Nat × Nat}, Calls s tr → x ∈ tr →
    (x.1 = x.2 ↔ ∀ m, s ≤ m → m ≤ x.1 → m ∈ tr.map (·.1)) := by
  induction tr with
  | nil => intro s x _ hx; cases hx
  | cons y tr ih =>
    intro s x hc hx
    obtain ⟨c1, c2, c3, c4⟩ := hc.head
    have hfirst : (∀ m, s ≤ m → m ≤ x.1 → m ∈ (y :: tr).map (·.1)) → y.1 = s := by
      intro hm
      have hsx : s ≤ x.1 := hc.ge x hx
      have := hm s (Nat.le_refl _) hsx
      simp only [List.map_cons, List.mem_cons, List.mem_map] at this
      rcases this with h1 | ⟨z, hz, h1⟩
      · omega
      · have := c3 z hz; omega
    rcases List.mem_cons.1 hx with rfl | hx'
    · constructor
      · intro he m h1 h2
        have : m = x.1 := by omega
        simp [this]
      · intro hm; have := hfirst hm; omega
    · have hlt := c3 x hx'
      have hih := ih c4 hx'
      constructor
      · intro he m h1 h2
        have h3 := hih.1 he
        rcases Nat.eq_or_lt_of_le h1 with rfl | h4
        · -- the index `s` itself: all later first entries are larger than their new index unless `y.1 = s`
          by_cases hys : y.1 = s
          · simp [hys]
          · have := h3 (s + 1) (Nat.le_refl _) (by have := c4.ge x hx'; omega)
            obtain ⟨z, hz, hz1⟩ := List.mem_map.1 this
            have := c3 z hz
            omega
        · exact List.mem_cons_of_mem _ (h3 m h4 h2)
      · intro hm
        have hys := hfirst hm
        refine hih.2 fun m h1 h2 => ?_
        have := hm m (by omega) h2
        simp only [List.map_cons, List.mem_cons] at this
        exact this.resolve_left (by omega)

end Verif.Follow
