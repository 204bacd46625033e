import Verif.View.Model
import Verif.Hierarchy.Props

/-!
# The cache of a region
-/

namespace Verif.View

open Verif.Hier

/-- The cache holds the root, and what it says about other nodes is right. -/
structure CacheOk (K : Kids) (root : Nat) (c : Cache) : Prop where
  has : (c.lookup root).isSome
  right : ∀ x b, x ≠ root → c.lookup x = some b → (b = true ↔ Anc K root x)

theorem cacheOk_new (K : Kids) (root : Nat) : CacheOk K root (.new root) := by
  refine ⟨by simp [Cache.new], fun x b hx h => ?_⟩
  have : (x == root) = false := by simpa using hx
  simp [Cache.new, List.lookup_cons, this] at h

theorem lookup_store (l : List Nat) (b : Bool) (c : Cache) (y : Nat) :
    (storeDescendant l b c).lookup y = if y ∈ l then some b else c.lookup y := by
  unfold storeDescendant
  induction l generalizing c with
  | nil => simp
  | cons x l ih =>
    rw [List.foldl_cons, ih]
    by_cases h1 : y ∈ l
    · simp [h1]
    · simp only [h1, if_false, List.mem_cons, or_false]
      by_cases h2 : y = x
      · subst h2; simp
      · have : (y == x) = false := by simpa using h2
        simp [List.lookup_cons, this, h2]

theorem store_ok {K : Kids} {root : Nat} {c : Cache} (hc : CacheOk K root c) {l : List Nat} {b : Bool}
    (hl : ∀ x ∈ l, x ≠ root ∧ (b = true ↔ Anc K root x)) : CacheOk K root (storeDescendant l b c) := by
  constructor
  · rw [lookup_store]; split
    · rfl
    · exact hc.has
  · intro x b' hx h
    rw [lookup_store] at h
    split at h
    · next hm => cases h; exact (hl x hm).2
    · exact hc.right x b' hx h

section
variable {h : Hierarchy} {K : Kids} (v : Inv h K)
include v

theorem anc_parent {root n p : Nat} (hne : n ≠ root) (hp : h.parent n = some p) : Anc K root n ↔ Anc K root p := by
  have hm : n ∈ K p := v.repr.parent_iff.1 hp
  constructor
  · intro ha
    cases ha with
    | refl => exact absurd rfl hne
    | step ha hq => rw [v.repr.unique hm hq]; exact ha
  · exact fun ha => .step ha hm

theorem anc_none {root n : Nat} (hne : n ≠ root) (hp : h.parent n = none) : ¬ Anc K root n := by
  intro ha
  cases ha with
  | refl => exact hne rfl
  | step _ hq =>
    have : h.parent n = some _ := v.repr.parent_iff.2 hq
    rw [hp] at this; cases this

theorem climbCache_some (c : Cache) (n : Nat) : ∃ l, climbCache h c h.fuel n = some l := by
  obtain ⟨l, hl, hm, hcl⟩ := v.chain n
  have hb : ∀ l : List Nat, ∃ B, ∀ x ∈ l, x < B := by
    intro l
    induction l with
    | nil => exact ⟨0, by simp⟩
    | cons x l ih =>
      obtain ⟨B, hB⟩ := ih
      refine ⟨max (x + 1) B, fun y hy => ?_⟩
      rcases List.mem_cons.1 hy with rfl | hy
      · omega
      · have := hB y hy; omega
  obtain ⟨B, hB⟩ := hb l
  have hnot : B ∉ l := fun hm => Nat.lt_irrefl _ (hB B hm)
  have hc := hcl B h.fuel hl
  rw [decide_eq_true hnot] at hc
  clear hcl hm hl hB hnot
  generalize h.fuel = f at hc
  induction f generalizing n with
  | zero => cases hc
  | succ f ih =>
    unfold Hierarchy.climb at hc
    unfold climbCache
    split at hc
    · cases hc
    · cases hp : h.parent n with
      | none => exact ⟨_, rfl⟩
      | some p =>
        have hp' : (h.get n).parent = some p := hp
        rw [hp'] at hc
        obtain ⟨l', hl'⟩ := ih p hc
        simp only
        split
        · exact ⟨_, rfl⟩
        · exact ⟨n :: l', by rw [hl']; rfl⟩

theorem climbCache_spec {root : Nat} {c : Cache} (hc : CacheOk K root c) {f n : Nat} {l : List Nat} (hne : n ≠ root)
    (hl : climbCache h c f n = some l) : ∃ last, l.getLast? = some last ∧ last ≠ root ∧
      (∀ x ∈ l, x ≠ root ∧ (Anc K root x ↔ Anc K root last)) ∧
      (h.parent last = none ∨ ∃ a, h.parent last = some a ∧ (c.lookup a).isSome) := by
  induction f generalizing n l with
  | zero => cases hl
  | succ f ih =>
    unfold climbCache at hl
    cases hp : h.parent n with
    | none =>
      rw [hp] at hl
      cases hl
      exact ⟨n, rfl, hne, by simp [hne], .inl hp⟩
    | some p =>
      rw [hp] at hl
      simp only at hl
      split at hl
      · next hs =>
        cases hl
        exact ⟨n, rfl, hne, by simp [hne], .inr ⟨p, hp, hs⟩⟩
      · next hs =>
        cases hl' : climbCache h c f p with
        | none => rw [hl'] at hl; cases hl
        | some l' =>
          rw [hl'] at hl
          cases hl
          have hpr : p ≠ root := by rintro rfl; exact hs hc.has
          obtain ⟨last, h1, h2, h3, h4⟩ := ih hpr hl'
          refine ⟨last, ?_, h2, ?_, h4⟩
          · cases l' with
            | nil => simp at h1
            | cons y l' => rw [List.getLast?_cons_cons]; exact h1
          · intro x hx
            rcases List.mem_cons.1 hx with rfl | hx
            · refine ⟨hne, ?_⟩
              rw [anc_parent v hne hp]
              have : p ∈ l' := by
                cases f with
                | zero => cases hl'
                | succ f =>
                  unfold climbCache at hl'
                  split at hl'
                  · cases hl'; simp
                  · split at hl'
                    · cases hl'; simp
                    · rw [Option.map_eq_some_iff] at hl'
                      obtain ⟨l'', -, rfl⟩ := hl'
                      simp
              exact (h3 p this).2
            · exact h3 x hx

/-- What is read under the lock is right: a known answer, or an answer with the nodes it is right
for. -/
theorem look_ok {root : Nat} {c : Cache} (hc : CacheOk K root c) (n : Nat) :
    (∃ b, lookDescendant h root c n = some (.hit b) ∧ (b = true ↔ Anc K root n)) ∨
    (∃ l b, lookDescendant h root c n = some (.computed l b) ∧ (b = true ↔ Anc K root n) ∧
      ∀ x ∈ l, x ≠ root ∧ (b = true ↔ Anc K root x)) := by
  unfold lookDescendant
  by_cases hn : n = root
  · subst hn
    exact .inl ⟨true, by simp, by simp; exact .refl _⟩
  · rw [if_neg hn]
    cases hlk : c.lookup n with
    | some b => exact .inl ⟨b, rfl, hc.right n b hn hlk⟩
    | none =>
      obtain ⟨l, hl⟩ := climbCache_some v c n
      obtain ⟨last, h1, h2, h3, h4⟩ := climbCache_spec v hc hn hl
      have hnl : n ∈ l := by
        have := hl
        unfold Hierarchy.fuel climbCache at this
        split at this
        · cases this; simp
        · split at this
          · cases this; simp
          · rw [Option.map_eq_some_iff] at this
            obtain ⟨l'', -, rfl⟩ := this
            simp
      refine .inr ?_
      simp only [hl, h1]
      have fin : ∀ b, (b = true ↔ Anc K root last) → (b = true ↔ Anc K root n) ∧
          ∀ x ∈ l, x ≠ root ∧ (b = true ↔ Anc K root x) := by
        intro b hb
        exact ⟨hb.trans (h3 n hnl).2.symm, fun x hx => ⟨(h3 x hx).1, hb.trans (h3 x hx).2.symm⟩⟩
      by_cases hp : h.parent last = some root
      · refine ⟨l, true, by rw [if_pos hp]; rfl, fin true ?_⟩
        rw [anc_parent v h2 hp]
        simp; exact .refl _
      · rw [if_neg hp]
        rcases h4 with h4 | ⟨a, ha, hs⟩
        · rw [h4]
          refine ⟨l, false, rfl, fin false ?_⟩
          simp; exact anc_none v h2 h4
        · rw [ha]
          obtain ⟨b, hb⟩ := Option.isSome_iff_exists.1 hs
          refine ⟨l, b, by simp [hb], fin b ?_⟩
          rw [anc_parent v h2 ha]
          refine hc.right a b ?_ hb
          rintro rfl
          exact hp ha

/-- A query answers rightly and keeps the cache right. -/
theorem isDescendant_ok {root : Nat} {c : Cache} (hc : CacheOk K root c) (n : Nat) :
    ∃ b c', isDescendant h root c n = some (b, c') ∧ (b = true ↔ Anc K root n) ∧ CacheOk K root c' := by
  unfold isDescendant
  rcases look_ok v hc n with ⟨b, h1, h2⟩ | ⟨l, b, h1, h2, h3⟩
  · exact ⟨b, c, by rw [h1], h2, hc⟩
  · exact ⟨b, _, by rw [h1], h2, store_ok hc h3⟩

end

end Verif.View
