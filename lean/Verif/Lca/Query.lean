import Verif.Lca.Lemmas

/-! The tables built by `LCA::new` are right, and the queries answer from them correctly. -/

namespace Verif.Lca

open Verif.Hier

variable {K : Kids} {par : Nat → Option Nat} {H : Nat}

/-- Every tree has a root. -/
theorem Tree.root_exists (T : Tree K par H) (x : Nat) : ∃ r, par r = none ∧ Anc K r x := by
  have key : ∀ f u, up par f u = none → ∃ r, par r = none ∧ Anc K r u := by
    intro f
    induction f with
    | zero => intro u h; cases h
    | succ f ih =>
      intro u h
      cases hp : par u with
      | none => exact ⟨u, hp, .refl _⟩
      | some p =>
        simp only [up, hp, Option.bind_some] at h
        obtain ⟨r, h1, h2⟩ := ih p h
        exact ⟨r, h1, .step h2 ((T.par_iff _ _).1 hp)⟩
  exact key H x (T.depth x)

theorem Tree.anc_root (T : Tree K par H) {r x : Nat} (hr : par r = none) (h : Anc K x r) : x = r := by
  cases h with
  | refl => rfl
  | step _ hm => rw [(T.par_iff _ _).2 hm] at hr; cases hr

theorem Tree.root_unique (T : Tree K par H) {r r' x : Nat} (hr : par r = none) (hr' : par r' = none)
    (h : Anc K r x) (h' : Anc K r' x) : r = r' := by
  rcases T.anc_total h h' with h | h
  · exact T.anc_root hr' h
  · exact (T.anc_root hr h).symm

theorem roots_ok (T : Tree K par H) {S : Nat} (hS : H ≤ 2 ^ S) {N : Nat} (hsize : ∀ (n : Nat) (L : List Nat), L.Nodup → (∀ x ∈ L, Anc K n x) → L.length ≤ N)
    {isRoot : Nat → Bool} (hroot : ∀ n, isRoot n = true ↔ par n = none) (s0 : LCA) (h0 : ∀ x, s0.climb x = []) :
    ∀ (rs pre : List Nat), (pre ++ rs).Nodup → ∀ (L : List Nat) (s : LCA) (t : Nat), Done K par L s0 s 0 t →
    (∀ x, x ∈ L ↔ ∃ r ∈ pre, par r = none ∧ Anc K r x) →
    ∃ L' s' t', roots K isRoot S (2 * N + 1) rs s t = some (s', t') ∧ Done K par L' s0 s' 0 t' ∧
      (∀ x, x ∈ L' ↔ ∃ r ∈ pre ++ rs, par r = none ∧ Anc K r x) := by
  intro rs
  induction rs with
  | nil => intro pre _ L s t hD hL; exact ⟨L, s, t, rfl, hD, by simpa using hL⟩
  | cons r rs ih =>
    intro pre hnd L s t hD hL
    have hnd' : (pre ++ [r] ++ rs).Nodup := by simpa using hnd
    by_cases hr : isRoot r = true
    · have hpr := (hroot r).1 hr
      have hrpre : r ∉ pre := by
        rw [List.nodup_append] at hnd
        intro hm
        exact hnd.2.2 r hm r (by simp) rfl
      have hout : ∀ x, Anc K r x → x ∉ L := by
        intro x hx hxL
        obtain ⟨r', hr', hp', ha'⟩ := (hL x).1 hxL
        have := T.root_unique hpr hp' hx ha'
        exact hrpre (this ▸ hr')
      have hclimb : ∀ x, Anc K r x → s.climb x = [] := fun x hx => by rw [(hD.keep x (hout x hx)).2.2, h0]
      obtain ⟨L1, s1, a1, a2, a3⟩ := visit_ok T hS H r (by
          rw [List.eq_nil_iff_forall_not_mem]
          intro x hx
          -- a node `H` levels down would have `H` nodes above it
          have : ∀ k x, x ∈ level K r k → up par k x = some r := by
            intro k
            induction k with
            | zero => intro x hx; simp [level] at hx; simp [up, hx]
            | succ k ihk =>
              intro x hx
              obtain ⟨p, hp, hm⟩ := List.mem_flatMap.1 hx
              simp [up, (T.par_iff _ _).2 hm, ihk p hp]
          have := this H x hx
          rw [T.depth] at this; cases this) s t (hclimb r (.refl _)) (by
          intro a j hj
          simp [up, hpr] at hj) hclimb
      have hlen : L1.length ≤ N := hsize r L1 a2.nodup (fun x hx => (a1 x).1 hx)
      have hrun : loop K S (2 * N + 1) [.visit r none] s t = some (s1, t + 2 * L1.length) := by
        have := a3 (2 * N + 1 - 2 * L1.length) []
        rw [show 2 * L1.length + (2 * N + 1 - 2 * L1.length) = 2 * N + 1 by omega, hpr] at this
        rw [this]
        cases 2 * N + 1 - 2 * L1.length <;> rfl
      have hD' := hD.append a2 (by
        intro x hx y hy
        have hy' := (a1 y).1 hy
        obtain ⟨r', hr', hp', ha'⟩ := (hL x).1 hx
        constructor
        · intro hc
          have := T.root_unique hpr hp' hy' (ha'.trans hc)
          exact hrpre (this ▸ hr')
        · intro hc
          have := T.root_unique hpr hp' (hy'.trans hc) ha'
          exact hrpre (this ▸ hr'))
      obtain ⟨L', s', t', b1, b2, b3⟩ := ih (pre ++ [r]) hnd' (L ++ L1) s1 _ hD' (by
        intro x
        rw [List.mem_append, hL, a1]
        constructor
        · rintro (⟨r', h1, h2⟩ | h)
          · exact ⟨r', by simp [h1], h2⟩
          · exact ⟨r, by simp, hpr, h⟩
        · rintro ⟨r', h1, h2⟩
          rw [List.mem_append, List.mem_singleton] at h1
          rcases h1 with h1 | rfl
          · exact .inl ⟨r', h1, h2⟩
          · exact .inr h2.2)
      refine ⟨L', s', t', ?_, b2, by simpa using b3⟩
      simp [roots, hr, hrun, b1]
    · have hpr : par r ≠ none := fun h => hr ((hroot r).2 h)
      obtain ⟨L', s', t', b1, b2, b3⟩ := ih (pre ++ [r]) hnd' L s t hD (by
        intro x
        rw [hL]
        constructor
        · rintro ⟨r', h1, h2⟩; exact ⟨r', by simp [h1], h2⟩
        · rintro ⟨r', h1, h2⟩
          rw [List.mem_append, List.mem_singleton] at h1
          rcases h1 with h1 | rfl
          · exact ⟨r', h1, h2⟩
          · exact absurd h2.1 hpr)
      refine ⟨L', s', t', ?_, b2, by simpa using b3⟩
      simp [roots, hr, b1]

/-- The tables are right for the covered nodes. -/
structure Good (K : Kids) (par : Nat → Option Nat) (cov : Nat → Prop) (s : LCA) : Prop where
  anc : ∀ x y, cov x → cov y → (s.isAncestor x y = true ↔ Anc K x y)
  climb : ∀ x, cov x → ClimbOK par s.climb x
  up : ∀ x y, cov x → Anc K y x → cov y

section
variable {cov : Nat → Prop} {s : LCA} (T : Tree K par H) (G : Good K par cov s)
include T G

theorem last_none {u : Nat} (hu : cov u) (h : (s.climb u).getLast? = none) : par u = none := by
  rw [List.getLast?_eq_none_iff] at h
  have := G.climb u hu 0
  rw [h] at this
  simp only [Nat.pow_zero, Lca.up] at this
  cases hp : par u with
  | none => rfl
  | some p => rw [hp] at this; simp [Lca.up] at this

theorem last_some {u v : Nat} (hu : cov u) (h : (s.climb u).getLast? = some v) :
    ∃ k, k = 2 ^ ((s.climb u).length - 1) ∧ 0 < k ∧ Lca.up par k u = some v := by
  rw [List.getLast?_eq_getElem?] at h
  rw [G.climb u hu] at h
  exact ⟨_, rfl, Nat.two_pow_pos _, h⟩

theorem up_none_step {u v k f : Nat} (hk : 0 < k) (h : Lca.up par k u = some v) (hf : Lca.up par (f + 1) u = none) :
    Lca.up par f v = none := by
  by_contra hc
  have h1 : Lca.up par (k + f) u ≠ none := by rw [up_add, h]; exact hc
  exact up_mono (by omega : f + 1 ≤ k + f) h1 hf

theorem root_ok (f : Nat) : ∀ u, cov u → Lca.up par f u = none → ∃ r, s.root f u = some r ∧ par r = none ∧ Anc K r u := by
  induction f with
  | zero => intro u _ h; cases h
  | succ f ih =>
    intro u hu hf
    simp only [LCA.root]
    cases hl : (s.climb u).getLast? with
    | none => exact ⟨u, rfl, last_none T G hu hl, .refl _⟩
    | some v =>
      obtain ⟨k, _, hk, huv⟩ := last_some T G hu hl
      have hv : Anc K v u := T.anc_iff.2 ⟨k, huv⟩
      obtain ⟨r, h1, h2, h3⟩ := ih v (G.up u v hu hv) (up_none_step T G hk huv hf)
      exact ⟨r, h1, h2, h3.trans hv⟩

theorem ascend_ok {b r : Nat} (hb : cov b) (hr : par r = none) (hrb : Anc K r b) (f : Nat) :
    ∀ u, cov u → Lca.up par f u = none → Anc K r u → ¬ Anc K u b →
    ∃ u' v, s.ascend b f u = some u' ∧ Anc K u' u ∧ ¬ Anc K u' b ∧ (s.climb u').getLast? = some v ∧ Anc K v b := by
  induction f with
  | zero => intro u _ h; cases h
  | succ f ih =>
    intro u hu hf hru hub
    simp only [LCA.ascend]
    cases hl : (s.climb u).getLast? with
    | none =>
      have := T.root_unique hr (last_none T G hu hl) hru (.refl _)
      exact absurd (this ▸ hrb) hub
    | some v =>
      obtain ⟨k, _, hk, huv⟩ := last_some T G hu hl
      have hv : Anc K v u := T.anc_iff.2 ⟨k, huv⟩
      have hcv := G.up u v hu hv
      by_cases hvb : Anc K v b
      · simp only [if_pos ((G.anc v b hcv hb).2 hvb)]
        exact ⟨u, v, rfl, .refl _, hub, hl, hvb⟩
      · simp only [(G.anc v b hcv hb), hvb, if_false]
        have hrv : Anc K r v := by
          rcases T.anc_total hru hv with h | h
          · exact h
          · rw [T.anc_root hr h]; exact .refl _
        obtain ⟨u', w, h1, h2, h3⟩ := ih v hcv (up_none_step T G hk huv hf) hrv hvb
        exact ⟨u', w, h1, h2.trans hv, h3⟩

theorem climb_length_le {u : Nat} (hu : cov u) : (s.climb u).length ≤ H := by
  by_contra hc
  have h1 := G.climb u hu H
  rw [T.up_none (by have := lt_two_pow H; omega)] at h1
  rw [List.getElem?_eq_none_iff] at h1
  omega

theorem search_ok {b : Nat} (hb : cov b) (F : Nat) :
    ∀ h u i w, cov u → Lca.up par h u = none → h * (H + 1) + i < F → (s.climb u)[i]? = some w → Anc K w b → ¬ Anc K u b →
    ∃ u' p, s.search b F u i = some u' ∧ Anc K u' u ∧ ¬ Anc K u' b ∧ (s.climb u')[0]? = some p ∧ Anc K p b := by
  induction F with
  | zero => intros; omega
  | succ F ih =>
    intro h u i w hu hh hF hw hwb hub
    simp only [LCA.search]
    by_cases hi : i = 0
    · subst hi
      rw [if_pos rfl]
      exact ⟨u, w, rfl, .refl _, hub, hw, hwb⟩
    · rw [if_neg hi]
      obtain ⟨hil, _⟩ := List.getElem?_eq_some_iff.1 hw
      have hv : (s.climb u)[i - 1]? = some (s.climb u)[i - 1] := List.getElem?_eq_getElem (by omega)
      generalize (s.climb u)[i - 1] = v at hv
      rw [hv]
      simp only
      rw [G.climb u hu] at hw hv
      have hva : Anc K v u := T.anc_iff.2 ⟨_, hv⟩
      have hcv := G.up u v hu hva
      have hvw : Lca.up par (2 ^ (i - 1)) v = some w := by
        have e : 2 ^ i = 2 ^ (i - 1) + 2 ^ (i - 1) := by
          rw [← Nat.mul_two, ← Nat.pow_succ]; congr 1; omega
        rw [e, up_add, hv] at hw; exact hw
      by_cases hvb : Anc K v b
      · rw [if_pos ((G.anc v b hcv hb).2 hvb)]
        exact ih h u (i - 1) v hu hh (by omega) (by rw [G.climb u hu]; exact hv) hvb hub
      · simp only [(G.anc v b hcv hb), hvb, if_false]
        have hlen : i - 1 < (s.climb v).length := by
          have := G.climb v hcv (i - 1)
          rw [hvw] at this
          obtain ⟨h1, _⟩ := List.getElem?_eq_some_iff.1 this
          exact h1
        rw [if_neg (by omega), show max (i - 1) ((s.climb v).length - 1) = (s.climb v).length - 1 by omega]
        have hll : (s.climb v)[(s.climb v).length - 1]? = some (s.climb v)[(s.climb v).length - 1] :=
          List.getElem?_eq_getElem (by omega)
        generalize (s.climb v)[(s.climb v).length - 1] = w' at hll
        have hle := climb_length_le T G hcv
        cases h with
        | zero => cases hh
        | succ h =>
          have hvh := up_none_step T G (Nat.two_pow_pos _) hv hh
          rw [Nat.succ_mul] at hF
          obtain ⟨u', p, h1, h2, h3⟩ := ih h v _ w' hcv hvh (by omega) hll (by
            rw [G.climb v hcv] at hll
            have hpow : 2 ^ (i - 1) ≤ 2 ^ ((s.climb v).length - 1) := Nat.pow_le_pow_right (by omega) (by omega)
            obtain ⟨c, hc⟩ := Nat.exists_eq_add_of_le hpow
            rw [hc, up_add, hvw] at hll
            exact Anc.trans (T.anc_iff.2 ⟨c, hll⟩) hwb) hvb
          exact ⟨u', p, h1, h2.trans hva, h3⟩

theorem lca_ok {a b : Nat} (ha : cov a) (hb : cov b) : ∃ o, s.lca H a b = some o ∧
    (∀ c, o = some c → Anc K c a ∧ Anc K c b ∧ ∀ d, Anc K d a → Anc K d b → Anc K d c) ∧
    (o = none → ∀ c, ¬ (Anc K c a ∧ Anc K c b)) := by
  simp only [LCA.lca, LCA.lcaWith]
  by_cases hab : Anc K a b
  · rw [if_pos ((G.anc a b ha hb).2 hab)]
    refine ⟨_, rfl, ?_, by simp⟩
    rintro c h
    cases h
    exact ⟨.refl _, hab, fun d h _ => h⟩
  · simp only [(G.anc a b ha hb), hab, if_false]
    by_cases hba : Anc K b a
    · rw [if_pos ((G.anc b a hb ha).2 hba)]
      refine ⟨_, rfl, ?_, by simp⟩
      rintro c h
      cases h
      exact ⟨hba, .refl _, fun d _ h => h⟩
    · simp only [(G.anc b a hb ha), hba, if_false]
      obtain ⟨ra, a1, a2, a3⟩ := root_ok T G H a ha (T.depth a)
      obtain ⟨rb, b1, b2, b3⟩ := root_ok T G H b hb (T.depth b)
      rw [a1, b1]
      simp only
      by_cases hr : ra = rb
      · subst hr
        simp only [ne_eq, not_true_eq_false, if_false]
        obtain ⟨u, v, u1, u2, u3, u4, u5⟩ := ascend_ok T G hb a2 b3 H a ha (T.depth a) a3 hab
        rw [u1]
        simp only
        have hcu := G.up a u ha u2
        have hl : (s.climb u).length ≠ 0 := by
          intro h; rw [List.length_eq_zero_iff] at h; rw [h] at u4; cases u4
        rw [if_neg hl]
        rw [List.getLast?_eq_getElem?] at u4
        have hle := climb_length_le T G hcu
        obtain ⟨w, p, w1, w2, w3, w4, w5⟩ := search_ok T G hb (H * (H + 1) + H + 1) H u _ v hcu (T.depth u) (by omega) u4 u5 u3
        rw [w1]
        simp only [w4, Option.map_some]
        refine ⟨some p, rfl, ?_, by simp⟩
        rintro c h
        cases h
        have hwa := w2.trans u2
        have hcw := G.up a w ha hwa
        rw [G.climb w hcw] at w4
        have hpw : Anc K p w := T.anc_iff.2 ⟨_, w4⟩
        refine ⟨hpw.trans hwa, w5, ?_⟩
        intro d hda hdb
        rcases T.anc_total hda hwa with h | h
        · obtain ⟨k, hk⟩ := T.anc_iff.1 h
          cases k with
          | zero => simp [Lca.up] at hk; exact absurd (hk ▸ hdb) w3
          | succ k =>
            rw [Nat.pow_zero] at w4
            rw [Nat.add_comm, up_add, w4] at hk
            exact T.anc_iff.2 ⟨k, hk⟩
        · exact absurd (h.trans hdb) w3
      · rw [if_pos hr]
        refine ⟨none, rfl, by simp, ?_⟩
        rintro _ c ⟨hc1, hc2⟩
        obtain ⟨r, r1, r2⟩ := T.root_exists c
        exact hr ((T.root_unique a2 r1 a3 (r2.trans hc1)).trans (T.root_unique r1 b2 (r2.trans hc2) b3))

end

end Verif.Lca
