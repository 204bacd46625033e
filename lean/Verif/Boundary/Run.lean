import Verif.Boundary.Lemmas

/-!
# The loop of `port_ordering`
-/

namespace Verif.View

open Verif (Direction)
open Verif.Algo

variable {E : Type} {G : GView E}

/-! ## The set of pairs -/

theorem findPort_some {ports : List Nat} {p : Nat} (h : p ∈ ports) : ∃ i, findPort ports p = some i ∧ i < ports.length := by
  unfold findPort
  cases hf : ports.findIdx? (· == p) with
  | none =>
    rw [List.findIdx?_eq_none_iff] at hf
    have := hf p h
    simp at this
  | some i =>
    refine ⟨i, rfl, ?_⟩
    rw [List.findIdx?_eq_some_iff_getElem] at hf
    exact hf.1

theorem addOrder_ok {O : Ordering} {i o : Nat} (hi : i < O.reachable.length) (ho : o < O.reaching.length) :
    ∃ O', O.addOrder i o = some O' ∧ O'.Compatible O ∧ (∀ i' o', O'.Has i' o' ↔ O.Has i' o' ∨ (i' = i ∧ o' = o)) ∧
      (O.Consistent → O'.Consistent) := by
  refine ⟨⟨O.reachable.set i (insertSet o O.reachable[i]), O.reaching.set o (insertSet i O.reaching[o])⟩, ?_, ?_, ?_, ?_⟩
  · unfold Ordering.addOrder
    simp [hi, ho]
  · simp [Ordering.Compatible]
  · intro i' o'
    unfold Ordering.Has
    simp only [List.getElem?_set]
    by_cases h : i = i'
    · subst h
      simp only [hi, if_true, Option.some.injEq, exists_eq_left', mem_insertSet, true_and]
      simp only [List.getElem?_eq_getElem hi, Option.some.injEq, exists_eq_left']
      exact or_comm
    · simp [h, Ne.symm h]
  · intro hc i' o'
    have hc' := hc i' o'
    unfold Ordering.Has at hc' ⊢
    simp only [List.getElem?_set]
    by_cases h : i = i'
    · subst h
      by_cases h' : o = o'
      · subst h'
        simp [hi, ho, mem_insertSet]
      · simp only [hi, if_true, Option.some.injEq, exists_eq_left', mem_insertSet, if_neg h', Ne.symm h', false_or]
        rw [← hc']
        simp [List.getElem?_eq_getElem hi]
    · by_cases h' : o = o'
      · subst h'
        simp only [ho, if_true, Option.some.injEq, exists_eq_left', mem_insertSet, if_neg h, Ne.symm h, false_or]
        rw [hc']
        simp [List.getElem?_eq_getElem ho]
      · simp only [if_neg h, if_neg h']
        exact hc'

theorem addOrders_ok {B : Boundary} (outs reaching : List Nat) : ∀ {O : Ordering},
    O.reachable.length = B.inputs.length → O.reaching.length = B.outputs.length → O.Consistent →
    (∀ p ∈ reaching, p ∈ B.inputs) → (∀ q ∈ outs, q ∈ B.outputs) →
    ∃ O', addOrders B reaching outs O = some O' ∧ O'.Compatible O ∧ O'.Consistent ∧
      ∀ i o, O'.Has i o ↔ O.Has i o ∨ ∃ p ∈ reaching, ∃ q ∈ outs, findPort B.inputs p = some i ∧ findPort B.outputs q = some o := by
  have inner : ∀ (q : Nat), q ∈ B.outputs → ∀ (l : List Nat) (O : Ordering),
      O.reachable.length = B.inputs.length → O.reaching.length = B.outputs.length → O.Consistent →
      (∀ p ∈ l, p ∈ B.inputs) →
      ∃ O', l.foldlM (fun O p => match findPort B.inputs p, findPort B.outputs q with
          | some i, some o => Ordering.addOrder O i o
          | _, _ => none) O = some O' ∧ O'.Compatible O ∧ O'.Consistent ∧
        ∀ i o, O'.Has i o ↔ O.Has i o ∨ ∃ p ∈ l, findPort B.inputs p = some i ∧ findPort B.outputs q = some o := by
    intro q hq l
    induction l with
    | nil => intro O _ _ h3 _; exact ⟨O, rfl, ⟨rfl, rfl⟩, h3, by simp⟩
    | cons p l ih =>
      intro O h1 h2 h3 h4
      obtain ⟨i, hi, hi'⟩ := findPort_some (h4 p (by simp))
      obtain ⟨o, ho, ho'⟩ := findPort_some hq
      obtain ⟨O1, e1, c1, g1, k1⟩ := addOrder_ok (O := O) (i := i) (o := o) (by omega) (by omega)
      obtain ⟨O2, e2, c2, k2, g2⟩ := ih O1 (c1.1.trans h1) (c1.2.trans h2) (k1 h3) (fun p hp => h4 p (by simp [hp]))
      refine ⟨O2, ?_, ⟨c2.1.trans c1.1, c2.2.trans c1.2⟩, k2, fun i' o' => ?_⟩
      · rw [List.foldlM_cons]
        simp only [hi, ho, e1, Option.bind_eq_bind, Option.bind_some]
        simp only [ho] at e2
        exact e2
      · rw [g2, g1]
        simp only [List.mem_cons, exists_eq_or_imp, hi, Option.some.injEq, ho]
        constructor
        · rintro ((h | ⟨rfl, rfl⟩) | h)
          · exact .inl h
          · exact .inr (.inl ⟨rfl, rfl⟩)
          · exact .inr (.inr h)
        · rintro (h | ⟨rfl, rfl⟩ | h)
          · exact .inl (.inl h)
          · exact .inl (.inr ⟨rfl, rfl⟩)
          · exact .inr h
  induction outs with
  | nil => intro O _ _ h3 _ _; exact ⟨O, rfl, ⟨rfl, rfl⟩, h3, by simp⟩
  | cons q outs ih =>
    intro O h1 h2 h3 h4 h5
    obtain ⟨O1, e1, c1, k1, g1⟩ := inner q (h5 q (by simp)) reaching O h1 h2 h3 h4
    obtain ⟨O2, e2, c2, k2, g2⟩ := ih (O := O1) (c1.1.trans h1) (c1.2.trans h2) k1 h4 (fun q hq => h5 q (by simp [hq]))
    refine ⟨O2, ?_, ⟨c2.1.trans c1.1, c2.2.trans c1.2⟩, k2, fun i o => ?_⟩
    · unfold addOrders at e2 ⊢
      rw [List.foldlM_cons]
      exact Eq.trans (congrArg (fun x => Option.bind x fun O => addOrders B reaching outs O) e1) e2
    · rw [g2, g1]
      constructor
      · rintro ((h | ⟨p, hp, h⟩) | ⟨p, hp, q', hq', h⟩)
        · exact .inl h
        · exact .inr ⟨p, hp, q, by simp, h⟩
        · exact .inr ⟨p, hp, q', by simp [hq'], h⟩
      · rintro (h | ⟨p, hp, q', hq', h⟩)
        · exact .inl (.inl h)
        · rcases List.mem_cons.1 hq' with rfl | hq'
          · exact .inl (.inr ⟨p, hp, h⟩)
          · exact .inr ⟨p, hp, q', hq', h⟩

/-! ## Collecting the reaching ports -/

theorem gather_ok (ms : List Nat) : ∀ {r : Nat → Option (Nat × List Nat)} {ports : List Nat},
    (∀ m ∈ ms, ∃ k l, r m = some (k, l) ∧ ms.count m ≤ k) →
    ∃ r' ports', gather ms r ports = some (r', ports') ∧
      (∀ p, p ∈ ports' ↔ p ∈ ports ∨ ∃ m ∈ ms, ∃ k l, r m = some (k, l) ∧ p ∈ l) ∧
      (∀ m k l, r' m = some (k, l) → r m = some (k + ms.count m, l)) ∧
      ∀ m k l, r m = some (k, l) → ms.count m < k → r' m = some (k - ms.count m, l) := by
  induction ms with
  | nil => intro r ports _; exact ⟨r, ports, rfl, by simp, by simp, fun m k l h _ => by simpa using h⟩
  | cons m ms ih =>
    intro r ports h
    obtain ⟨k, l, hm, hk⟩ := h m (by simp)
    rw [List.count_cons_self] at hk
    obtain ⟨k, rfl⟩ : ∃ k', k = k' + 1 := ⟨k - 1, by omega⟩
    have hcount : ∀ x, x ≠ m → (m :: ms).count x = ms.count x := fun x hx => List.count_cons_of_ne (Ne.symm hx)
    have key := ih (r := fun x => if x = m then (if k = 0 then none else some (k, l)) else r x) (ports := ports ++ l) (by
      intro x hx
      by_cases hxm : x = m
      · subst hxm
        have : 0 < ms.count x := List.count_pos_iff.2 hx
        refine ⟨k, l, ?_, by omega⟩
        simp only [if_true]
        rw [if_neg (by omega)]
      · obtain ⟨k', l', h1, h2⟩ := h x (by simp [hx])
        rw [hcount x hxm] at h2
        exact ⟨k', l', by simp [hxm, h1], h2⟩)
    obtain ⟨r', ports', e, g1, g2, g3⟩ := key
    refine ⟨r', ports', ?_, fun p => ?_, fun x k' l' hx => ?_, fun x k' l' hx hlt => ?_⟩
    · simp only [gather, hm]; exact e
    · rw [g1]
      constructor
      · rintro (hp | ⟨x, hx, k', l', h1, h2⟩)
        · rcases List.mem_append.1 hp with hp | hp
          · exact .inl hp
          · exact .inr ⟨m, by simp, _, _, hm, hp⟩
        · by_cases hxm : x = m
          · subst hxm
            simp only [if_true] at h1
            split at h1
            · cases h1
            · cases h1; exact .inr ⟨x, by simp, _, _, hm, h2⟩
          · simp only [hxm, if_false] at h1
            exact .inr ⟨x, by simp [hx], _, _, h1, h2⟩
      · rintro (hp | ⟨x, hx, k', l', h1, h2⟩)
        · exact .inl (by simp [hp])
        · by_cases hxm : x = m
          · subst hxm
            rw [hm] at h1; cases h1
            exact .inl (by simp [h2])
          · rcases List.mem_cons.1 hx with hx | hx
            · exact absurd hx hxm
            · exact .inr ⟨x, hx, k', l', by simp [hxm, h1], h2⟩
    · have := g2 x k' l' hx
      by_cases hxm : x = m
      · subst hxm
        simp only [if_true] at this
        split at this
        · cases this
        · simp only [Option.some.injEq, Prod.mk.injEq] at this
          rw [hm, List.count_cons_self]
          obtain ⟨h1, h2⟩ := this
          rw [h2, h1]; rfl
      · simp only [hxm, if_false] at this
        rw [hcount x hxm]; exact this
    · by_cases hxm : x = m
      · subst hxm
        rw [hm] at hx; cases hx
        rw [List.count_cons_self] at hlt ⊢
        have := g3 x k l (by simp only [if_true]; rw [if_neg (by omega)]) (by omega)
        rw [this]
        congr 2; omega
      · rw [hcount x hxm] at hlt ⊢
        exact g3 x k' l' (by simp [hxm, hx]) hlt

end Verif.View
