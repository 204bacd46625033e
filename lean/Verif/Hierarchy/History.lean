import Verif.Hierarchy.Ops2

/-!
# Histories

Lemmas: the invariant holds in every reachable hierarchy; iterators.
-/

namespace Verif.Hier

open Verif.Secondary

/-! ## `Children` -/

theorem children_collect {h : Hierarchy} {K : Kids} (r : Repr h.get K) (p : Nat) (l : List Nat) :
    ∀ (l1 : List Nat) (f : Nat) (b : Option Nat), K p = l1 ++ l → l.length < f →
      Children.collect h f ⟨l.head?, b, l.length⟩ = some l := by
  induction l with
  | nil =>
    intro l1 f b _ hf
    cases f with
    | zero => cases hf
    | succ f => simp [Children.collect, Children.step]
  | cons x l ih =>
    intro l1 f b e hf
    cases f with
    | zero => cases hf
    | succ f =>
      have hx := (r.sib p l1 x l e).2.2
      have := ih (l1 ++ [x]) f b (by rw [e]; simp) (by simpa using hf)
      simp only [Children.collect, Children.step, List.length_cons, List.head?_cons]
      rw [if_neg (by omega)]
      simp only [Nat.add_sub_cancel, Hierarchy.next, hx, this, Option.map_some]

theorem kids_eq {h : Hierarchy} {K : Kids} (r : Repr h.get K) : h.kids = K := by
  funext p
  unfold Hierarchy.kids Hierarchy.children Hierarchy.childCount
  rw [r.first, r.count, children_collect r p (K p) [] _ _ rfl (Nat.lt_succ_self _)]
  rfl

theorem children_calls {h : Hierarchy} {K : Kids} (r : Repr h.get K) (p : Nat) (bs : List Bool) :
    ∀ (l1 l l2 : List Nat) (a b : Option Nat), K p = l1 ++ l ++ l2 →
      (l ≠ [] → a = l.head? ∧ b = l.getLast?) →
      Children.calls h bs ⟨a, b, l.length⟩ = some (listCalls bs l) := by
  induction bs with
  | nil => intros; rfl
  | cons back bs ih =>
    intro l1 l l2 a b e hab
    simp only [Children.calls, listCalls]
    cases hl : l with
    | nil =>
      subst hl
      have := ih l1 [] l2 a b e (by simp)
      cases back <;> simp_all [Children.step, Children.stepBack]
    | cons x m =>
      rw [← hl]
      have hne : l ≠ [] := by rw [hl]; simp
      have hlen : l.length ≠ 0 := by rw [hl]; simp
      obtain ⟨ha, hb⟩ := hab hne
      cases back with
      | false =>
        simp only [Bool.false_eq_true, if_false, Children.step, if_neg hlen, ha]
        subst hl
        have hx := (r.sib p l1 x (m ++ l2) (by rw [e]; simp)).2.2
        have := ih (l1 ++ [x]) m l2 (h.next x) b (by rw [e]; simp) (by
          intro hm
          refine ⟨?_, ?_⟩
          · unfold Hierarchy.next
            rw [hx]
            cases m with
            | nil => exact absurd rfl hm
            | cons => rfl
          · rw [hb]
            cases m with
            | nil => exact absurd rfl hm
            | cons => simp [List.getLast?_cons])
        simp only [List.head?_cons, List.length_cons, Nat.add_sub_cancel, List.tail_cons, this, Option.map_some]
      | true =>
        simp only [if_true, Children.stepBack, if_neg hlen, hb]
        obtain ⟨m', y, hm⟩ : ∃ m' y, l = m' ++ [y] := by
          refine ⟨l.dropLast, l.getLast hne, ?_⟩
          rw [List.dropLast_append_getLast]
        clear hl
        subst hm
        have hx := (r.sib p (l1 ++ m') y l2 (by rw [e]; simp)).2.1
        have := ih l1 m' ([y] ++ l2) a (h.prev y) (by rw [e]; simp) (by
          intro hm
          refine ⟨?_, ?_⟩
          · rw [ha]
            cases m' with
            | nil => exact absurd rfl hm
            | cons => rfl
          · unfold Hierarchy.prev
            rw [hx, List.getLast?_append]
            cases hm' : m'.getLast? with
            | none => exact absurd (List.getLast?_eq_none_iff.1 hm') hm
            | some => rfl)
        have hdl : (m' ++ [y]).dropLast = m' := by simp
        have hgl : (m' ++ [y]).getLast? = some y := by simp
        have hln : (m' ++ [y]).length - 1 = m'.length := by simp
        simp only [hgl, hdl, hln, this, Option.map_some]

/-! ## `shrink_to` -/

theorem cut_eq_self {K : Kids} {c : Nat} (h1 : ∀ p x, x ∈ K p → x < c) (h2 : ∀ p, c ≤ p → K p = []) : K.cut c = K := by
  funext p
  unfold Kids.cut
  split
  · rw [List.filter_eq_self]
    intro x hx
    simpa using h1 p x hx
  · rename_i hp
    exact (h2 p (by omega)).symm

theorem removeAll_ok (c : Nat) (k : Nat) : ∀ {h : Hierarchy} {K : Kids}, Inv h K →
    ∃ h', ((List.range (c + k)).filter (c ≤ ·)).reverse.foldlM (fun h n => Hierarchy.remove h n) h = some h' ∧
      Inv h' (fun p => if c ≤ p ∧ p < c + k then [] else (K p).filter fun x => !(decide (c ≤ x) && decide (x < c + k))) ∧
      h'.data.data.length = h.data.data.length := by
  induction k with
  | zero =>
    intro h K v
    refine ⟨h, ?_, ?_, rfl⟩
    · have : (List.range (c + 0)).filter (c ≤ ·) = [] := by
        rw [List.filter_eq_nil_iff]
        intro x hx
        simp at hx ⊢
        omega
      rw [this]
      rfl
    · have : (fun p => if c ≤ p ∧ p < c + 0 then [] else (K p).filter fun x => !(decide (c ≤ x) && decide (x < c + 0))) = K := by
        funext p
        rw [if_neg (by omega), List.filter_eq_self]
        intro x _
        simp
        omega
      rw [this]
      exact v
  | succ k ih =>
    intro h K v
    have hr : (List.range (c + (k + 1))).filter (c ≤ ·) = (List.range (c + k)).filter (c ≤ ·) ++ [c + k] := by
      rw [← Nat.add_assoc, List.range_succ, List.filter_append]
      simp
    obtain ⟨h1, e1, v1, l1⟩ := remove_ok v (c + k)
    obtain ⟨h2, e2, v2, l2⟩ := ih v1
    refine ⟨h2, ?_, ?_, by rw [l2, l1]⟩
    · rw [hr, List.reverse_append]
      simp only [List.reverse_cons, List.reverse_nil, List.nil_append, List.cons_append, List.foldlM_cons, e1,
        Option.bind_eq_bind, Option.bind_some]
      exact e2
    · have : (fun p => if c ≤ p ∧ p < c + k then [] else (((K.set (c + k) []).erase (c + k)) p).filter
          fun x => !(decide (c ≤ x) && decide (x < c + k))) =
          (fun p => if c ≤ p ∧ p < c + (k + 1) then [] else (K p).filter
            fun x => !(decide (c ≤ x) && decide (x < c + (k + 1)))) := by
        funext p
        by_cases hp : c ≤ p ∧ p < c + k
        · rw [if_pos hp, if_pos (by omega)]
        · rw [if_neg hp]
          by_cases hp' : p = c + k
          · rw [if_pos (by omega)]
            simp [Kids.erase, Kids.set, hp']
          · rw [if_neg (by omega)]
            simp only [Kids.erase, Kids.set, if_neg hp', List.filter_filter]
            apply List.filter_congr
            intro x _
            by_cases h1 : c ≤ x <;> by_cases h2 : x < c + k <;> by_cases h3 : x = c + k <;>
              by_cases h4 : x < c + (k + 1) <;> simp_all <;> omega
      rw [← this]
      exact v2

theorem shrinkTo_ok {h : Hierarchy} {K : Kids} (v : Inv h K) (extra c : Nat) :
    ∃ h', h.shrinkTo (h.data.data.length + extra) c = some h' ∧ Inv h' (K.cut c) := by
  have hcut : ∀ cap, h.data.data.length ≤ cap → c ≤ cap →
      (fun p => if c ≤ p ∧ p < cap then [] else (K p).filter fun x => !(decide (c ≤ x) && decide (x < cap))) = K.cut c := by
    intro cap h1 h2
    funext p
    unfold Kids.cut
    by_cases hp : p < c
    · rw [if_neg (by omega), if_pos hp]
      apply List.filter_congr
      intro x hx
      have := v.lt_of_mem hx
      by_cases hx : c ≤ x
      · have h1 : x < cap := by omega
        have h2 : ¬ x < c := by omega
        simp [hx, h1, h2]
      · have h2 : x < c := by omega
        simp [hx, h2]
    · rw [if_neg hp]
      split
      · rfl
      · have : K p = [] := by
          have := v.repr.count p
          rw [get_far v.dflt (by omega)] at this
          exact List.length_eq_zero_iff.1 this.symm
        rw [this]
        rfl
  unfold Hierarchy.shrinkTo
  by_cases hc : h.data.data.length + extra ≤ c
  · have : (List.range (h.data.data.length + extra)).filter (c ≤ ·) = [] := by
      rw [List.filter_eq_nil_iff]
      intro x hx
      simp at hx ⊢
      omega
    rw [this]
    refine ⟨h, ?_, ?_⟩
    · simp only [List.reverse_nil, List.foldlM_nil, Option.pure_def, Option.bind_eq_bind, Option.bind_some, Dense.shrinkTo]
      rw [List.take_of_length_le (by omega)]
    · rw [cut_eq_self]
      · exact v
      · intro p x hx
        have := v.lt_of_mem hx
        omega
      · intro p hp
        have := v.repr.count p
        rw [get_far v.dflt (by omega)] at this
        exact List.length_eq_zero_iff.1 this.symm
  · obtain ⟨k, hk⟩ : ∃ k, h.data.data.length + extra = c + k := ⟨h.data.data.length + extra - c, by omega⟩
    obtain ⟨h1, e1, v1, l1⟩ := removeAll_ok c k v
    rw [hk, e1]
    refine ⟨⟨h1.data.shrinkTo c⟩, rfl, ?_⟩
    rw [hcut (c + k) (by omega) (by omega)] at v1
    have hg : ∀ x, (⟨h1.data.shrinkTo c⟩ : Hierarchy).get x = h1.get x := by
      intro x
      by_cases hx : x < c
      · simp only [Hierarchy.get, Dense.get, Dense.shrinkTo]
        rw [List.getElem?_take_of_lt hx]
      · have hno : ∀ q, x ∉ K.cut c q := by
          intro q hq
          unfold Kids.cut at hq
          split at hq
          · simp at hq; omega
          · cases hq
        have hnil : K.cut c x = [] := by unfold Kids.cut; rw [if_neg hx]
        have hz : h1.get x = {} := by
          have := v1.repr.root x hno
          have a1 := v1.repr.first x
          have a2 := v1.repr.last x
          have a3 := v1.repr.count x
          rw [hnil] at a1 a2 a3
          exact NodeData.ext' a1 a2 a3 this.1 this.2.1 this.2.2
        rw [hz]
        refine get_far (h := ⟨h1.data.shrinkTo c⟩) v1.dflt ?_
        simp [Dense.shrinkTo]
        omega
    refine ⟨repr_congr v1.repr hg, ?_, v1.dflt⟩
    exact wf_sub v1.wf fun x p hx => by rwa [hg] at hx

theorem ensureCapacity_ok {h : Hierarchy} {K : Kids} (v : Inv h K) (extra c : Nat) :
    Inv (h.ensureCapacity (h.data.data.length + extra) c) K := by
  have hg : ∀ x, (h.ensureCapacity (h.data.data.length + extra) c).get x = h.get x := by
    intro x
    unfold Hierarchy.ensureCapacity Dense.ensureCapacity Hierarchy.get
    split
    · exact Dense.get_resize _ (by omega) x
    · rfl
  refine ⟨repr_congr v.repr hg, wf_sub v.wf fun x p hx => by rwa [hg] at hx, ?_⟩
  unfold Hierarchy.ensureCapacity Dense.ensureCapacity
  split
  · exact v.dflt
  · exact v.dflt

/-! ## Histories -/

/-- All attached nodes have an index below `2^31`. -/
def Bounded (K : Kids) : Prop := ∀ p x, x ∈ K p → x < 2 ^ 31

theorem parent_spec {D : Nat → NodeData} {K : Kids} (r : Repr D K) (n : Nat) : K.parent n = (D n).parent := by
  unfold Kids.parent
  split
  · rename_i ha
    exact (r.parent_iff.2 (Classical.choose_spec ha)).symm
  · rename_i ha
    exact (r.root_iff.2 fun p hp => ha ⟨p, hp⟩).symm

theorem attached_iff {D : Nat → NodeData} {K : Kids} (r : Repr D K) (n : Nat) : Attached K n ↔ (D n).parent.isSome = true := by
  cases hp : (D n).parent with
  | none =>
    have := r.root_iff.1 hp
    simp only [Option.isSome_none, Bool.false_eq_true, iff_false]
    rintro ⟨p, hm⟩
    exact this p hm
  | some p => simp only [Option.isSome_some, iff_true]; exact ⟨p, r.parent_iff.1 hp⟩

theorem mem_putBefore {n b x : Nat} {l : List Nat} (h : x ∈ putBefore n b l) : x = n ∨ x ∈ l := by
  induction l with
  | nil => cases h
  | cons y l ih =>
    unfold putBefore at h
    split at h
    · simp at h ⊢; exact h
    · simp at h
      rcases h with h | h
      · simp [h]
      · rcases ih h with h | h <;> simp [h]

theorem mem_putAfter {n b x : Nat} {l : List Nat} (h : x ∈ putAfter n b l) : x = n ∨ x ∈ l := by
  induction l with
  | nil => cases h
  | cons y l ih =>
    unfold putAfter at h
    split at h
    · simp at h ⊢; rcases h with h | h | h <;> simp [h]
    · simp at h
      rcases h with h | h
      · simp [h]
      · rcases ih h with h | h <;> simp [h]

theorem bounded_set {K : Kids} (hb : Bounded K) {p : Nat} {l : List Nat} (hl : ∀ x ∈ l, x < 2 ^ 31) : Bounded (K.set p l) := by
  intro q x hx
  unfold Kids.set at hx
  split at hx
  · exact hl x hx
  · exact hb q x hx

theorem bounded_erase {K : Kids} (hb : Bounded K) (n : Nat) : Bounded (K.erase n) := by
  intro q x hx
  exact hb q x (List.mem_of_mem_filter hx)

theorem bounded_swap {K : Kids} (hb : Bounded K) {a c : Nat} (ha : a < 2 ^ 31) (hc : c < 2 ^ 31) : Bounded (K.swap a c) := by
  intro q x hx
  obtain ⟨y, hy, rfl⟩ := List.mem_map.1 hx
  have := hb _ _ hy
  unfold transpose
  split
  · exact hc
  · split
    · exact ha
    · exact this

theorem bounded_cut {K : Kids} (hb : Bounded K) (c : Nat) : Bounded (K.cut c) := by
  intro q x hx
  unfold Kids.cut at hx
  split at hx
  · exact hb q x (List.mem_of_mem_filter hx)
  · cases hx

theorem count_small {h : Hierarchy} {K : Kids} (v : Inv h K) (hb : Bounded K) (p : Nat) : (h.get p).count + 1 < 2 ^ 32 := by
  rw [v.repr.count]
  have := length_le_of_nodup_lt (v.repr.nodup p) (hb p)
  omega

/-- One call: the model does what the specification says. -/
theorem step_ok {h : Hierarchy} {K : Kids} (v : Inv h K) (hb : Bounded K) (op : Op) (hop : op.ok) :
    (spec K op = none → h.step op = none) ∧
    ∀ r K', spec K op = some (r, K') → ∃ h', h.step op = some (r, h') ∧ Inv h' K' ∧ Bounded K' := by
  have hcnt := count_small v hb
  cases op with
  | pushChild n p =>
    obtain ⟨hn, hp, hne⟩ := hop
    have hc := v.cycleCheck (Or.inl hne)
    unfold spec Hierarchy.step
    simp only
    by_cases ha : Anc K n p
    · simp only [if_pos ha]
      refine ⟨by simp, ?_⟩
      intro r K' e
      simp only [Option.some.injEq, Prod.mk.injEq] at e
      obtain ⟨rfl, rfl⟩ := e
      refine ⟨h, ?_, v, hb⟩
      simp [Hierarchy.pushChild, hc.1 ha, Hierarchy.step.fin]
    · simp only [if_neg ha]
      have hcc := hc.2 ha
      by_cases hat : Attached K n
      · simp only [if_pos hat]
        refine ⟨by simp, ?_⟩
        intro r K' e
        simp only [Option.some.injEq, Prod.mk.injEq] at e
        obtain ⟨rfl, rfl⟩ := e
        refine ⟨h, ?_, v, hb⟩
        simp [Hierarchy.pushChild, hcc, (attached_iff v.repr n).1 hat, Hierarchy.step.fin]
      · simp only [if_neg hat]
        refine ⟨by simp, ?_⟩
        intro r K' e
        simp only [Option.some.injEq, Prod.mk.injEq] at e
        obtain ⟨rfl, rfl⟩ := e
        obtain ⟨h', e', v', -⟩ := pushChild_ok v ha hcc (v.repr.root_iff.2 fun q hq => hat ⟨q, hq⟩) (hcnt p)
        refine ⟨h', by simp [e', Hierarchy.step.fin], v', bounded_set hb ?_⟩
        intro x hx
        rcases List.mem_append.1 hx with hx | hx
        · exact hb p x hx
        · simp at hx; rw [hx]; exact hn
  | pushFrontChild n p =>
    obtain ⟨hn, hp, hne⟩ := hop
    have hc := v.cycleCheck (Or.inl hne)
    unfold spec Hierarchy.step
    simp only
    by_cases ha : Anc K n p
    · simp only [if_pos ha]
      refine ⟨by simp, ?_⟩
      intro r K' e
      simp only [Option.some.injEq, Prod.mk.injEq] at e
      obtain ⟨rfl, rfl⟩ := e
      refine ⟨h, ?_, v, hb⟩
      simp [Hierarchy.pushFrontChild, hc.1 ha, Hierarchy.step.fin]
    · simp only [if_neg ha]
      have hcc := hc.2 ha
      by_cases hat : Attached K n
      · simp only [if_pos hat]
        refine ⟨by simp, ?_⟩
        intro r K' e
        simp only [Option.some.injEq, Prod.mk.injEq] at e
        obtain ⟨rfl, rfl⟩ := e
        refine ⟨h, ?_, v, hb⟩
        simp [Hierarchy.pushFrontChild, hcc, (attached_iff v.repr n).1 hat, Hierarchy.step.fin]
      · simp only [if_neg hat]
        refine ⟨by simp, ?_⟩
        intro r K' e
        simp only [Option.some.injEq, Prod.mk.injEq] at e
        obtain ⟨rfl, rfl⟩ := e
        obtain ⟨h', e', v', -⟩ := pushFrontChild_ok v ha hcc (v.repr.root_iff.2 fun q hq => hat ⟨q, hq⟩) (hcnt p)
        refine ⟨h', by simp [e', Hierarchy.step.fin], v', bounded_set hb ?_⟩
        intro x hx
        rcases List.mem_cons.1 hx with hx | hx
        · rw [hx]; exact hn
        · exact hb p x hx
  | insertBefore n b =>
    obtain ⟨hn, hbl⟩ := hop
    unfold spec Hierarchy.step
    simp only
    by_cases hat : Attached K n
    · simp only [if_pos hat]
      refine ⟨by simp, ?_⟩
      intro r K' e
      simp only [Option.some.injEq, Prod.mk.injEq] at e
      obtain ⟨rfl, rfl⟩ := e
      refine ⟨h, ?_, v, hb⟩
      simp [Hierarchy.insertBefore, (attached_iff v.repr n).1 hat, Hierarchy.step.fin]
    · simp only [if_neg hat]
      have hr := v.repr.root_iff.2 fun q hq => hat ⟨q, hq⟩
      rw [parent_spec v.repr]
      cases hp : (h.get b).parent with
      | none =>
        refine ⟨by simp, ?_⟩
        intro r K' e
        simp only [Option.some.injEq, Prod.mk.injEq] at e
        obtain ⟨rfl, rfl⟩ := e
        refine ⟨h, ?_, v, hb⟩
        simp [Hierarchy.insertBefore, hr, hp, Hierarchy.step.fin]
      | some p =>
        simp only
        have hbm := v.repr.parent_iff.1 hp
        have hc := v.cycleCheck (n := n) (p := p) (by
          by_cases e : n = p
          · right; subst e; intro e; rw [e] at hbm; cases hbm
          · exact Or.inl e)
        by_cases ha : Anc K n p
        · simp only [if_pos ha]
          refine ⟨by simp, ?_⟩
          intro r K' e
          simp only [Option.some.injEq, Prod.mk.injEq] at e
          obtain ⟨rfl, rfl⟩ := e
          refine ⟨h, ?_, v, hb⟩
          simp [Hierarchy.insertBefore, hr, hp, hc.1 ha, Hierarchy.step.fin]
        · simp only [if_neg ha]
          refine ⟨by simp, ?_⟩
          intro r K' e
          simp only [Option.some.injEq, Prod.mk.injEq] at e
          obtain ⟨rfl, rfl⟩ := e
          obtain ⟨h', e', v', -⟩ := insertBefore_ok v ha hbm (hc.2 ha) hr (hcnt p)
          refine ⟨h', by simp [e', Hierarchy.step.fin], v', bounded_set hb ?_⟩
          intro x hx
          rcases mem_putBefore hx with rfl | hx
          · exact hn
          · exact hb p x hx
  | insertAfter n b =>
    obtain ⟨hn, hbl⟩ := hop
    unfold spec Hierarchy.step
    simp only
    by_cases hat : Attached K n
    · simp only [if_pos hat]
      refine ⟨by simp, ?_⟩
      intro r K' e
      simp only [Option.some.injEq, Prod.mk.injEq] at e
      obtain ⟨rfl, rfl⟩ := e
      refine ⟨h, ?_, v, hb⟩
      simp [Hierarchy.insertAfter, (attached_iff v.repr n).1 hat, Hierarchy.step.fin]
    · simp only [if_neg hat]
      have hr := v.repr.root_iff.2 fun q hq => hat ⟨q, hq⟩
      rw [parent_spec v.repr]
      cases hp : (h.get b).parent with
      | none =>
        refine ⟨by simp, ?_⟩
        intro r K' e
        simp only [Option.some.injEq, Prod.mk.injEq] at e
        obtain ⟨rfl, rfl⟩ := e
        refine ⟨h, ?_, v, hb⟩
        simp [Hierarchy.insertAfter, hr, hp, Hierarchy.step.fin]
      | some p =>
        simp only
        have hbm := v.repr.parent_iff.1 hp
        have hc := v.cycleCheck (n := n) (p := p) (by
          by_cases e : n = p
          · right; subst e; intro e; rw [e] at hbm; cases hbm
          · exact Or.inl e)
        by_cases ha : Anc K n p
        · simp only [if_pos ha]
          refine ⟨by simp, ?_⟩
          intro r K' e
          simp only [Option.some.injEq, Prod.mk.injEq] at e
          obtain ⟨rfl, rfl⟩ := e
          refine ⟨h, ?_, v, hb⟩
          simp [Hierarchy.insertAfter, hr, hp, hc.1 ha, Hierarchy.step.fin]
        · simp only [if_neg ha]
          refine ⟨by simp, ?_⟩
          intro r K' e
          simp only [Option.some.injEq, Prod.mk.injEq] at e
          obtain ⟨rfl, rfl⟩ := e
          obtain ⟨h', e', v', -⟩ := insertAfter_ok v ha hbm (hc.2 ha) hr (hcnt p)
          refine ⟨h', by simp [e', Hierarchy.step.fin], v', bounded_set hb ?_⟩
          intro x hx
          rcases mem_putAfter hx with rfl | hx
          · exact hn
          · exact hb p x hx
  | detach n =>
    refine ⟨by simp [spec], ?_⟩
    intro r K' e
    simp only [spec, Option.some.injEq, Prod.mk.injEq] at e
    obtain ⟨rfl, rfl⟩ := e
    obtain ⟨h', e', v', -⟩ := detach_ok v n
    exact ⟨h', by simp [Hierarchy.step, e', parent_spec v.repr], v', bounded_erase hb n⟩
  | detachChildren n =>
    refine ⟨by simp [spec], ?_⟩
    intro r K' e
    simp only [spec, Option.some.injEq, Prod.mk.injEq] at e
    obtain ⟨rfl, rfl⟩ := e
    obtain ⟨h', e', v', -⟩ := detachChildren_ok v n
    exact ⟨h', by simp [Hierarchy.step, e'], v', bounded_set hb (by simp)⟩
  | remove n =>
    refine ⟨by simp [spec], ?_⟩
    intro r K' e
    simp only [spec, Option.some.injEq, Prod.mk.injEq] at e
    obtain ⟨rfl, rfl⟩ := e
    obtain ⟨h', e', v', -⟩ := remove_ok v n
    exact ⟨h', by simp [Hierarchy.step, e'], v', bounded_erase (bounded_set hb (by simp)) n⟩
  | swapNodes a b =>
    refine ⟨by simp [spec], ?_⟩
    intro r K' e
    simp only [spec, Option.some.injEq, Prod.mk.injEq] at e
    obtain ⟨rfl, rfl⟩ := e
    obtain ⟨h', e', v'⟩ := swapNodes_ok v a b
    exact ⟨h', by simp [Hierarchy.step, e'], v', bounded_swap hb hop.1 hop.2⟩
  | rekey a b =>
    have key : (Attached K b ∨ K b ≠ []) ↔ h.get b ≠ {} := by
      constructor
      · intro hh e
        rcases hh with hh | hh
        · have := (attached_iff v.repr b).1 hh
          rw [e] at this
          cases this
        · have := v.repr.count b
          rw [e] at this
          exact hh (List.length_eq_zero_iff.1 this.symm)
      · intro hh
        apply Classical.byContradiction
        intro hno
        rw [not_or, Classical.not_not] at hno
        refine hh ?_
        have := v.repr.root b fun p hp => hno.1 ⟨p, hp⟩
        have a1 := v.repr.first b
        have a2 := v.repr.last b
        have a3 := v.repr.count b
        rw [hno.2] at a1 a2 a3
        exact NodeData.ext' a1 a2 a3 this.1 this.2.1 this.2.2
    by_cases hu : Attached K b ∨ K b ≠ []
    · refine ⟨?_, ?_⟩
      · intro _
        simp [Hierarchy.step, Hierarchy.rekey, key.1 hu]
      · intro r K' e
        simp only [spec, if_pos hu] at e
        cases e
    · refine ⟨by simp only [spec, if_neg hu]; simp, ?_⟩
      intro r K' e
      simp only [spec, if_neg hu, Option.some.injEq, Prod.mk.injEq] at e
      obtain ⟨rfl, rfl⟩ := e
      obtain ⟨h', e', v'⟩ := rekey_ok v (old := a) (new := b) (Classical.not_not.1 fun hh => hu (key.2 hh))
      exact ⟨h', by simp [Hierarchy.step, e'], v', bounded_swap hb hop.1 hop.2⟩
  | ensureCapacity extra c =>
    refine ⟨by simp [spec], ?_⟩
    intro r K' e
    simp only [spec, Option.some.injEq, Prod.mk.injEq] at e
    obtain ⟨rfl, rfl⟩ := e
    exact ⟨_, rfl, ensureCapacity_ok v extra c, hb⟩
  | shrinkTo extra c =>
    refine ⟨by simp [spec], ?_⟩
    intro r K' e
    simp only [spec, Option.some.injEq, Prod.mk.injEq] at e
    obtain ⟨rfl, rfl⟩ := e
    obtain ⟨h', e', v'⟩ := shrinkTo_ok v extra c
    exact ⟨h', by simp [Hierarchy.step, e'], v', bounded_cut hb c⟩

theorem inv_new : Inv .new fun _ => [] := by
  have hg : ∀ x, Hierarchy.new.get x = {} := by
    intro x
    exact get_far rfl (Nat.zero_le _)
  refine ⟨?_, ?_, rfl⟩
  · constructor
    · intro n; rw [hg]; rfl
    · intro n; rw [hg]; rfl
    · intro n; rw [hg]; rfl
    · intro n; simp
    · intro p l1 n l2 e; simp at e
    · intro n _; rw [hg]; simp
  · constructor
    intro x
    constructor
    intro y hy
    unfold Up at hy
    rw [hg] at hy
    cases hy

theorem Reach.inv {h : Hierarchy} (hr : Reach h) : Inv h h.kids ∧ Bounded h.kids := by
  induction hr with
  | new =>
    rw [kids_eq inv_new.repr]
    exact ⟨inv_new, by intro p x hx; cases hx⟩
  | step _ hop e ih =>
    obtain ⟨h1, h2⟩ := step_ok ih.1 ih.2 _ hop
    cases hs : spec _ _ with
    | none => rw [h1 hs] at e; cases e
    | some rk =>
      obtain ⟨h', e', v', b'⟩ := h2 rk.1 rk.2 hs
      rw [e] at e'
      cases e'
      rw [kids_eq v'.repr]
      exact ⟨v', b'⟩

end Verif.Hier
