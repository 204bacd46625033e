import Verif.Hierarchy.Repr
import Verif.Hierarchy.Spec
import Mathlib.Data.List.Nodup
import Mathlib.Data.List.Perm.Subperm

/-!
# The operations on the pointers

Lemmas: what every operation of `Hierarchy` does to the represented lists.
-/

namespace Verif.Hier

open Verif.Secondary

/-- "`p` is the parent of `n`" in node data. -/
def Up (D : Nat → NodeData) (p n : Nat) : Prop := (D n).parent = some p

/-- The invariant: the pointers represent the lists and the parent relation is well-founded. -/
structure Inv (h : Hierarchy) (K : Kids) : Prop where
  repr : Repr h.get K
  wf : WellFounded (Up h.get)
  dflt : h.data.default = {}

theorem get_far {h : Hierarchy} (hd : h.data.default = {}) {n : Nat} (hn : h.data.data.length ≤ n) : h.get n = {} := by
  simp only [Hierarchy.get, Dense.get]
  rw [List.getElem?_eq_none hn]
  exact hd

theorem length_le_of_nodup_lt {l : List Nat} {n : Nat} (hl : l.Nodup) (hb : ∀ x ∈ l, x < n) : l.length ≤ n := by
  have := (hl.subperm (fun x hx => List.mem_range.2 (hb x hx))).length_le
  simpa using this

namespace Inv

variable {h : Hierarchy} {K : Kids}

theorem lt_of_mem (v : Inv h K) {n p : Nat} (hn : n ∈ K p) : n < h.data.data.length := by
  rcases Nat.lt_or_ge n h.data.data.length with hlt | hge
  · exact hlt
  · rw [← v.repr.parent_iff, get_far v.dflt hge] at hn
    cases hn

theorem lt_of_mem' (v : Inv h K) {n p : Nat} (hn : n ∈ K p) : p < h.data.data.length := by
  rcases Nat.lt_or_ge p h.data.data.length with hlt | hge
  · exact hlt
  · have := v.repr.count p
    rw [get_far v.dflt hge] at this
    have : K p = [] := List.length_eq_zero_iff.1 this.symm
    rw [this] at hn
    cases hn

theorem length_le (v : Inv h K) (p : Nat) : (K p).length ≤ h.data.data.length :=
  length_le_of_nodup_lt (v.repr.nodup p) fun _ hx => v.lt_of_mem hx

theorem anc_of_up (v : Inv h K) {a n : Nat} (ha : Anc K a n) : a = n ∨ Relation.TransGen (Up h.get) a n := by
  induction ha with
  | refl => exact Or.inl rfl
  | step _ hm ih =>
    have hu : Up h.get _ _ := v.repr.parent_iff.2 hm
    rcases ih with rfl | ih
    · exact Or.inr (.single hu)
    · exact Or.inr (.tail ih hu)

theorem irrefl (v : Inv h K) (n : Nat) : ¬ Relation.TransGen (Up h.get) n n := by
  intro hn
  have := v.wf.transGen
  induction this.apply n with
  | intro x _ ih => exact ih x hn hn

/-- The invariant gives an ordered forest. -/
theorem forest (v : Inv h K) : Forest K := by
  refine ⟨v.repr.nodup, fun p q n => v.repr.unique, fun p n hm ha => ?_⟩
  have hu : Up h.get p n := v.repr.parent_iff.2 hm
  rcases v.anc_of_up ha with rfl | ha
  · exact v.irrefl _ (.single hu)
  · exact v.irrefl _ (.tail ha hu)

/-- The ancestors of a node, from the node upwards. -/
theorem chain (v : Inv h K) (n : Nat) : ∃ l : List Nat, l.length ≤ h.fuel ∧
    (∀ y, y ∈ l ↔ Anc K y n) ∧
    ∀ node f, l.length ≤ f → h.climb node f n = some (decide (node ∉ l)) := by
  suffices hs : ∃ l : List Nat, l.Nodup ∧ (∀ y ∈ l.dropLast, y < h.data.data.length) ∧
      (∀ y, y ∈ l ↔ Anc K y n) ∧
      ∀ node f, l.length ≤ f → h.climb node f n = some (decide (node ∉ l)) by
    obtain ⟨l, hnd, hlt, hm, hc⟩ := hs
    refine ⟨l, ?_, hm, hc⟩
    have := length_le_of_nodup_lt (hnd.sublist (List.dropLast_sublist l)) hlt
    simp at this
    unfold Hierarchy.fuel
    omega
  induction v.wf.apply n with
  | intro n _ ih =>
    cases hp : (h.get n).parent with
    | none =>
      refine ⟨[n], by simp, by simp, ?_, ?_⟩
      · intro y
        constructor
        · intro hy; simp at hy; subst hy; exact .refl _
        · intro hy
          cases hy with
          | refl => simp
          | step _ hm => rw [← v.repr.parent_iff, hp] at hm; cases hm
      · intro node f hf
        cases f with
        | zero => simp at hf
        | succ f =>
          unfold Hierarchy.climb
          by_cases e : n = node
          · simp [e]
          · simp [e, hp, Ne.symm e]
    | some p =>
      obtain ⟨l, hnd, hlt, hm, hc⟩ := ih p hp
      have hpm : n ∈ K p := v.repr.parent_iff.1 hp
      refine ⟨n :: l, ?_, ?_, ?_, ?_⟩
      · rw [List.nodup_cons]
        exact ⟨fun hh => v.forest.acyclic p n hpm ((hm n).1 hh), hnd⟩
      · intro y hy
        cases l with
        | nil => simp at hy
        | cons z l =>
          simp only [List.dropLast_cons₂, List.mem_cons] at hy
          rcases hy with rfl | hy
          · exact v.lt_of_mem hpm
          · exact hlt y (by simpa using hy)
      · intro y
        rw [List.mem_cons, hm]
        constructor
        · rintro (rfl | hy)
          · exact .refl _
          · exact .step hy hpm
        · intro hy
          cases hy with
          | refl => exact Or.inl rfl
          | step ha hq =>
            rw [v.repr.unique hpm hq]
            exact Or.inr ha
      · intro node f hf
        cases f with
        | zero => simp at hf
        | succ f =>
          unfold Hierarchy.climb
          by_cases e : n = node
          · simp [e]
          · rw [if_neg e, hp]
            simp only
            rw [hc node f (by simpa using hf)]
            simp [Ne.symm e]

/-- `cycle_check` is right, unless both nodes are the same. -/
theorem cycleCheck (v : Inv h K) {n p : Nat} (hne : n ≠ p ∨ K n ≠ []) :
    (Anc K n p → h.cycleCheck n p = some false) ∧ (¬ Anc K n p → h.cycleCheck n p = some true) := by
  unfold Hierarchy.cycleCheck
  by_cases hk : K n = []
  · have h1 : (h.get n).first = none := by rw [v.repr.first, hk]; rfl
    have h2 : (h.get n).last = none := by rw [v.repr.last, hk]; rfl
    have hno : ¬ Anc K n p := by
      intro ha
      have key : ∀ y, Anc K n y → n = y := by
        intro y hy
        induction hy with
        | refl => rfl
        | step _ hm ih => rw [← ih, hk] at hm; cases hm
      rcases hne with hne | hne
      · exact hne (key p ha)
      · exact hne hk
    simp [h1, h2, hno]
  · have h1 : (h.get n).first ≠ none := by
      rw [v.repr.first]
      cases hl : K n with
      | nil => exact absurd hl hk
      | cons => simp
    rw [if_neg h1]
    obtain ⟨l, hl, hm, hc⟩ := v.chain p
    rw [hc n _ hl, ← hm]
    by_cases hx : n ∈ l <;> simp [hx]

end Inv

/-! ## Attaching a node -/

theorem anc_up {K : Kids} {z y p : Nat} (hm : y ∈ K z) (hy : Anc K y p) : Anc K z p := by
  induction hy with
  | refl => exact .step (.refl z) hm
  | step _ hq ih => exact .step ih hq

/-- Hanging a root that is not an ancestor under a node keeps the parent relation well-founded. -/
theorem wf_attach {h : Hierarchy} {K : Kids} (v : Inv h K) {D' : Nat → NodeData} {n p : Nat} (hno : ¬ Anc K n p)
    (h1 : ∀ x, (D' x).parent = if x = n then some p else (h.get x).parent) : WellFounded (Up D') := by
  have hanc : ∀ y, Anc K y p → Acc (Up D') y := by
    intro y
    induction v.wf.apply y with
    | intro y _ ih =>
      intro hy
      constructor
      intro z hz
      unfold Up at hz
      rw [h1] at hz
      split at hz
      · rename_i e; subst e; exact absurd hy hno
      · refine ih z hz ?_
        have hm : y ∈ K z := v.repr.parent_iff.1 hz
        exact anc_up hm hy
  constructor
  intro x
  induction v.wf.apply x with
  | intro x _ ih =>
    constructor
    intro z hz
    by_cases e : x = n
    · unfold Up at hz
      rw [h1, if_pos e] at hz
      cases hz
      exact hanc p (.refl p)
    · unfold Up at hz
      rw [h1, if_neg e] at hz
      exact ih z hz

theorem default_modify (h : Hierarchy) (n : Nat) (f : NodeData → NodeData) :
    (h.modify n f).data.default = h.data.default := by
  simp only [Hierarchy.modify, Dense.set]
  exact Dense.default_reserve _ _

theorem length_modify (h : Hierarchy) (n : Nat) (f : NodeData → NodeData) :
    (h.modify n f).data.data.length = max h.data.data.length (n + 1) := by
  simp only [Hierarchy.modify, Dense.set, Dense.reserveKey, Dense.resize]
  split
  · simp; omega
  · simp; omega

theorem incCount_some {h : Hierarchy} {n : Nat} (hc : (h.get n).count + 1 < 2 ^ 32) :
    h.incCount n = some (h.modify n fun d => { d with count := d.count + 1 }) := by
  unfold Hierarchy.incCount
  rw [if_pos hc]

theorem upd_eq_set (K : Kids) (p : Nat) (l : List Nat) : upd K p l = K.set p l := rfl

theorem get_modify_first (h : Hierarchy) (n : Nat) (f : NodeData → NodeData) (x : Nat) :
    ((h.modify n f).get x).first = if x = n then (f (h.get n)).first else (h.get x).first := by
  rw [get_modify]; split <;> rfl

theorem get_modify_last (h : Hierarchy) (n : Nat) (f : NodeData → NodeData) (x : Nat) :
    ((h.modify n f).get x).last = if x = n then (f (h.get n)).last else (h.get x).last := by
  rw [get_modify]; split <;> rfl

theorem get_modify_count (h : Hierarchy) (n : Nat) (f : NodeData → NodeData) (x : Nat) :
    ((h.modify n f).get x).count = if x = n then (f (h.get n)).count else (h.get x).count := by
  rw [get_modify]; split <;> rfl

theorem get_modify_parent (h : Hierarchy) (n : Nat) (f : NodeData → NodeData) (x : Nat) :
    ((h.modify n f).get x).parent = if x = n then (f (h.get n)).parent else (h.get x).parent := by
  rw [get_modify]; split <;> rfl

theorem get_modify_prev (h : Hierarchy) (n : Nat) (f : NodeData → NodeData) (x : Nat) :
    ((h.modify n f).get x).prev = if x = n then (f (h.get n)).prev else (h.get x).prev := by
  rw [get_modify]; split <;> rfl

theorem get_modify_next (h : Hierarchy) (n : Nat) (f : NodeData → NodeData) (x : Nat) :
    ((h.modify n f).get x).next = if x = n then (f (h.get n)).next else (h.get x).next := by
  rw [get_modify]; split <;> rfl

/-- `push_child` that passes the checks. -/
theorem pushChild_ok {h : Hierarchy} {K : Kids} (v : Inv h K) {n p : Nat} (hno : ¬ Anc K n p)
    (hc : h.cycleCheck n p = some true) (hr : (h.get n).parent = none) (hcnt : (h.get p).count + 1 < 2 ^ 32) :
    ∃ h', h.pushChild n p = some (.ok h') ∧ Inv h' (K.set p (K p ++ [n])) ∧
      h'.data.data.length ≤ max h.data.data.length (max n p + 1) := by
  have hcnt' : ((h.modify n fun d => { d with parent := some p }).get p).count + 1 < 2 ^ 32 := by
    rw [get_modify]; split
    · rename_i e; subst e; exact hcnt
    · exact hcnt
  have hroot := v.repr.root_iff.1 hr
  have hrt := v.repr.root n hroot
  unfold Hierarchy.pushChild
  simp only [hc, hr, incCount_some hcnt', Option.bind_eq_bind, Option.bind_some, Bool.not_true, Option.isSome_none,
    Bool.false_eq_true, if_false, Option.pure_def]
  have hlast : (((h.modify n fun d => { d with parent := some p }).modify p
      fun d => { d with count := d.count + 1 }).get p).last = (K p).getLast? := by
    rw [← v.repr.last]
    simp only [get_modify_first, get_modify_last, get_modify_count, get_modify_parent, get_modify_prev, get_modify_next]
    grind
  have hl2 := v.repr.last p
  rw [hlast]
  cases hL : (K p).getLast? with
  | none =>
    have hk : K p = [] := List.getLast?_eq_none_iff.1 hL
    refine ⟨_, rfl, ?_, ?_⟩
    · refine ⟨?_, ?_, ?_⟩
      · rw [← upd_eq_set]
        refine v.repr.insert hroot (a := K p) (b := []) (by simp) ?_ ?_ ?_ ?_ ?_ ?_ <;> intro x <;> simp only [get_modify_first, get_modify_last, get_modify_count, get_modify_parent, get_modify_prev, get_modify_next] <;> grind
      · refine wf_attach v hno ?_
        intro x; simp only [get_modify_first, get_modify_last, get_modify_count, get_modify_parent, get_modify_prev, get_modify_next]; grind
      · simp only [default_modify]; exact v.dflt
    · simp only [length_modify]; omega
  | some o =>
    have hk : K p ≠ [] := by intro e; rw [e] at hL; cases hL
    have hf : (K p ++ [n]).head? = (K p).head? := by cases e : K p with
      | nil => exact absurd e hk
      | cons => rfl
    have hf2 := v.repr.first p
    refine ⟨_, rfl, ?_, ?_⟩
    · refine ⟨?_, ?_, ?_⟩
      · rw [← upd_eq_set]
        refine v.repr.insert hroot (a := K p) (b := []) (by simp) ?_ ?_ ?_ ?_ ?_ ?_ <;> intro x <;> simp only [get_modify_first, get_modify_last, get_modify_count, get_modify_parent, get_modify_prev, get_modify_next] <;> grind
      · refine wf_attach v hno ?_
        intro x; simp only [get_modify_first, get_modify_last, get_modify_count, get_modify_parent, get_modify_prev, get_modify_next]; grind
      · simp only [default_modify]; exact v.dflt
    · have : o < h.data.data.length := v.lt_of_mem (mem_of_getLast? hL)
      simp only [length_modify]; omega

/-- `push_front_child` that passes the checks. -/
theorem pushFrontChild_ok {h : Hierarchy} {K : Kids} (v : Inv h K) {n p : Nat} (hno : ¬ Anc K n p)
    (hc : h.cycleCheck n p = some true) (hr : (h.get n).parent = none) (hcnt : (h.get p).count + 1 < 2 ^ 32) :
    ∃ h', h.pushFrontChild n p = some (.ok h') ∧ Inv h' (K.set p (n :: K p)) ∧
      h'.data.data.length ≤ max h.data.data.length (max n p + 1) := by
  have hcnt' : ((h.modify n fun d => { d with parent := some p }).get p).count + 1 < 2 ^ 32 := by
    rw [get_modify]; split
    · rename_i e; subst e; exact hcnt
    · exact hcnt
  have hroot := v.repr.root_iff.1 hr
  have hrt := v.repr.root n hroot
  unfold Hierarchy.pushFrontChild
  simp only [hc, hr, incCount_some hcnt', Option.bind_eq_bind, Option.bind_some, Bool.not_true, Option.isSome_none,
    Bool.false_eq_true, if_false, Option.pure_def]
  have hfirst : (((h.modify n fun d => { d with parent := some p }).modify p
      fun d => { d with count := d.count + 1 }).get p).first = (K p).head? := by
    rw [← v.repr.first]
    simp only [get_modify_first, get_modify_last, get_modify_count, get_modify_parent, get_modify_prev, get_modify_next]
    grind
  have hl2 := v.repr.first p
  rw [hfirst]
  cases hL : (K p).head? with
  | none =>
    have hk : K p = [] := List.head?_eq_none_iff.1 hL
    refine ⟨_, rfl, ?_, ?_⟩
    · refine ⟨?_, ?_, ?_⟩
      · rw [← upd_eq_set]
        refine v.repr.insert hroot (a := []) (b := K p) (by simp) ?_ ?_ ?_ ?_ ?_ ?_ <;> intro x <;> simp only [get_modify_first, get_modify_last, get_modify_count, get_modify_parent, get_modify_prev, get_modify_next] <;> grind
      · refine wf_attach v hno ?_
        intro x; simp only [get_modify_first, get_modify_last, get_modify_count, get_modify_parent, get_modify_prev, get_modify_next]; grind
      · simp only [default_modify]; exact v.dflt
    · simp only [length_modify]; omega
  | some o =>
    have hk : K p ≠ [] := by intro e; rw [e] at hL; cases hL
    have hon : o ≠ n := by rintro rfl; exact hroot p (mem_of_head? hL)
    have hf : ([] ++ n :: K p).getLast? = (K p).getLast? := by cases e : K p with
      | nil => exact absurd e hk
      | cons => simp [List.getLast?_cons]
    have hf2 := v.repr.last p
    refine ⟨_, rfl, ?_, ?_⟩
    · refine ⟨?_, ?_, ?_⟩
      · rw [← upd_eq_set]
        refine v.repr.insert hroot (a := []) (b := K p) (by simp) ?_ ?_ ?_ ?_ ?_ ?_ <;> intro x <;> simp only [get_modify_first, get_modify_last, get_modify_count, get_modify_parent, get_modify_prev, get_modify_next] <;> grind
      · refine wf_attach v hno ?_
        intro x; simp only [get_modify_first, get_modify_last, get_modify_count, get_modify_parent, get_modify_prev, get_modify_next]; grind
      · simp only [default_modify]; exact v.dflt
    · have : o < h.data.data.length := v.lt_of_mem (mem_of_head? hL)
      simp only [length_modify]; omega

theorem putBefore_eq {n b : Nat} {l r : List Nat} (h : b ∉ l) : putBefore n b (l ++ b :: r) = l ++ n :: b :: r := by
  induction l with
  | nil => simp [putBefore]
  | cons x l ih =>
    simp only [List.mem_cons, not_or] at h
    simp [putBefore, Ne.symm h.1, ih h.2]

theorem putAfter_eq {n b : Nat} {l r : List Nat} (h : b ∉ l) : putAfter n b (l ++ b :: r) = l ++ b :: n :: r := by
  induction l with
  | nil => simp [putAfter]
  | cons x l ih =>
    simp only [List.mem_cons, not_or] at h
    simp [putAfter, Ne.symm h.1, ih h.2]

/-- `insert_before` that passes the checks. -/
theorem insertBefore_ok {h : Hierarchy} {K : Kids} (v : Inv h K) {n b p : Nat} (hno : ¬ Anc K n p) (hb : b ∈ K p)
    (hc : h.cycleCheck n p = some true) (hr : (h.get n).parent = none) (hcnt : (h.get p).count + 1 < 2 ^ 32) :
    ∃ h', h.insertBefore n b = some (.ok h') ∧ Inv h' (K.set p (putBefore n b (K p))) ∧
      h'.data.data.length ≤ max h.data.data.length (n + 1) := by
  have hroot := v.repr.root_iff.1 hr
  have hrt := v.repr.root n hroot
  obtain ⟨l1, l2, hK⟩ := List.append_of_mem hb
  have hs := v.repr.sib p l1 b l2 hK
  have hnd := v.repr.nodup p
  rw [hK] at hnd
  have hbl : b ∉ l1 := by grind
  have hbn : b ≠ n := by rintro rfl; exact hroot p hb
  have hnb := hroot p
  rw [hK] at hnb
  have hlb := v.lt_of_mem hb
  have hlp := v.lt_of_mem' hb
  rw [hK, putBefore_eq hbl]
  unfold Hierarchy.insertBefore
  simp only [hc, hr, hs.1, incCount_some hcnt, Option.bind_eq_bind, Option.bind_some, Bool.not_true, Option.isSome_none,
    Bool.false_eq_true, if_false, Option.pure_def]
  have hprev : ((h.modify p fun d => { d with count := d.count + 1 }).get b).prev = l1.getLast? := by
    rw [← hs.2.1]
    simp only [get_modify_first, get_modify_last, get_modify_count, get_modify_parent, get_modify_prev, get_modify_next]
    grind
  rw [hprev]
  have hf2 := v.repr.first p
  have hl2 := v.repr.last p
  rw [hK] at hf2 hl2
  cases hL : l1.getLast? with
  | none =>
    have hk : l1 = [] := List.getLast?_eq_none_iff.1 hL
    refine ⟨_, rfl, ?_, ?_⟩
    · refine ⟨?_, ?_, ?_⟩
      · rw [← upd_eq_set]
        refine v.repr.insert hroot (a := l1) (b := b :: l2) hK ?_ ?_ ?_ ?_ ?_ ?_ <;> intro x <;> simp only [get_modify_first, get_modify_last, get_modify_count, get_modify_parent, get_modify_prev, get_modify_next] <;> grind
      · refine wf_attach v hno ?_
        intro x; simp only [get_modify_first, get_modify_last, get_modify_count, get_modify_parent, get_modify_prev, get_modify_next]; grind
      · simp only [default_modify]; exact v.dflt
    · simp only [length_modify]; omega
  | some o =>
    have hf : (l1 ++ n :: b :: l2).head? = (l1 ++ b :: l2).head? := by cases e : l1 with
      | nil => rw [e] at hL; cases hL
      | cons => rfl
    have hg : (l1 ++ n :: b :: l2).getLast? = (l1 ++ b :: l2).getLast? := by
      simp [List.getLast?_append, List.getLast?_cons]
    have ho : o ∈ l1 := mem_of_getLast? hL
    refine ⟨_, rfl, ?_, ?_⟩
    · refine ⟨?_, ?_, ?_⟩
      · rw [← upd_eq_set]
        refine v.repr.insert hroot (a := l1) (b := b :: l2) hK ?_ ?_ ?_ ?_ ?_ ?_ <;> intro x <;> simp only [get_modify_first, get_modify_last, get_modify_count, get_modify_parent, get_modify_prev, get_modify_next] <;> grind
      · refine wf_attach v hno ?_
        intro x; simp only [get_modify_first, get_modify_last, get_modify_count, get_modify_parent, get_modify_prev, get_modify_next]; grind
      · simp only [default_modify]; exact v.dflt
    · have : o < h.data.data.length := v.lt_of_mem (p := p) (by rw [hK]; simp [ho])
      simp only [length_modify]; omega

/-- `insert_after` that passes the checks. -/
theorem insertAfter_ok {h : Hierarchy} {K : Kids} (v : Inv h K) {n b p : Nat} (hno : ¬ Anc K n p) (hb : b ∈ K p)
    (hc : h.cycleCheck n p = some true) (hr : (h.get n).parent = none) (hcnt : (h.get p).count + 1 < 2 ^ 32) :
    ∃ h', h.insertAfter n b = some (.ok h') ∧ Inv h' (K.set p (putAfter n b (K p))) ∧
      h'.data.data.length ≤ max h.data.data.length (n + 1) := by
  have hroot := v.repr.root_iff.1 hr
  have hrt := v.repr.root n hroot
  obtain ⟨l1, l2, hK⟩ := List.append_of_mem hb
  have hs := v.repr.sib p l1 b l2 hK
  have hnd := v.repr.nodup p
  rw [hK] at hnd
  have hbl : b ∉ l1 := by grind
  have hbn : b ≠ n := by rintro rfl; exact hroot p hb
  have hnb := hroot p
  rw [hK] at hnb
  have hlb := v.lt_of_mem hb
  have hlp := v.lt_of_mem' hb
  rw [hK, putAfter_eq hbl]
  have hK' : K p = (l1 ++ [b]) ++ l2 := by rw [hK]; simp
  have hKn : l1 ++ b :: n :: l2 = (l1 ++ [b]) ++ n :: l2 := by simp
  rw [hKn]
  unfold Hierarchy.insertAfter
  simp only [hc, hr, hs.1, incCount_some hcnt, Option.bind_eq_bind, Option.bind_some, Bool.not_true, Option.isSome_none,
    Bool.false_eq_true, if_false, Option.pure_def]
  have hnext : ((h.modify p fun d => { d with count := d.count + 1 }).get b).next = l2.head? := by
    rw [← hs.2.2]
    simp only [get_modify_first, get_modify_last, get_modify_count, get_modify_parent, get_modify_prev, get_modify_next]
    grind
  rw [hnext]
  have hf2 := v.repr.first p
  have hl2 := v.repr.last p
  rw [hK'] at hf2 hl2
  have hlast : (l1 ++ [b]).getLast? = some b := by simp
  cases hL : l2.head? with
  | none =>
    have hk : l2 = [] := List.head?_eq_none_iff.1 hL
    have hf : ((l1 ++ [b]) ++ n :: l2).head? = ((l1 ++ [b]) ++ l2).head? := by cases l1 <;> rfl
    refine ⟨_, rfl, ?_, ?_⟩
    · refine ⟨?_, ?_, ?_⟩
      · rw [← upd_eq_set]
        refine v.repr.insert hroot (a := l1 ++ [b]) (b := l2) hK' ?_ ?_ ?_ ?_ ?_ ?_ <;> intro x <;> simp only [get_modify_first, get_modify_last, get_modify_count, get_modify_parent, get_modify_prev, get_modify_next] <;> grind
      · refine wf_attach v hno ?_
        intro x; simp only [get_modify_first, get_modify_last, get_modify_count, get_modify_parent, get_modify_prev, get_modify_next]; grind
      · simp only [default_modify]; exact v.dflt
    · simp only [length_modify]; omega
  | some o =>
    have hf : ((l1 ++ [b]) ++ n :: l2).head? = ((l1 ++ [b]) ++ l2).head? := by cases l1 <;> rfl
    have hg : ((l1 ++ [b]) ++ n :: l2).getLast? = ((l1 ++ [b]) ++ l2).getLast? := by
      cases l2 with
      | nil => cases hL
      | cons => simp [List.getLast?_append, List.getLast?_cons]
    have ho : o ∈ l2 := mem_of_head? hL
    refine ⟨_, rfl, ?_, ?_⟩
    · refine ⟨?_, ?_, ?_⟩
      · rw [← upd_eq_set]
        refine v.repr.insert hroot (a := l1 ++ [b]) (b := l2) hK' ?_ ?_ ?_ ?_ ?_ ?_ <;> intro x <;> simp only [get_modify_first, get_modify_last, get_modify_count, get_modify_parent, get_modify_prev, get_modify_next] <;> grind
      · refine wf_attach v hno ?_
        intro x; simp only [get_modify_first, get_modify_last, get_modify_count, get_modify_parent, get_modify_prev, get_modify_next]; grind
      · simp only [default_modify]; exact v.dflt
    · have : o < h.data.data.length := v.lt_of_mem (p := p) (by rw [hK]; simp [ho])
      simp only [length_modify]; omega

end Verif.Hier
