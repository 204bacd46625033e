import Verif.Hierarchy.Ops

/-!
# Detaching, removing and renaming

Lemmas for `detach`, `detach_children`, `remove`, `swap_nodes`, `rekey` and `shrink_to`.
-/

namespace Verif.Hier

open Verif.Secondary

theorem wf_sub {D D' : Nat → NodeData} (hw : WellFounded (Up D))
    (h1 : ∀ x p, (D' x).parent = some p → (D x).parent = some p) : WellFounded (Up D') :=
  Subrelation.wf (fun {_ _} hxy => h1 _ _ hxy) hw

theorem erase_root {K : Kids} {n : Nat} (hn : ∀ p, n ∉ K p) : K.erase n = K := by
  funext p
  unfold Kids.erase
  rw [List.filter_eq_self]
  intro x hx
  simp
  rintro rfl
  exact hn p hx

theorem erase_mem {D : Nat → NodeData} {K : Kids} (r : Repr D K) {n p : Nat} {a b : List Nat} (hp : K p = a ++ n :: b) :
    K.erase n = upd K p (a ++ b) := by
  funext q
  unfold Kids.erase upd
  split
  · rename_i e
    subst e
    have hnd := r.nodup q
    rw [hp] at hnd ⊢
    rw [List.filter_append, List.filter_cons]
    simp
    rw [List.filter_eq_self.2, List.filter_eq_self.2]
    · grind
    · grind
  · rename_i e
    rw [List.filter_eq_self]
    intro x hx
    simp
    rintro rfl
    exact e (r.unique hx (by rw [hp]; simp))

theorem repr_congr {D D' : Nat → NodeData} {K : Kids} (r : Repr D K) (h : ∀ x, D' x = D x) : Repr D' K := by
  have : D' = D := funext h
  rw [this]
  exact r

set_option maxHeartbeats 1000000 in
/-- `detach`. -/
theorem detach_ok {h : Hierarchy} {K : Kids} (v : Inv h K) (n : Nat) :
    ∃ h', h.detach n = some ((h.get n).parent, h') ∧ Inv h' (K.erase n) ∧ h'.data.data.length = h.data.data.length := by
  unfold Hierarchy.detach
  split
  · rename_i hl
    have hn : h.get n = {} := get_far v.dflt hl
    refine ⟨h, by simp [hn], ?_, rfl⟩
    rw [erase_root]
    · exact v
    · exact v.repr.root_iff.1 (by rw [hn])
  · rename_i hl
    simp only
    cases hp : (h.get n).parent with
    | none =>
      have hroot := v.repr.root_iff.1 hp
      have hr := v.repr.root n hroot
      refine ⟨_, rfl, ?_, ?_⟩
      · rw [erase_root hroot]
        have hg : ∀ x, (h.modify n fun d => { d with parent := none, prev := none, next := none }).get x = h.get x := by
          intro x
          rw [get_modify]
          split
          · rename_i e
            subst e
            obtain ⟨h1, h2, h3⟩ := hr
            cases hh : h.get x
            simp_all
          · rfl
        refine ⟨repr_congr v.repr hg, ?_, by simp only [default_modify]; exact v.dflt⟩
        exact wf_sub v.wf (fun x p hx => by rwa [hg] at hx)
      · simp only [length_modify]; omega
    | some p =>
      have hm : n ∈ K p := v.repr.parent_iff.1 hp
      obtain ⟨a, b, hK⟩ := List.append_of_mem hm
      have hs := v.repr.sib p a n b hK
      have hnd := v.repr.nodup p
      rw [hK] at hnd
      have hlp := v.lt_of_mem' hm
      have hpn : p ≠ n := by rintro rfl; exact v.forest.acyclic _ _ hm (.refl _)
      have hc : ¬ ((h.modify n fun d => { d with parent := none, prev := none, next := none }).get p).count = 0 := by
        rw [get_modify_count, if_neg hpn, v.repr.count, hK]
        simp
      simp only [hs.2.1, hs.2.2]
      rw [if_neg hc, erase_mem v.repr hK]
      have hf1 := v.repr.first p
      have hf2 := v.repr.last p
      rw [hK] at hf1 hf2
      have ha : ∀ x, a.getLast? = some x → x < h.data.data.length := fun x hx =>
        v.lt_of_mem (p := p) (by rw [hK]; simp [mem_of_getLast? hx])
      have hb : ∀ x, b.head? = some x → x < h.data.data.length := fun x hx =>
        v.lt_of_mem (p := p) (by rw [hK]; simp [mem_of_head? hx])
      have ha' : ∀ x, a.getLast? = some x → x ∈ a := fun x hx => mem_of_getLast? hx
      have hb' : ∀ x, b.head? = some x → x ∈ b := fun x hx => mem_of_head? hx
      have fin : ∀ h' : Hierarchy,
          (∀ x, (h'.get x).parent = if x = n then none else (h.get x).parent) →
          (∀ x, (h'.get x).prev = if x = n then none else if b.head? = some x then a.getLast? else (h.get x).prev) →
          (∀ x, (h'.get x).next = if x = n then none else if a.getLast? = some x then b.head? else (h.get x).next) →
          (∀ x, (h'.get x).first = if x = p then (a ++ b).head? else (h.get x).first) →
          (∀ x, (h'.get x).last = if x = p then (a ++ b).getLast? else (h.get x).last) →
          (∀ x, (h'.get x).count = if x = p then (h.get x).count - 1 else (h.get x).count) →
          h'.data.default = {} → h'.data.data.length = h.data.data.length →
          Inv h' (upd K p (a ++ b)) ∧ h'.data.data.length = h.data.data.length := by
        intro h' e1 e2 e3 e4 e5 e6 e7 e8
        refine ⟨⟨v.repr.erase hK e1 e2 e3 e4 e5 e6, wf_sub v.wf ?_, e7⟩, e8⟩
        intro x q hx
        rw [e1] at hx
        split at hx
        · cases hx
        · exact hx
      refine ⟨_, rfl, ?_⟩
      cases hA : a.getLast? with
      | none =>
        have ea : a = [] := List.getLast?_eq_none_iff.1 hA
        cases hB : b.head? with
        | none =>
          have eb : b = [] := List.head?_eq_none_iff.1 hB
          subst ea eb
          apply fin <;>
            simp only [default_modify, length_modify, get_modify_first, get_modify_last, get_modify_count,
              get_modify_parent, get_modify_prev, get_modify_next, v.dflt] <;> grind
        | some y =>
          have hy := hb y hB
          have hg : (a ++ b).getLast? = (a ++ n :: b).getLast? := by
            cases b with
            | nil => cases hB
            | cons z b => simp [List.getLast?_append, List.getLast?_cons]
          apply fin <;>
            simp only [default_modify, length_modify, get_modify_first, get_modify_last, get_modify_count,
              get_modify_parent, get_modify_prev, get_modify_next, v.dflt] <;> grind
      | some z =>
        have hz := ha z hA
        have hh : (a ++ b).head? = (a ++ n :: b).head? := by
          cases a with
          | nil => cases hA
          | cons => rfl
        cases hB : b.head? with
        | none =>
          have eb : b = [] := List.head?_eq_none_iff.1 hB
          apply fin <;>
            simp only [default_modify, length_modify, get_modify_first, get_modify_last, get_modify_count,
              get_modify_parent, get_modify_prev, get_modify_next, v.dflt] <;> grind
        | some y =>
          have hy := hb y hB
          have hg : (a ++ b).getLast? = (a ++ n :: b).getLast? := by
            cases b with
            | nil => cases hB
            | cons z b => simp [List.getLast?_append, List.getLast?_cons]
          apply fin <;>
            simp only [default_modify, length_modify, get_modify_first, get_modify_last, get_modify_count,
              get_modify_parent, get_modify_prev, get_modify_next, v.dflt] <;> grind

/-! ## Loops over the children -/

theorem detachLoop_ok (l : List Nat) : ∀ (h : Hierarchy) (f : Nat), l.Nodup →
    (∀ l1 x l2, l = l1 ++ x :: l2 → (h.get x).next = l2.head?) → l.length ≤ f →
    ∃ h', Hierarchy.detachLoop f h l.head? = some h' ∧
      (∀ x, h'.get x = if x ∈ l then { h.get x with parent := none, prev := none, next := none } else h.get x) ∧
      h'.data.default = h.data.default ∧
      ((∀ x ∈ l, x < h.data.data.length) → h'.data.data.length = h.data.data.length) := by
  induction l with
  | nil => intro h f _ _ _; exact ⟨h, by cases f <;> rfl, by simp, rfl, fun _ => rfl⟩
  | cons c l ih =>
    intro h f hnd hnx hf
    cases f with
    | zero => simp at hf
    | succ f =>
      rw [List.nodup_cons] at hnd
      have hn := hnx [] c l rfl
      obtain ⟨h', e, hg, hd, hl⟩ := ih (h.modify c fun d => { d with parent := none, prev := none, next := none }) f hnd.2
        (by
          intro l1 x l2 e
          have hxc : x ≠ c := by rintro rfl; exact hnd.1 (by rw [e]; simp)
          rw [get_modify, if_neg hxc]
          exact hnx (c :: l1) x l2 (by rw [e]; rfl))
        (by simpa using hf)
      refine ⟨h', ?_, ?_, ?_, ?_⟩
      · simp only [List.head?_cons, Hierarchy.detachLoop, hn]
        exact e
      · intro x
        rw [hg, get_modify]
        by_cases hxc : x = c
        · subst hxc; simp [hnd.1]
        · simp [hxc]
      · rw [hd, default_modify]
      · intro hx
        rw [hl, length_modify]
        · have := hx c (by simp)
          omega
        · intro x hxl
          rw [length_modify]
          have := hx x (by simp [hxl])
          omega

theorem rekeyLoop_ok (new : Nat) (l : List Nat) : ∀ (h : Hierarchy) (f : Nat), l.Nodup →
    (∀ l1 x l2, l = l1 ++ x :: l2 → (h.get x).next = l2.head?) → l.length ≤ f →
    ∃ h', Hierarchy.rekeyLoop new f h l.head? = some h' ∧
      (∀ x, h'.get x = if x ∈ l then { h.get x with parent := some new } else h.get x) ∧
      h'.data.default = h.data.default ∧
      ((∀ x ∈ l, x < h.data.data.length) → h'.data.data.length = h.data.data.length) := by
  induction l with
  | nil => intro h f _ _ _; exact ⟨h, by cases f <;> rfl, by simp, rfl, fun _ => rfl⟩
  | cons c l ih =>
    intro h f hnd hnx hf
    cases f with
    | zero => simp at hf
    | succ f =>
      rw [List.nodup_cons] at hnd
      have hn := hnx [] c l rfl
      obtain ⟨h', e, hg, hd, hl⟩ := ih (h.modify c fun d => { d with parent := some new }) f hnd.2
        (by
          intro l1 x l2 e
          have hxc : x ≠ c := by rintro rfl; exact hnd.1 (by rw [e]; simp)
          rw [get_modify, if_neg hxc]
          exact hnx (c :: l1) x l2 (by rw [e]; rfl))
        (by simpa using hf)
      refine ⟨h', ?_, ?_, ?_, ?_⟩
      · simp only [List.head?_cons, Hierarchy.rekeyLoop, get_modify_next, if_true, hn]
        exact e
      · intro x
        rw [hg, get_modify]
        by_cases hxc : x = c
        · subst hxc; simp [hnd.1]
        · simp [hxc]
      · rw [hd, default_modify]
      · intro hx
        rw [hl, length_modify]
        · have := hx c (by simp)
          omega
        · intro x hxl
          rw [length_modify]
          have := hx x (by simp [hxl])
          omega

/-- `detach_children`. -/
theorem detachChildren_ok {h : Hierarchy} {K : Kids} (v : Inv h K) (n : Nat) :
    ∃ h', h.detachChildren n = some h' ∧ Inv h' (K.set n []) ∧ h'.data.data.length = h.data.data.length := by
  unfold Hierarchy.detachChildren
  split
  · rename_i hl
    have hn : h.get n = {} := get_far v.dflt hl
    refine ⟨h, rfl, ?_, rfl⟩
    have : K.set n [] = K := by
      funext x
      unfold Kids.set
      split
      · rename_i e
        subst e
        have := v.repr.count x
        rw [hn] at this
        exact (List.length_eq_zero_iff.1 this.symm).symm
      · rfl
    rw [this]
    exact v
  · rename_i hl
    have hself : n ∉ K n := fun hm => v.forest.acyclic _ _ hm (.refl _)
    obtain ⟨h', e, hg, hd, hlen⟩ := detachLoop_ok (K n)
      (h.modify n fun d => { d with count := 0, first := none, last := none }) h.fuel (v.repr.nodup n)
      (by
        intro l1 x l2 e
        rw [get_modify_next]
        have := (v.repr.sib n l1 x l2 e).2.2
        split
        · rename_i e'; subst e'; exact this
        · exact this)
      (by unfold Hierarchy.fuel; have := v.length_le n; omega)
    rw [v.repr.first]
    refine ⟨h', e, ?_, ?_⟩
    · refine ⟨?_, ?_, ?_⟩
      · rw [← upd_eq_set]
        refine v.repr.clear ?_ ?_ ?_ ?_ ?_ ?_ <;> intro x <;> rw [hg, get_modify] <;> grind
      · refine wf_sub v.wf ?_
        intro x p
        rw [hg, get_modify]
        grind
      · rw [hd, default_modify]; exact v.dflt
    · rw [hlen, length_modify]
      · omega
      · intro x hx
        rw [length_modify]
        have := v.lt_of_mem hx
        omega

/-- `remove`. -/
theorem remove_ok {h : Hierarchy} {K : Kids} (v : Inv h K) (n : Nat) :
    ∃ h', h.remove n = some h' ∧ Inv h' ((K.set n []).erase n) ∧ h'.data.data.length = h.data.data.length := by
  obtain ⟨h1, e1, v1, l1⟩ := detachChildren_ok v n
  obtain ⟨h2, e2, v2, l2⟩ := detach_ok v1 n
  refine ⟨h2, ?_, v2, by rw [l2, l1]⟩
  simp [Hierarchy.remove, e1, e2]

/-! ## Renaming -/

namespace Repr

variable {D : Nat → NodeData} {K : Nat → List Nat}

theorem next_iff (r : Repr D K) {x y : Nat} : (D x).next = some y ↔ (D y).prev = some x := by
  constructor
  · intro h
    cases hp : (D x).parent with
    | none =>
      have := r.root x (r.root_iff.1 hp)
      rw [this.2.2] at h
      cases h
    | some p =>
      obtain ⟨l1, l2, e⟩ := List.append_of_mem (r.parent_iff.1 hp)
      have := (r.sib p l1 x l2 e).2.2
      rw [h] at this
      cases l2 with
      | nil => cases this
      | cons z l2 =>
        cases this
        have := (r.sib p (l1 ++ [x]) y l2 (by rw [e]; simp)).2.1
        rw [this]; simp
  · intro h
    cases hp : (D y).parent with
    | none =>
      have := r.root y (r.root_iff.1 hp)
      rw [this.2.1] at h
      cases h
    | some p =>
      obtain ⟨l1, l2, e⟩ := List.append_of_mem (r.parent_iff.1 hp)
      have := (r.sib p l1 y l2 e).2.1
      rw [h] at this
      obtain ⟨l0, rfl⟩ : ∃ l0, l1 = l0 ++ [x] := by
        have := List.getLast?_eq_some_iff.1 this.symm
        exact this
      have := (r.sib p l0 x (y :: l2) (by rw [e]; simp)).2.2
      rw [this]; rfl

theorem first_iff (r : Repr D K) {p c : Nat} : (D p).first = some c ↔ (D c).parent = some p ∧ (D c).prev = none := by
  rw [r.first]
  constructor
  · intro h
    cases hk : K p with
    | nil => rw [hk] at h; cases h
    | cons y l =>
      rw [hk] at h
      cases h
      have := r.sib p [] c l hk
      exact ⟨this.1, this.2.1⟩
  · rintro ⟨h1, h2⟩
    obtain ⟨l1, l2, e⟩ := List.append_of_mem (r.parent_iff.1 h1)
    have := (r.sib p l1 c l2 e).2.1
    rw [h2] at this
    have : l1 = [] := List.getLast?_eq_none_iff.1 this.symm
    rw [e, this]; rfl

theorem last_iff (r : Repr D K) {p c : Nat} : (D p).last = some c ↔ (D c).parent = some p ∧ (D c).next = none := by
  rw [r.last]
  constructor
  · intro h
    obtain ⟨l, hk⟩ := List.getLast?_eq_some_iff.1 h
    have := r.sib p l c [] hk
    exact ⟨this.1, this.2.2⟩
  · rintro ⟨h1, h2⟩
    obtain ⟨l1, l2, e⟩ := List.append_of_mem (r.parent_iff.1 h1)
    have := (r.sib p l1 c l2 e).2.2
    rw [h2] at this
    have : l2 = [] := List.head?_eq_none_iff.1 this.symm
    rw [e, this]; simp

theorem next_ne (r : Repr D K) (x : Nat) : (D x).next ≠ some x := by
  intro h
  cases hp : (D x).parent with
  | none =>
    have := r.root x (r.root_iff.1 hp)
    rw [this.2.2] at h
    cases h
  | some p =>
    obtain ⟨l1, l2, e⟩ := List.append_of_mem (r.parent_iff.1 hp)
    have := (r.sib p l1 x l2 e).2.2
    rw [h] at this
    have := mem_of_head? this.symm
    have hnd := r.nodup p
    rw [e] at hnd
    grind

theorem next_iter (r : Repr D K) {p : Nat} : ∀ l1 x l2, K p = l1 ++ x :: l2 → (D x).next = l2.head? :=
  fun l1 x l2 e => (r.sib p l1 x l2 e).2.2

end Repr

theorem rekeyInParent_get (h : Hierarchy) (d : NodeData) (new x : Nat) :
    (h.rekeyInParent d new).get x = { h.get x with
      first := if d.parent = some x ∧ d.prev = none then some new else (h.get x).first
      last := if d.parent = some x ∧ d.next = none then some new else (h.get x).last } := by
  unfold Hierarchy.rekeyInParent
  cases hp : d.parent with
  | none => simp
  | some p =>
    simp only
    by_cases hxp : x = p
    · subst hxp
      split <;> split <;> simp_all [get_modify]
    · have : ¬ p = x := fun e => hxp e.symm
      split <;> split <;> simp [get_modify, hxp, this]

theorem rekeyInSiblings_get (h : Hierarchy) (d : NodeData) (new x : Nat) :
    (h.rekeyInSiblings d new).get x = { h.get x with
      next := if d.prev = some x then some new else (h.get x).next
      prev := if d.next = some x then some new else (h.get x).prev } := by
  unfold Hierarchy.rekeyInSiblings
  cases hp : d.prev with
  | none =>
    cases hn : d.next with
    | none => simp
    | some y =>
      simp only [get_modify]
      by_cases hxy : x = y
      · simp [hxy]
      · simp [hxy, Ne.symm hxy]
  | some z =>
    cases hn : d.next with
    | none =>
      simp only [get_modify]
      by_cases hxy : x = z
      · simp [hxy]
      · simp [hxy, Ne.symm hxy]
    | some y =>
      simp only [get_modify]
      by_cases hxy : x = y <;> by_cases hxz : x = z <;> by_cases hyz : y = z <;>
        simp_all [eq_comm]

theorem transpose_invol (a b x : Nat) : transpose a b (transpose a b x) = x := by
  unfold transpose; grind

theorem map_transpose (a b : Nat) (o : Option Nat) :
    o.map (transpose a b) = if o = some a then some b else if o = some b then some a else o := by
  cases o with
  | none => simp
  | some x =>
    simp only [Option.map_some, Option.some.injEq, transpose]
    split
    · rfl
    · split <;> rfl

theorem inv_rename {h h' : Hierarchy} {K : Kids} (v : Inv h K) {a b : Nat}
    (hg : ∀ x, h'.get x = (h.get (transpose a b x)).rename (transpose a b)) (hd : h'.data.default = {}) :
    Inv h' (K.swap a b) := by
  refine ⟨v.repr.rename (transpose_invol a b) hg, ?_, hd⟩
  refine Subrelation.wf ?_ (InvImage.wf (transpose a b) v.wf)
  intro p x hx
  unfold Up at hx
  rw [hg] at hx
  simp only [NodeData.rename, Option.map_eq_some_iff] at hx
  obtain ⟨y, hy, rfl⟩ := hx
  show (h.get (transpose a b x)).parent = some (transpose a b (transpose a b y))
  rw [transpose_invol, hy]

theorem NodeData.ext' {d e : NodeData} (h1 : d.first = e.first) (h2 : d.last = e.last) (h3 : d.count = e.count)
    (h4 : d.parent = e.parent) (h5 : d.prev = e.prev) (h6 : d.next = e.next) : d = e := by
  cases d; cases e; simp_all

theorem default_rekeyInParent (h : Hierarchy) (d : NodeData) (new : Nat) :
    (h.rekeyInParent d new).data.default = h.data.default := by
  unfold Hierarchy.rekeyInParent
  repeat' split
  all_goals simp [default_modify]

theorem default_rekeyInSiblings (h : Hierarchy) (d : NodeData) (new : Nat) :
    (h.rekeyInSiblings d new).data.default = h.data.default := by
  unfold Hierarchy.rekeyInSiblings
  repeat' split
  all_goals simp [default_modify]

theorem get_put (h : Hierarchy) (n : Nat) (d : NodeData) (x : Nat) :
    (⟨h.data.set n d⟩ : Hierarchy).get x = if x = n then d else h.get x := by
  simp only [Hierarchy.get, Dense.get_set]

theorem default_put (h : Hierarchy) (n : Nat) (d : NodeData) :
    (⟨h.data.set n d⟩ : Hierarchy).data.default = h.data.default := by
  simp only [Dense.set]
  exact Dense.default_reserve _ _

/-- `swap_nodes`. -/
theorem swapNodes_ok {h : Hierarchy} {K : Kids} (v : Inv h K) (a b : Nat) :
    ∃ h', h.swapNodes a b = some h' ∧ Inv h' (K.swap a b) := by
  unfold Hierarchy.swapNodes
  by_cases hab : a = b
  · subst hab
    refine ⟨h, by simp, ?_⟩
    have : K.swap a a = K := by
      have ht : transpose a a = id := by funext x; unfold transpose; grind
      funext x
      simp [Kids.swap, ht]
    rw [this]
    exact v
  · rw [if_neg hab]
    have r := v.repr
    have hself : ∀ x, x ∉ K x := fun x hm => v.forest.acyclic _ _ hm (.refl _)
    obtain ⟨h1, e1, g1, d1, l1⟩ := rekeyLoop_ok b (K a) h h.fuel (r.nodup a) r.next_iter
      (by unfold Hierarchy.fuel; have := v.length_le a; omega)
    have l1 := l1 fun x hx => v.lt_of_mem hx
    obtain ⟨h2, e2, g2, d2, -⟩ := rekeyLoop_ok a (K b) h1 h1.fuel (r.nodup b)
      (by
        intro p x q e
        rw [g1]
        have := r.next_iter p x q e
        split <;> exact this)
      (by unfold Hierarchy.fuel; have := v.length_le b; omega)
    have e1' : h.rekeyInChildren (h.get a) b = some h1 := by
      unfold Hierarchy.rekeyInChildren; rw [r.first]; exact e1
    have e2' : h1.rekeyInChildren (h.get b) a = some h2 := by
      unfold Hierarchy.rekeyInChildren; rw [r.first]; exact e2
    simp only [e1', e2', Option.bind_eq_bind, Option.bind_some, Option.pure_def]
    refine ⟨_, rfl, ?_⟩
    refine inv_rename v ?_ ?_
    · intro x
      have p1 := @Repr.parent_iff _ _ r
      have ha1 : (h.get a).parent ≠ some a := fun e => hself a (p1.1 e)
      have ha2 : (h.get b).parent ≠ some b := fun e => hself b (p1.1 e)
      have hxa : (h.get x).parent = some a ↔ x ∈ K a := p1
      have hxb : (h.get x).parent = some b ↔ x ∈ K b := p1
      have n1 := @Repr.next_iff _ _ r
      have f1 := @Repr.first_iff _ _ r
      have t1 := @Repr.last_iff _ _ r
      have s1 := r.next_ne
      rw [get_put, get_put]
      by_cases xb : x = b
      · subst xb
        have ht : transpose a x x = a := by unfold transpose; grind
        rw [if_pos rfl, ht]
        have q1 : (h.get a).first ≠ some a := fun e => ha1 (f1.1 e).1
        have q2 : (h.get a).last ≠ some a := fun e => ha1 (t1.1 e).1
        have q3 : (h.get a).next ≠ some a := s1 a
        have q4 : (h.get a).prev ≠ some a := fun e => s1 a (n1.2 e)
        apply NodeData.ext' <;> simp only [Hierarchy.rekeyInData, NodeData.rename, map_transpose, Hierarchy.rekeyInValue, ha1, q1, q2, q3, q4, if_false]
      · rw [if_neg xb]
        by_cases xa : x = a
        · subst xa
          have ht : transpose x b x = b := by unfold transpose; grind
          rw [if_pos rfl, ht]
          have q1 : (h.get b).first ≠ some b := fun e => ha2 (f1.1 e).1
          have q2 : (h.get b).last ≠ some b := fun e => ha2 (t1.1 e).1
          have q3 : (h.get b).next ≠ some b := s1 b
          have q4 : (h.get b).prev ≠ some b := fun e => s1 b (n1.2 e)
          apply NodeData.ext' <;> simp only [Hierarchy.rekeyInData, NodeData.rename, map_transpose, Hierarchy.rekeyInValue] <;> grind
        · have ht : transpose a b x = x := by unfold transpose; grind
          rw [if_neg xa, ht, rekeyInSiblings_get, rekeyInSiblings_get, rekeyInParent_get, rekeyInParent_get, g2, g1]
          have fa := @f1 x a
          have fb := @f1 x b
          have ta := @t1 x a
          have tb := @t1 x b
          have na := @n1 x a
          have nb := @n1 x b
          have na' := @n1 a x
          have nb' := @n1 b x
          clear p1 n1 f1 t1 s1 g1 g2 e1 e2 e1' e2' d1 d2 hself l1
          by_cases hka : x ∈ K a <;> by_cases hkb : x ∈ K b <;> simp only [hka, hkb, if_true, if_false, iff_true, iff_false] at hxa hxb ⊢ <;>
            apply NodeData.ext' <;> simp only [NodeData.rename, map_transpose] <;> grind
    · rw [default_put, default_put, default_rekeyInSiblings, default_rekeyInSiblings, default_rekeyInParent,
        default_rekeyInParent, d2, d1]
      exact v.dflt

/-- `rekey` into an unused place. -/
theorem rekey_ok {h : Hierarchy} {K : Kids} (v : Inv h K) {old new : Nat} (hn : h.get new = {}) :
    ∃ h', h.rekey old new = some h' ∧ Inv h' (K.swap old new) := by
  unfold Hierarchy.rekey
  rw [if_neg (by simpa using hn)]
  by_cases hab : old = new
  · subst hab
    refine ⟨h, by simp, ?_⟩
    have : K.swap old old = K := by
      have ht : transpose old old = id := by funext x; unfold transpose; grind
      funext x
      simp [Kids.swap, ht]
    rw [this]
    exact v
  · rw [if_neg hab]
    have r := v.repr
    have hself : ∀ x, x ∉ K x := fun x hm => v.forest.acyclic _ _ hm (.refl _)
    obtain ⟨h1, e1, g1, d1, -⟩ := rekeyLoop_ok new (K old) (h.modify old fun _ => {}) (h.modify old fun _ => {}).fuel (r.nodup old)
      (by
        intro p x q e
        have hxo : x ≠ old := by rintro rfl; exact hself x (by rw [e]; simp)
        rw [get_modify_next, if_neg hxo]
        exact r.next_iter p x q e)
      (by unfold Hierarchy.fuel; rw [length_modify]; have := v.length_le old; omega)
    have e1' : (h.modify old fun _ => {}).rekeyInChildren (h.get old) new = some h1 := by
      unfold Hierarchy.rekeyInChildren; rw [r.first]; exact e1
    simp only [e1', Option.bind_eq_bind, Option.bind_some, Option.pure_def]
    refine ⟨_, rfl, ?_⟩
    refine inv_rename v ?_ ?_
    · intro x
      have p1 := @Repr.parent_iff _ _ r
      have ha1 : (h.get old).parent ≠ some old := fun e => hself old (p1.1 e)
      have hxa : (h.get x).parent = some old ↔ x ∈ K old := p1
      have n1 := @Repr.next_iff _ _ r
      have f1 := @Repr.first_iff _ _ r
      have t1 := @Repr.last_iff _ _ r
      have s1 := r.next_ne
      have z1 : ∀ y, (h.get y).parent ≠ some new := by
        intro y e
        have := p1.1 e
        have hc := r.count new
        rw [hn] at hc
        rw [List.length_eq_zero_iff.1 hc.symm] at this
        cases this
      have z2 : ∀ y, (h.get y).first ≠ some new := by
        intro y e; have := (f1.1 e).1; rw [hn] at this; cases this
      have z3 : ∀ y, (h.get y).last ≠ some new := by
        intro y e; have := (t1.1 e).1; rw [hn] at this; cases this
      have z4 : ∀ y, (h.get y).next ≠ some new := by
        intro y e; have := n1.1 e; rw [hn] at this; cases this
      have z5 : ∀ y, (h.get y).prev ≠ some new := by
        intro y e; have := n1.2 e; rw [hn] at this; cases this
      have q1 : (h.get old).first ≠ some old := fun e => ha1 (f1.1 e).1
      have q2 : (h.get old).last ≠ some old := fun e => ha1 (t1.1 e).1
      have q3 : (h.get old).next ≠ some old := s1 old
      have q4 : (h.get old).prev ≠ some old := fun e => s1 old (n1.2 e)
      rw [get_put]
      by_cases xb : x = new
      · subst xb
        have ht : transpose old x x = old := by unfold transpose; grind
        rw [if_pos rfl, ht]
        have := z1 old
        have := z2 old
        have := z3 old
        have := z4 old
        have := z5 old
        apply NodeData.ext' <;> simp_all [NodeData.rename, map_transpose]
      · rw [if_neg xb]
        rw [rekeyInSiblings_get, rekeyInParent_get, g1, get_modify]
        by_cases xa : x = old
        · subst xa
          have ht : transpose x new x = new := by unfold transpose; grind
          rw [ht, hn]
          have := hself x
          apply NodeData.ext' <;> simp_all [NodeData.rename]
        · have ht : transpose old new x = x := by unfold transpose; grind
          rw [if_neg xa, ht]
          have fa := @f1 x old
          have ta := @t1 x old
          have na := @n1 x old
          have na' := @n1 old x
          have := z1 x
          have := z2 x
          have := z3 x
          have := z4 x
          have := z5 x
          clear p1 n1 f1 t1 s1 z1 z2 z3 z4 z5
          apply NodeData.ext' <;> simp only [NodeData.rename, map_transpose] <;> grind
    · rw [default_put, default_rekeyInSiblings, default_rekeyInParent, d1, default_modify]
      exact v.dflt

end Verif.Hier
