import Verif.Hierarchy.History

/-!
# Breadth first order

Lemmas for `Descendants`.
-/

namespace Verif.Hier

theorem Anc.trans {K : Kids} {a b c : Nat} (h1 : Anc K a b) (h2 : Anc K b c) : Anc K a c := by
  induction h2 with
  | refl => exact h1
  | step _ hm ih => exact .step ih hm

theorem level_anc {K : Kids} {n : Nat} : ∀ {k x}, x ∈ level K n k → Anc K n x := by
  intro k
  induction k with
  | zero => intro x hx; simp [level] at hx; rw [hx]; exact .refl _
  | succ k ih =>
    intro x hx
    obtain ⟨p, hp, hx⟩ := List.mem_flatMap.1 hx
    exact .step (ih hp) hx

theorem anc_level {K : Kids} {n x : Nat} (h : Anc K n x) : ∃ k, x ∈ level K n k := by
  induction h with
  | refl => exact ⟨0, by simp [level]⟩
  | step _ hm ih =>
    obtain ⟨k, hk⟩ := ih
    exact ⟨k + 1, List.mem_flatMap.2 ⟨_, hk, hm⟩⟩

theorem level_unique {K : Kids} (F : Forest K) {n : Nat} : ∀ {i j x}, x ∈ level K n i → x ∈ level K n j → i = j := by
  have hz : ∀ j x, x = n → x ∉ level K n (j + 1) := by
    rintro j x rfl hx
    obtain ⟨p, hp, hm⟩ := List.mem_flatMap.1 hx
    exact F.acyclic p x hm (level_anc hp)
  intro i
  induction i with
  | zero =>
    intro j x hi hj
    cases j with
    | zero => rfl
    | succ j => exact absurd hj (hz j x (by simpa [level] using hi))
  | succ i ih =>
    intro j x hi hj
    cases j with
    | zero => exact absurd hi (hz i x (by simpa [level] using hj))
    | succ j =>
      obtain ⟨p, hp, hm⟩ := List.mem_flatMap.1 hi
      obtain ⟨q, hq, hm'⟩ := List.mem_flatMap.1 hj
      have := F.oneParent p q x hm hm'
      subst this
      rw [ih hp hq]

theorem level_nodup {K : Kids} (F : Forest K) {n : Nat} (k : Nat) : (level K n k).Nodup := by
  induction k with
  | zero => simp [level]
  | succ k ih =>
    unfold level
    rw [List.nodup_flatMap]
    refine ⟨fun x _ => F.once x, ?_⟩
    refine List.Pairwise.imp ?_ ih
    intro a b hab x hx hx'
    exact hab (F.oneParent a b x hx hx')

/-- Only finitely many levels are inhabited. -/
theorem level_empty {h : Hierarchy} {K : Kids} (v : Inv h K) (n : Nat) : level K n h.fuel = [] := by
  have F := v.forest
  have key : ∀ k x, x ∈ level K n k → ∃ l : List Nat, l.Nodup ∧ l.length = k + 1 ∧ ∀ y ∈ l, Anc K y x := by
    intro k
    induction k with
    | zero => intro x _; exact ⟨[x], by simp, rfl, by simp; exact .refl _⟩
    | succ k ih =>
      intro x hx
      obtain ⟨p, hp, hm⟩ := List.mem_flatMap.1 hx
      obtain ⟨l, hnd, hl, ha⟩ := ih p hp
      refine ⟨x :: l, ?_, by simp [hl], ?_⟩
      · rw [List.nodup_cons]
        exact ⟨fun hxl => F.acyclic p x hm (ha x hxl), hnd⟩
      · intro y hy
        rcases List.mem_cons.1 hy with rfl | hy
        · exact .refl _
        · exact .step (ha y hy) hm
  cases hl : level K n h.fuel with
  | nil => rfl
  | cons x l =>
    exfalso
    obtain ⟨m, hnd, hlen, ha⟩ := key h.fuel x (by rw [hl]; simp)
    obtain ⟨c, hc, hm, -⟩ := v.chain x
    have := (hnd.subperm fun y hy => (hm y).2 (ha y hy)).length_le
    omega

/-- Breadth first search with a plain queue. -/
def bfs (K : Kids) : Nat → List Nat → Option (List Nat)
  | 0, _ => none
  | _ + 1, [] => some []
  | f + 1, x :: Q => (bfs K f (Q ++ K x)).map (x :: ·)

theorem bfs_level (K : Kids) (A : List Nat) : ∀ (B : List Nat) (f : Nat),
    bfs K (f + A.length) (A ++ B) = (bfs K f (B ++ A.flatMap K)).map (A ++ ·) := by
  induction A with
  | nil => intro B f; simp
  | cons x A ih =>
    intro B f
    have : f + (x :: A).length = (f + A.length) + 1 := by simp; omega
    rw [this]
    simp only [List.cons_append, bfs, List.append_assoc, ih, Option.map_map, List.flatMap_cons]
    rfl

theorem bfs_levels (K : Kids) (n : Nat) (m : Nat) (hm : level K n m = []) :
    ∃ f0, ∀ f, f0 ≤ f → bfs K f [n] = some ((List.range m).flatMap (level K n)) := by
  have key : ∀ j k, k + j = m → ∃ f0, ∀ f, f0 ≤ f →
      bfs K f (level K n k) = some ((List.range' k j).flatMap (level K n)) := by
    intro j
    induction j with
    | zero =>
      intro k hk
      refine ⟨1, fun f hf => ?_⟩
      have : k = m := by omega
      rw [this, hm]
      cases f with
      | zero => omega
      | succ f => simp [bfs]
    | succ j ih =>
      intro k hk
      obtain ⟨f0, h0⟩ := ih (k + 1) (by omega)
      refine ⟨f0 + (level K n k).length, fun f hf => ?_⟩
      obtain ⟨g, rfl⟩ : ∃ g, f = g + (level K n k).length := ⟨f - (level K n k).length, by omega⟩
      have := bfs_level K (level K n k) [] g
      rw [List.append_nil] at this
      rw [this, List.nil_append]
      have e := h0 g (by omega)
      have e' : level K n (k + 1) = (level K n k).flatMap K := rfl
      rw [e'] at e
      rw [e]
      simp [List.range'_succ]
  obtain ⟨f0, h0⟩ := key m 0 (by omega)
  refine ⟨f0, fun f hf => ?_⟩
  rw [List.range_eq_range']
  exact h0 f hf

/-- The queue of `Descendants` stands for the concatenation of the remaining siblings. -/
inductive Queue (K : Kids) : List Nat → List Nat → Prop
  | nil : Queue K [] []
  | cons {p x : Nat} {l1 l2 qs Q : List Nat} : K p = l1 ++ x :: l2 → Queue K qs Q → Queue K (x :: qs) (x :: l2 ++ Q)

theorem Queue.snoc {K : Kids} {qs Q : List Nat} (h : Queue K qs Q) (x : Nat) :
    Queue K (qs ++ (K x).head?.toList) (Q ++ K x) := by
  induction h with
  | nil =>
    cases hk : K x with
    | nil => exact .nil
    | cons c l => simpa using Queue.cons (l1 := []) hk .nil
  | cons e _ ih => simpa using Queue.cons e ih

theorem descendants_bfs {h : Hierarchy} {K : Kids} (r : Repr h.get K) (f : Nat) : ∀ {qs Q : List Nat}, Queue K qs Q →
    NextStates.collect h f (.descendants qs) = bfs K f Q := by
  induction f with
  | zero => intros; rfl
  | succ f ih =>
    intro qs Q hq
    cases hq with
    | nil => rfl
    | @cons p x l1 l2 qs' Q' e hq' =>
      have hn := (r.sib p l1 x l2 e).2.2
      have hf := r.first x
      have hq2 : Queue K (l2.head?.toList ++ qs') (l2 ++ Q') := by
        cases l2 with
        | nil => exact hq'
        | cons y l2 => exact Queue.cons (p := p) (l1 := l1 ++ [x]) (by rw [e]; simp) hq'
      have key := ih (hq2.snoc x)
      simp only [NextStates.collect, NextStates.step, Hierarchy.next, Hierarchy.first, hn, hf, List.cons_append, bfs]
      rw [← key]
      cases l2.head? <;> cases (K x).head? <;> simp

theorem descendants_collect {h : Hierarchy} {K : Kids} (r : Repr h.get K) (n f : Nat) :
    NextStates.collect h (f + 1) (h.descendants n) = bfs K (f + 1) [n] := by
  simp only [NextStates.collect, Hierarchy.descendants, NextStates.step, bfs, List.nil_append]
  have := descendants_bfs r f (Queue.nil.snoc (K := K) n)
  simp only [List.nil_append] at this
  rw [Hierarchy.first, r.first, this]

end Verif.Hier
