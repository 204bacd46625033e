import Verif.Algo.PostModel
import Verif.Algo.TopoLemmas
import Verif.Algo.Order

/-! The invariant of the post-order traversal. -/

namespace Verif.Algo

open Verif (Direction)

namespace Post

/-- The node a port leads to, if the filters let the traversal go there. -/
def target (G : View) (F : Filter) (node p : Nat) : Option Nat :=
  if F.port node p then
    match (G.links p).head? with
    | none => none
    | some q =>
      match G.portNode q with
      | none => none
      | some m => if F.node m && F.port m q then some m else none
  else none

/-- The successors of a node, in port order. -/
def succs (G : View) (F : Filter) (d : Direction) (n : Nat) : List Nat := (G.ports n d).filterMap (target G F n)

theorem pushLoop_eq (G : View) (F : Filter) (cap n : Nat) (v : Nat → Bool)
    (hport : ∀ p q, (G.links p).head? = some q → ∃ m, G.portNode q = some m ∧ m < cap) (ps st : List Nat) :
    pushLoop G F cap n v ps st = some (((ps.filterMap (target G F n)).filter fun m => !v m).reverse ++ st) := by
  induction ps generalizing st with
  | nil => simp [pushLoop]
  | cons p ps ih =>
    unfold pushLoop
    cases ha : F.port n p with
    | false =>
      have ht : target G F n p = none := by simp [target, ha]
      simp [ih, List.filterMap_cons, ht]
    | true =>
      simp only [Bool.not_true, Bool.false_eq_true, if_false]
      cases hl : (G.links p).head? with
      | none =>
        have ht : target G F n p = none := by simp [target, ha, hl]
        simp [ih, List.filterMap_cons, ht]
      | some q =>
        obtain ⟨m, hm, hc⟩ := hport p q hl
        simp only [hm]
        by_cases hf : (!F.node m || !F.port m q) = true
        · rw [if_pos hf]
          have ht : target G F n p = none := by
            simp only [Bool.or_eq_true, Bool.not_eq_true'] at hf
            rcases hf with hf | hf <;> simp [target, ha, hl, hm, hf]
          simp [ih, List.filterMap_cons, ht]
        · rw [if_neg hf, if_neg (by omega)]
          have ht : target G F n p = some m := by
            simp only [Bool.or_eq_true, Bool.not_eq_true', not_or, Bool.not_eq_false] at hf
            simp [target, ha, hl, hm, hf]
          by_cases hv : v m = true
          · rw [if_pos hv, ih, List.filterMap_cons, ht]
            simp [hv]
          · rw [if_neg hv, ih, List.filterMap_cons, ht]
            simp [hv]

/-- The part of a stack above the first entry `y`. -/
def above (y : Nat) : List Nat → List Nat
  | [] => []
  | x :: l => if x = y then [] else x :: above y l

theorem above_append {y : Nat} {a b : List Nat} (h : y ∉ a) : above y (a ++ b) = a ++ above y b := by
  induction a with
  | nil => rfl
  | cons x a ih =>
    rw [List.mem_cons, not_or] at h
    simp [above, Ne.symm h.1, ih h.2]

theorem above_top {y : Nat} {b : List Nat} : above y (y :: b) = [] := by simp [above]

theorem above_cons {x y : Nat} {b : List Nat} (h : x ≠ y) : above y (x :: b) = x :: above y b := by simp [above, h]

/-- The state between two rounds: `R` is the successor relation, `S` the sources, `out` the nodes
yielded. -/
structure PInv (R : Nat → Nat → Prop) (S out : List Nat) (s : Post) : Prop where
  reach : ∀ x, x ∈ s.stack ∨ s.visited x = true → ∃ r ∈ S, Relation.ReflTransGen R r x
  finV : ∀ x, s.finished x = true → s.visited x = true
  outF : ∀ x, x ∈ out ↔ s.finished x = true
  nodup : out.Nodup
  gray : ∀ x, s.visited x = true → s.finished x = false → x ∈ s.stack
  closed : ∀ y z, s.visited y = true → R y z → s.visited z = true ∨ z ∈ s.stack
  srcs : ∀ r ∈ S, s.visited r = true ∨ r ∈ s.stack
  anc : ∀ y, s.visited y = true → s.finished y = false → ∀ x ∈ above y s.stack, Relation.TransGen R y x
  kids : ∀ y, s.visited y = true → s.finished y = false → ∀ z, R y z →
    s.finished z = true ∨ z ∈ above y s.stack ∨ Relation.ReflTransGen R z y
  order : ∀ y ∈ out, ∀ z, R y z → Before out z y ∨ Relation.ReflTransGen R z y
  seen : s.seen = out.length

theorem PInv.new (R : Nat → Nat → Prop) (F : Filter) (S : List Nat) : PInv R (S.filter F.node) [] (new F S) where
  reach x h := by
    rcases h with h | h
    · exact ⟨x, h, .refl⟩
    · simp [Post.new] at h
  finV := by simp [Post.new]
  outF := by simp [Post.new]
  nodup := by simp
  gray := by simp [Post.new]
  closed := by simp [Post.new]
  srcs r h := .inr h
  anc := by simp [Post.new]
  kids := by simp [Post.new]
  order := by simp
  seen := rfl

/-- First visit of the top of the stack. -/
theorem PInv.visit {R S out} {s : Post} (h : PInv R S out s) {n st} (hst : s.stack = n :: st) (hv : s.visited n = false)
    {ch : List Nat} (hch : ∀ m, m ∈ ch ↔ R n m ∧ s.visited m = false ∧ m ≠ n) :
    PInv R S out { s with visited := setBit s.visited n true, stack := ch ++ s.stack } := by
  have hf : s.finished n = false := by
    cases hf : s.finished n with
    | false => rfl
    | true => rw [h.finV n hf] at hv; simp at hv
  have hnot : ∀ y, s.visited y = true → y ∉ ch := by
    intro y hy hc
    have := ((hch y).1 hc).2.1
    rw [hy] at this; simp at this
  have hnn : n ∉ ch := fun hc => ((hch n).1 hc).2.2 rfl
  have hreach : ∃ r ∈ S, Relation.ReflTransGen R r n := h.reach n (.inl (by simp [hst]))
  have hne : ∀ y, s.visited y = true → y ≠ n := by rintro y hy rfl; rw [hy] at hv; simp at hv
  refine { reach := ?_, finV := ?_, outF := h.outF, nodup := h.nodup, gray := ?_, closed := ?_, srcs := ?_, anc := ?_, kids := ?_, order := h.order, seen := h.seen }
  · intro x hx
    simp only [List.mem_append, setBit_get] at hx
    by_cases e : x = n
    · rw [e]; exact hreach
    · rcases hx with (hx | hx) | hx
      · obtain ⟨r, hr, hp⟩ := hreach
        exact ⟨r, hr, hp.tail ((hch x).1 hx).1⟩
      · exact h.reach x (.inl hx)
      · rw [if_neg e] at hx; exact h.reach x (.inr hx)
  · intro x hx
    have := h.finV x hx
    simp only [setBit_get]; split <;> simp [this]
  · intro x hx hxf
    simp only [setBit_get] at hx
    simp only [List.mem_append]
    split at hx
    · next e => subst e; right; simp [hst]
    · exact .inr (h.gray x hx hxf)
  · intro y z hy hyz
    simp only [setBit_get, List.mem_append] at hy ⊢
    by_cases e : z = n
    · left; simp [e]
    · rw [if_neg e]
      split at hy
      · next e2 =>
        subst e2
        cases hvz : s.visited z with
        | true => exact .inl rfl
        | false => exact .inr (.inl ((hch z).2 ⟨hyz, hvz, e⟩))
      · rcases h.closed y z hy hyz with a | a
        · exact .inl a
        · exact .inr (.inr a)
  · intro r hr
    simp only [setBit_get, List.mem_append]
    rcases h.srcs r hr with a | a
    · left; split <;> simp [a]
    · exact .inr (.inr a)
  · intro y hy hyf x hx
    simp only [setBit_get] at hy hx
    simp only at hyf
    split at hy
    · next e =>
      subst e
      rw [above_append hnn, hst, above_top, List.append_nil] at hx
      exact .single ((hch x).1 hx).1
    · next e =>
      rw [above_append (hnot y hy)] at hx
      rw [List.mem_append] at hx
      have hyn : Relation.TransGen R y n := h.anc y hy hyf n (by rw [hst, above_cons (Ne.symm e)]; simp)
      rcases hx with hx | hx
      · exact hyn.tail ((hch x).1 hx).1
      · exact h.anc y hy hyf x hx
  · intro y hy hyf z hyz
    simp only [setBit_get] at hy
    simp only at hyf ⊢
    split at hy
    · next e =>
      subst e
      rw [above_append hnn]
      by_cases ez : z = y
      · right; right; rw [ez]
      · cases hvz : s.visited z with
        | false => right; left; simp [(hch z).2 ⟨hyz, hvz, ez⟩]
        | true =>
          cases hfz : s.finished z with
          | true => exact .inl rfl
          | false =>
            right; right
            exact (h.anc z hvz hfz y (by rw [hst, above_cons (Ne.symm ez)]; simp)).to_reflTransGen
    · next e =>
      rw [above_append (hnot y hy)]
      rcases h.kids y hy hyf z hyz with a | a | a
      · exact .inl a
      · exact .inr (.inl (by simp [a]))
      · exact .inr (.inr a)

/-- The top of the stack was finished before. -/
theorem PInv.skip {R S out} {s : Post} (h : PInv R S out s) {n st} (hst : s.stack = n :: st) (hf : s.finished n = true) :
    PInv R S out { s with stack := st } := by
  have hv := h.finV n hf
  have hne : ∀ y, s.finished y = false → n ≠ y := by rintro y hy rfl; rw [hf] at hy; simp at hy
  refine { h with reach := ?_, gray := ?_, closed := ?_, srcs := ?_, anc := ?_, kids := ?_ }
  · intro x hx; exact h.reach x (hx.imp_left (fun hx => by rw [hst]; simp at hx; simp [hx]))
  · intro x hx hxf
    have := h.gray x hx hxf
    rw [hst, List.mem_cons] at this
    exact this.resolve_left (fun e => hne x hxf e.symm)
  · intro y z hy hyz
    rcases h.closed y z hy hyz with a | a
    · exact .inl a
    · rw [hst, List.mem_cons] at a
      rcases a with rfl | a
      · exact .inl hv
      · exact .inr a
  · intro r hr
    rcases h.srcs r hr with a | a
    · exact .inl a
    · rw [hst, List.mem_cons] at a
      rcases a with rfl | a
      · exact .inl hv
      · exact .inr a
  · intro y hy hyf x hx
    exact h.anc y hy hyf x (by rw [hst, above_cons (hne y hyf)]; exact List.mem_cons_of_mem _ hx)
  · intro y hy hyf z hyz
    rcases h.kids y hy hyf z hyz with a | a | a
    · exact .inl a
    · rw [hst, above_cons (hne y hyf), List.mem_cons] at a
      rcases a with rfl | a
      · exact .inl hf
      · exact .inr (.inl a)
    · exact .inr (.inr a)

/-- The top of the stack is yielded. -/
theorem PInv.finish {R S out} {s : Post} (h : PInv R S out s) {n st} (hst : s.stack = n :: st) (hv : s.visited n = true)
    (hf : s.finished n = false) :
    PInv R S (out ++ [n]) { s with finished := setBit s.finished n true, stack := st, seen := s.seen + 1 } := by
  have hno : n ∉ out := fun hc => by rw [(h.outF n).1 hc] at hf; simp at hf
  refine { reach := ?_, finV := ?_, outF := ?_, nodup := ?_, gray := ?_, closed := ?_, srcs := ?_, anc := ?_, kids := ?_, order := ?_, seen := ?_ }
  · intro x hx; exact h.reach x (hx.imp_left (fun hx => by rw [hst]; simp at hx; simp [hx]))
  · intro x hx
    simp only [setBit_get] at hx
    split at hx
    · next e => subst e; exact hv
    · exact h.finV x hx
  · intro x
    simp only [List.mem_append, List.mem_singleton, setBit_get, h.outF]
    split
    · next e => simp [e]
    · next e => simp [e]
  · rw [List.nodup_append]; exact ⟨h.nodup, by simp, by rintro a ha b hb rfl; simp at hb; exact hno (hb ▸ ha)⟩
  · intro x hx hxf
    simp only [setBit_get] at hxf
    split at hxf
    · simp at hxf
    · next e =>
      have := h.gray x hx hxf
      rw [hst, List.mem_cons] at this
      exact this.resolve_left e
  · intro y z hy hyz
    rcases h.closed y z hy hyz with a | a
    · exact .inl a
    · rw [hst, List.mem_cons] at a
      rcases a with rfl | a
      · exact .inl hv
      · exact .inr a
  · intro r hr
    rcases h.srcs r hr with a | a
    · exact .inl a
    · rw [hst, List.mem_cons] at a
      rcases a with rfl | a
      · exact .inl hv
      · exact .inr a
  · intro y hy hyf x hx
    simp only [setBit_get] at hyf
    split at hyf
    · simp at hyf
    · next e =>
      exact h.anc y hy hyf x (by rw [hst, above_cons (Ne.symm e)]; exact List.mem_cons_of_mem _ hx)
  · intro y hy hyf z hyz
    simp only [setBit_get] at hyf ⊢
    split at hyf
    · simp at hyf
    · next e =>
      rcases h.kids y hy hyf z hyz with a | a | a
      · left; split <;> simp [a]
      · rw [hst, above_cons (Ne.symm e), List.mem_cons] at a
        rcases a with rfl | a
        · left; simp
        · exact .inr (.inl a)
      · exact .inr (.inr a)
  · intro y hy z hyz
    rw [List.mem_append, List.mem_singleton] at hy
    rcases hy with hy | rfl
    · rcases h.order y hy z hyz with ⟨a, b, hab, hz⟩ | hz
      · exact .inl ⟨a, b ++ [n], by rw [hab]; simp, hz⟩
      · exact .inr hz
    · rcases h.kids y hv hf z hyz with a | a | a
      · exact .inl ⟨out, [], rfl, (h.outF z).2 a⟩
      · rw [hst, above_top] at a; simp at a
      · exact .inr a
  · simp [h.seen]

/-- The rounds left: the stack and the unvisited nodes with their ports. -/
def pot (G : View) (d : Direction) (cap : Nat) (s : Post) : Nat :=
  s.stack.length + ((List.range cap).map fun x => if s.visited x then 0 else 1 + (G.ports x d).length).sum

theorem sum_set {l : List Nat} (hl : l.Nodup) {n : Nat} (hn : n ∈ l) (v : Nat → Bool) (hv : v n = false) (f : Nat → Nat) :
    (l.map fun x => if v x then 0 else f x).sum = (l.map fun x => if setBit v n true x then 0 else f x).sum + f n := by
  induction l with
  | nil => simp at hn
  | cons x l ih =>
    rw [List.nodup_cons] at hl
    simp only [List.map_cons, List.sum_cons]
    rw [List.mem_cons] at hn
    by_cases e : n = x
    · subst e
      have : (l.map fun x => if v x then 0 else f x) = l.map fun x => if setBit v n true x then 0 else f x := by
        apply List.map_congr_left
        intro y hy
        have hyn : y ≠ n := by rintro rfl; exact hl.1 hy
        simp [setBit_get, hyn]
      rw [this]
      simp [hv, setBit_get]
      omega
    · rw [ih hl.2 (hn.resolve_left e), setBit_get, if_neg (Ne.symm e)]
      omega

theorem next_ok {G : View} {F d cap} (R : Nat → Nat → Prop) (hR : ∀ n m, R n m ↔ m ∈ succs G F d n)
    (hport : ∀ p q, (G.links p).head? = some q → ∃ m, G.portNode q = some m ∧ m < cap)
    {S out} (fuel : Nat) : ∀ {s : Post}, PInv R S out s → (∀ x ∈ s.stack, x < cap) → pot G d cap s < fuel →
    ∃ x s', next G F d cap fuel s = some (x, s') ∧ (∀ x ∈ s'.stack, x < cap) ∧
      ((x = none ∧ PInv R S out s' ∧ s'.stack = []) ∨
       ∃ n, x = some n ∧ PInv R S (out ++ [n]) s' ∧ pot G d cap s' < pot G d cap s) := by
  induction fuel with
  | zero => intro s _ _ h; omega
  | succ fuel ih =>
    intro s h hcap hpot
    unfold next
    cases hst : s.stack with
    | nil => exact ⟨none, s, rfl, hcap, .inl ⟨rfl, h, hst⟩⟩
    | cons n st =>
      have hn : n < cap := hcap n (by simp [hst])
      simp only
      rw [if_neg (by omega)]
      cases hv : s.visited n with
      | false =>
        simp only [Bool.not_false, if_true]
        rw [pushLoop_eq G F cap n _ hport]
        simp only
        have hrev : (((G.ports n d).reverse.filterMap (target G F n)).filter fun m => !setBit s.visited n true m).reverse =
            ((succs G F d n).filter fun m => !setBit s.visited n true m) := by
          rw [List.filterMap_reverse, List.filter_reverse, List.reverse_reverse]; rfl
        rw [hrev, ← hst]
        have hch : ∀ m, m ∈ ((succs G F d n).filter fun m => !setBit s.visited n true m) ↔ R n m ∧ s.visited m = false ∧ m ≠ n := by
          intro m
          rw [List.mem_filter, hR, setBit_get]
          by_cases e : m = n
          · simp [e]
          · simp [e]
        have h' := h.visit hst hv hch
        have hpot' : pot G d cap { s with visited := setBit s.visited n true, stack := ((succs G F d n).filter fun m => !setBit s.visited n true m) ++ s.stack } < pot G d cap s := by
          have h1 := sum_set (l := List.range cap) List.nodup_range (List.mem_range.2 hn) s.visited hv (fun x => 1 + (G.ports x d).length)
          have h2 : ((succs G F d n).filter fun m => !setBit s.visited n true m).length ≤ (G.ports n d).length :=
            Nat.le_trans (List.length_filter_le _ _) (List.length_filterMap_le _ _)
          simp only [pot, List.length_append]
          rw [h1]
          omega
        obtain ⟨x, s', e1, e2, e3⟩ := ih h' (by
          intro x hx
          simp only [List.mem_append, List.mem_filter] at hx
          rcases hx with ⟨hx, _⟩ | hx
          · simp only [succs, List.mem_filterMap] at hx
            obtain ⟨p, _, hx⟩ := hx
            simp only [target] at hx
            split at hx
            · split at hx
              · simp at hx
              · next q hq =>
                obtain ⟨m, hm, hc⟩ := hport p q hq
                rw [hm] at hx
                simp only at hx
                split at hx
                · simp at hx; omega
                · simp at hx
            · simp at hx
          · exact hcap x hx) (by omega)
        refine ⟨x, s', e1, e2, ?_⟩
        rcases e3 with a | ⟨m, a, b, c⟩
        · exact .inl a
        · exact .inr ⟨m, a, b, by omega⟩
      | true =>
        simp only [Bool.not_true, Bool.false_eq_true, if_false]
        have hcap' : ∀ x ∈ st, x < cap := fun x hx => hcap x (by simp [hst, hx])
        cases hf : s.finished n with
        | false =>
          simp only [Bool.not_false, if_true]
          exact ⟨_, _, rfl, hcap', .inr ⟨n, rfl, h.finish hst hv hf, by simp [pot, hst]⟩⟩
        | true =>
          simp only [Bool.not_true, Bool.false_eq_true, if_false]
          have hp : pot G d cap { s with stack := st } < pot G d cap s := by simp [pot, hst]
          obtain ⟨x, s', e1, e2, e3⟩ := ih (s := { s with stack := st }) (h.skip hst hf) hcap' (by omega)
          refine ⟨x, s', e1, e2, ?_⟩
          rcases e3 with a | ⟨m, a, b, c⟩
          · exact .inl a
          · exact .inr ⟨m, a, b, by omega⟩

theorem collect_ok {G : View} {F d cap} (R : Nat → Nat → Prop) (hR : ∀ n m, R n m ↔ m ∈ succs G F d n)
    (hport : ∀ p q, (G.links p).head? = some q → ∃ m, G.portNode q = some m ∧ m < cap)
    {S} (fuel k : Nat) : ∀ {out} {s : Post}, PInv R S out s → (∀ x ∈ s.stack, x < cap) → pot G d cap s < fuel → pot G d cap s < k →
    ∃ l s', collect G F d cap fuel k s = some (l, s') ∧ PInv R S (out ++ l) s' ∧ s'.stack = [] := by
  induction k with
  | zero => intro out s _ _ _ h; omega
  | succ k ih =>
    intro out s h hcap hf hk
    obtain ⟨x, s1, e1, e2, e3⟩ := next_ok R hR hport fuel h hcap hf
    unfold collect
    rw [e1]
    rcases e3 with ⟨rfl, a, b⟩ | ⟨n, rfl, a, b⟩
    · exact ⟨[], s1, rfl, by simpa using a, b⟩
    · obtain ⟨l, s', c1, c2, c3⟩ := ih a e2 (by omega) (by omega)
      exact ⟨n :: l, s', by simp [c1], by simpa using c2, c3⟩

end Post

theorem postorder_ok {G : View} {F : Filter} {d cap} (R : Nat → Nat → Prop) (hR : ∀ n m, R n m ↔ m ∈ Post.succs G F d n)
    (hport : ∀ p q, (G.links p).head? = some q → ∃ m, G.portNode q = some m ∧ m < cap)
    {S : List Nat} (hS : ∀ n ∈ S, n < cap) :
    ∃ l s, postorder G F d cap S = some (l, s) ∧ l.Nodup ∧
      (∀ n, n ∈ l ↔ ∃ r ∈ S, F.node r = true ∧ Relation.ReflTransGen R r n) ∧
      (∀ n ∈ l, ∀ m, R n m → Before l m n ∨ Relation.ReflTransGen R m n) ∧ s.seen = l.length := by
  have h0 := Post.PInv.new R F S
  have hlen := List.length_filter_le F.node S
  obtain ⟨l, s, e, h, hst⟩ := Post.collect_ok R hR hport (Post.fuel G d cap S) (Post.fuel G d cap S) h0
    (by intro x hx; exact hS x (List.mem_filter.1 hx).1)
    (by simp [Post.pot, Post.new, Post.fuel]; omega) (by simp [Post.pot, Post.new, Post.fuel]; omega)
  rw [List.nil_append] at h
  have hvf : ∀ x, s.visited x = true → x ∈ l := by
    intro x hx
    rw [h.outF]
    by_contra hc
    have := h.gray x hx (by simpa using hc)
    rw [hst] at this; simp at this
  refine ⟨l, s, e, h.nodup, ?_, h.order, h.seen⟩
  intro n
  constructor
  · intro hn
    obtain ⟨r, hr, hp⟩ := h.reach n (.inr (h.finV n ((h.outF n).1 hn)))
    rw [List.mem_filter] at hr
    exact ⟨r, hr.1, hr.2, hp⟩
  · rintro ⟨r, hr, hF, hp⟩
    have hv : s.visited n = true := by
      induction hp with
      | refl =>
        rcases h.srcs r (List.mem_filter.2 ⟨hr, hF⟩) with a | a
        · exact a
        · rw [hst] at a; simp at a
      | tail _ hyz ih =>
        rcases h.closed _ _ ih hyz with a | a
        · exact a
        · rw [hst] at a; simp at a
    exact hvf n hv

end Verif.Algo
