import Verif.Algo.DomProps
import Verif.Convex.LineProps
import Verif.Dyn.ConvexProps
import Verif.Lca.Props

/-!
# Lemmas on orders and dominators
-/

namespace Verif.Agree

open Verif (Direction)
open Verif.PG Verif.Algo Verif.Algo.Dom

theorem before_trans {l : List Nat} (hnd : l.Nodup) {a b c : Nat} (h1 : Before l a b) (h2 : Before l b c) : Before l a c := by
  rw [Dyn.before_iff] at *
  obtain ⟨i, j, hij, hi, hj⟩ := h1
  obtain ⟨i', j', hij', hi', hj'⟩ := h2
  have : j = i' := by
    have hl : j < l.length := by
      rw [List.getElem?_eq_some_iff] at hj; exact hj.1
    exact (List.getElem?_inj hl hnd).1 (hj.trans hi'.symm)
  exact ⟨i, j', by omega, hi, hj'⟩

/-- If arcs go forward then paths do. -/
theorem before_path {l : List Nat} (hnd : l.Nodup) {R : Nat → Nat → Prop} (h : ∀ a b, R a b → Before l a b) {a b : Nat}
    (hp : Relation.TransGen R a b) : Before l a b := by
  induction hp with
  | single h1 => exact h _ _ h1
  | tail _ h1 ih => exact before_trans hnd ih (h _ _ h1)

/-- An order in which all arcs go forward shows that there are no cycles. -/
theorem acyclic_of_before {l : List Nat} (hnd : l.Nodup) {R : Nat → Nat → Prop} (h : ∀ a b, R a b → Before l a b) : Acyclic R :=
  fun _ hn => Dyn.before_asymm hnd (before_path hnd h hn) (before_path hnd h hn)

theorem before_reverse {l : List Nat} {a b : Nat} : Before l.reverse a b ↔ Before l b a := by
  have key : ∀ (l : List Nat) (a b : Nat), Before l a b → Before l.reverse b a := by
    rintro l a b ⟨x, y, rfl, hx⟩
    obtain ⟨u, v, rfl⟩ := List.append_of_mem hx
    refine ⟨y.reverse ++ b :: v.reverse, u.reverse, by simp, by simp⟩
  exact ⟨fun h => by simpa using key _ _ _ h, fun h => key _ _ _ h⟩

theorem arc_reverse {g : PG} (hI : PG.Inv g) {d : Direction} {m n : Nat} : Arc g d.reverse m n ↔ Arc g d n m := by
  unfold Arc
  constructor <;> rintro ⟨j, k, h⟩
  · exact ⟨k, j, by have := (abs_wf hI).sym _ _ h; cases d <;> exact this⟩
  · exact ⟨k, j, by have := (abs_wf hI).sym _ _ h; cases d <;> exact this⟩

theorem acyclic_reverse {g : PG} (hI : PG.Inv g) {d : Direction} : Acyclic (Arc g d.reverse) ↔ Acyclic (Arc g d) := by
  have hsw : Arc g d.reverse = Function.swap (Arc g d) := by
    funext a b
    exact propext (arc_reverse hI)
  unfold Acyclic
  rw [hsw]
  simp only [Relation.transGen_swap]

theorem walk_reach {R : Nat → Nat → Prop} {e n : Nat} {l : List Nat} (h : Walk R e l n) : Relation.ReflTransGen R e n := by
  induction h with
  | root => exact .refl
  | step _ h ih => exact ih.tail h

theorem reach_walk {R : Nat → Nat → Prop} {e n : Nat} (h : Relation.ReflTransGen R e n) : ∃ l, Walk R e l n := by
  induction h with
  | refl => exact ⟨_, .root⟩
  | tail _ h ih =>
    obtain ⟨l, hl⟩ := ih
    exact ⟨_, .step hl h⟩

theorem dominates_trans {R : Nat → Nat → Prop} {e a b c : Nat} (h1 : Dominates R e c b) (h2 : Dominates R e b a) : Dominates R e c a := by
  intro l hl
  obtain ⟨l', hl', hs⟩ := hl.suffix (h2 l hl)
  exact hs.subset (h1 l' hl')

/-- The dominators of a node are those on the chain of immediate dominators. -/
theorem dominates_chain {R : Nat → Nat → Prop} {e : Nat} {idom : Nat → Option Nat}
    (h : ∀ n c, idom n = some c → ImmDom R e c n) (hs : ∀ n, n ≠ e → Relation.ReflTransGen R e n → (idom n).isSome = true)
    {n c : Nat} (hn : Relation.ReflTransGen R e n) : Dominates R e c n ↔ Relation.ReflTransGen (fun a b => idom a = some b) n c := by
  obtain ⟨l, hl⟩ := reach_walk hn
  constructor
  · intro hd
    induction hk : l.length using Nat.strong_induction_on generalizing l n with
    | _ k ih =>
      subst hk
      by_cases hcn : c = n
      · subst hcn; exact .refl
      cases hl with
      | root => exact absurd hd.root hcn
      | @step l m _ hl hmn =>
        have hne : n ≠ e := by
          rintro rfl
          exact hcn hd.root
        obtain ⟨k, hk⟩ := Option.isSome_iff_exists.1 (hs n hne hn)
        obtain ⟨i1, i2, i3⟩ := h n k hk
        have hkl : k ∈ l := by
          rcases List.mem_cons.1 (i2 _ (.step hl hmn)) with rfl | hx
          · exact absurd rfl i1
          · exact hx
        obtain ⟨l', hl', hsuf⟩ := hl.suffix hkl
        have hlen := hsuf.length_le
        exact .head hk (ih l'.length (by rw [List.length_cons]; omega) (walk_reach hl') l' hl' (i3 c hcn hd) rfl)
  · intro hc
    induction hc with
    | refl => exact fun l hl => hl.mem
    | tail _ hb ih => exact dominates_trans (h _ _ hb).2.1 ih

/-- The filter that leaves out the node `c`. -/
def except (c : Nat) : Filter := ⟨fun x => x != c, fun _ _ => true⟩

theorem farc_except {g : PG} (hI : PG.Inv g) {d : Direction} {c n m : Nat} : FArc g (except c) d n m ↔ Arc g d n m ∧ m ≠ c := by
  rw [← farc_all hI]
  unfold FArc except Filter.all
  simp only [bne_iff_ne, true_and, and_true]
  constructor
  · rintro ⟨p, h1, q, h2, h3, h4⟩
    exact ⟨⟨p, h1, q, h2, h3⟩, h4⟩
  · rintro ⟨⟨p, h1, q, h2, h3⟩, h4⟩
    exact ⟨p, h1, q, h2, h3, h4⟩

theorem walk_except {R : Nat → Nat → Prop} {e c n : Nat} (he : e ≠ c) :
    Relation.ReflTransGen (fun a b => R a b ∧ b ≠ c) e n ↔ ∃ l, Walk R e l n ∧ c ∉ l := by
  constructor
  · intro h
    induction h with
    | refl => exact ⟨[e], .root, by simpa using he.symm⟩
    | tail _ h ih =>
      obtain ⟨l, h1, h2⟩ := ih
      exact ⟨_, .step h1 h.1, by simp only [List.mem_cons, not_or]; exact ⟨h.2.symm, h2⟩⟩
  · rintro ⟨l, h1, h2⟩
    induction h1 with
    | root => exact .refl
    | step _ h ih =>
      simp only [List.mem_cons, not_or] at h2
      exact (ih h2.2).tail ⟨h, Ne.symm h2.1⟩

theorem walk_root {R : Nat → Nat → Prop} {e n : Nat} {l : List Nat} (h : Walk R e l n) : e ∈ l := by
  induction h with
  | root => simp
  | step _ _ ih => exact List.mem_cons_of_mem _ ih

end Verif.Agree
