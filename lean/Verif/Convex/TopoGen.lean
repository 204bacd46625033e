import Verif.Convex.TopoLemmas
import Verif.Algo.Order

/-!
# The checker for an arbitrary relation
-/

namespace Verif.Convex

open Verif (Direction)
open Verif.Algo

theorem mem_neighbours {G : View} (hG : G.WF) {m n : Nat} {d : Direction} :
    n ∈ neighbours G m d ↔ VArc G d m n := by
  unfold neighbours VArc
  simp only [List.mem_flatMap, List.mem_filterMap]
  constructor
  · rintro ⟨p, hp, q, hq, hn⟩
    obtain ⟨n', hn'⟩ := hG.link_dir _ _ _ _ hp hq
    have := (hG.ports_node _ _ _ hn').1
    rw [this] at hn; simp at hn; subst hn
    exact ⟨p, hp, q, hq, hn'⟩
  · rintro ⟨p, hp, q, hq, hn⟩
    exact ⟨p, hp, q, hq, (hG.ports_node _ _ _ hn).1⟩

theorem idxOf_before {l : List Nat} (hl : l.Nodup) {m n : Nat} (h : Before l m n) : l.idxOf m < l.idxOf n := by
  obtain ⟨a, b, rfl, hm⟩ := h
  have hn : n ∉ a := by
    intro hn
    exact (List.nodup_append.1 hl).2.2 _ hn n (by simp) rfl
  rw [List.idxOf_append_of_mem hm, List.idxOf_append_of_notMem hn]
  have := List.idxOf_lt_length_iff.2 hm
  simp; omega

variable {c : Topo} {R : Nat → Nat → Prop}

theorem iarc_iff (hnb : ∀ m ∈ c.order, ∀ n, n ∈ neighbours c.graph m .outgoing ↔ R m n) {i j : Nat} :
    c.IArc i j ↔ ∃ m n, c.order[i]? = some m ∧ R m n ∧ j = c.ind n := by
  unfold Topo.IArc
  simp only [List.mem_map]
  constructor
  · rintro ⟨m, hm, n, hn, rfl⟩; exact ⟨m, n, hm, (hnb m (List.mem_of_getElem? hm) n).1 hn, rfl⟩
  · rintro ⟨m, n, hm, hn, rfl⟩; exact ⟨m, hm, n, (hnb m (List.mem_of_getElem? hm) n).2 hn, rfl⟩

theorem checker_forward (hnd : c.order.Nodup) (harc : ∀ m n, R m n → Before c.order m n)
    (hind : ∀ n ∈ c.order, c.ind n = c.order.idxOf n)
    (hnb : ∀ m ∈ c.order, ∀ n, n ∈ neighbours c.graph m .outgoing ↔ R m n) : c.Forward := by
  intro i j h
  obtain ⟨m, n, hm, ha, rfl⟩ := (iarc_iff hnb).1 h
  have hb := harc _ _ ha
  obtain ⟨hm', hn'⟩ := before_index hb
  rw [hind n hn']
  have h1 := idxOf_before hnd hb
  obtain ⟨hi, rfl⟩ := List.getElem?_eq_some_iff.1 hm
  rw [List.Nodup.idxOf_getElem hnd] at h1
  exact ⟨h1, List.idxOf_lt_length_iff.2 hn'⟩

/-- Convexity of positions is convexity of nodes. -/
theorem convex_pos (hnd : c.order.Nodup) (harc : ∀ m n, R m n → Before c.order m n)
    (hind : ∀ n ∈ c.order, c.ind n = c.order.idxOf n)
    (hnb : ∀ m ∈ c.order, ∀ n, n ∈ neighbours c.graph m .outgoing ↔ R m n) {S : List Nat}
    (hS : ∀ n ∈ S, n ∈ c.order) :
    Convex c.IArc (toSet (S.map c.ind)) ↔ Convex R S := by
  have hget : ∀ n ∈ c.order, c.order[c.order.idxOf n]? = some n := by
    intro n hn
    rw [List.getElem?_eq_getElem (List.idxOf_lt_length_iff.2 hn)]
    simp
  constructor
  · intro h s hs t ht x hsx hxt
    have lift : ∀ a b, R a b →
        c.IArc (c.ind a) (c.ind b) := by
      intro a b hab
      have ha := (before_index (harc _ _ hab)).1
      rw [iarc_iff hnb, hind _ ha]
      exact ⟨a, b, hget a ha, hab, rfl⟩
    have hx := h _ (mem_toSet.2 (List.mem_map_of_mem hs)) _ (mem_toSet.2 (List.mem_map_of_mem ht)) _
      (Relation.ReflTransGen.lift _ lift _ _ hsx) (Relation.ReflTransGen.lift _ lift _ _ hxt)
    obtain ⟨y, hy, e⟩ := List.mem_map.1 (mem_toSet.1 hx)
    have hy' := hS y hy
    have hx' : x ∈ c.order := by
      cases Relation.ReflTransGen.cases_tail hsx with
      | inl e => exact e ▸ hS s hs
      | inr h => obtain ⟨z, _, h⟩ := h; exact (before_index (harc _ _ h)).2
    rw [hind _ hy', hind _ hx'] at e
    have : some y = some x := by rw [← hget y hy', ← hget x hx', e]
    simp at this
    exact this ▸ hy
  · intro h i hi j hj x hix hxj
    obtain ⟨s, hs, rfl⟩ := List.mem_map.1 (mem_toSet.1 hi)
    obtain ⟨t, ht, rfl⟩ := List.mem_map.1 (mem_toSet.1 hj)
    have hs' := hS s hs
    have ht' := hS t ht
    rw [hind _ hs'] at hix
    rw [hind _ ht'] at hxj
    have lift : ∀ a b, c.IArc a b → R (c.order.getD a 0) (c.order.getD b 0) := by
      intro a b hab
      obtain ⟨m, n, hm, hmn, rfl⟩ := (iarc_iff hnb).1 hab
      have hn := (before_index (harc _ _ hmn)).2
      rw [hind _ hn, List.getD_eq_getElem?_getD, List.getD_eq_getElem?_getD, hm, hget n hn]
      exact hmn
    have hd : ∀ n ∈ c.order, c.order.getD (c.order.idxOf n) 0 = n := by
      intro n hn
      rw [List.getD_eq_getElem?_getD, hget n hn]; rfl
    have h1 := Relation.ReflTransGen.lift _ lift _ _ hix
    have h2 := Relation.ReflTransGen.lift _ lift _ _ hxj
    simp only [Function.onFun] at h1 h2
    rw [hd s hs'] at h1
    rw [hd t ht'] at h2
    have hx := h s hs t ht _ h1 h2
    have hle := (checker_forward hnd harc hind hnb).le hxj
    have hlt : x < c.order.length := by
      have := List.idxOf_lt_length_iff.2 ht'
      omega
    rw [List.getD_eq_getElem?_getD, List.getElem?_eq_getElem hlt] at hx
    simp only [Option.getD_some] at hx
    refine mem_toSet.2 (List.mem_map.2 ⟨_, hx, ?_⟩)
    rw [hind _ (by simp), List.Nodup.idxOf_getElem hnd]

/-- The search decides convexity. -/
theorem checker_ok (hnd : c.order.Nodup) (harc : ∀ m n, R m n → Before c.order m n)
    (hind : ∀ n ∈ c.order, c.ind n = c.order.idxOf n)
    (hnb : ∀ m ∈ c.order, ∀ n, n ∈ neighbours c.graph m .outgoing ↔ R m n) {S : List Nat}
    (hS : ∀ n ∈ S, n ∈ c.order) : ∃ r, c.isNodeConvex S = some r ∧ (r = true ↔ Convex R S) := by
  obtain ⟨r, h1, h2⟩ := Topo.search_ok (S := S) (checker_forward hnd harc hind hnb) (by
    intro n hn
    rw [hind n (hS n hn)]
    exact List.idxOf_lt_length_iff.2 (hS n hn))
  exact ⟨r, h1, by rw [h2, convex_pos hnd harc hind hnb hS]⟩

end Verif.Convex
