import Verif.Convex.LineSearch
import Verif.Convex.TopoProps
import Mathlib.Data.List.Chain

/-!
# Construction of the line partition

For any number of links per port.
-/

namespace Verif.Convex

open Verif (Direction)
open Verif.Algo

/-- The links of a node in direction `d`: the port at the node and the other port. -/
def lk (G : View) (n : Nat) (d : Direction) : List (Nat × Nat) :=
  (G.ports n d).flatMap fun p => (G.links p).map fun q => (p, q)

/-- As many links are shown from `p` to `q` as from `q` to `p`. -/
def CountSym (G : View) : Prop := ∀ p q, (G.links p).count q = (G.links q).count p

theorem Single.countSym {G : View} (hG : G.WF) (hs : G.Single) : CountSym G := by
  have key : ∀ p q, q ∈ G.links p → (G.links p).count q = 1 := by
    intro p q h
    have := hs p
    match hl : G.links p, this with
    | [], _ => rw [hl] at h; simp at h
    | [a], _ => rw [hl] at h; simp at h; subst h; simp
  intro p q
  by_cases h : q ∈ G.links p
  · rw [key p q h, key q p (hG.link_sym _ _ h)]
  · rw [List.count_eq_zero_of_not_mem h, List.count_eq_zero_of_not_mem fun h' => h (hG.link_sym _ _ h')]

theorem mem_lk {G : View} {n p q : Nat} {d : Direction} : (p, q) ∈ lk G n d ↔ p ∈ G.ports n d ∧ q ∈ G.links p := by
  simp [lk]

theorem lk_outs (G : View) (n : Nat) (d : Direction) :
    (lk G n d).map (·.1) = (G.ports n d).flatMap fun p => (G.links p).map fun _ => p := by
  simp [lk, List.map_flatMap, Function.comp_def]

theorem lk_ins (G : View) (n : Nat) (d : Direction) : (lk G n d).map (·.2) = (G.ports n d).flatMap G.links := by
  simp [lk, List.map_flatMap, Function.comp_def]

theorem count_outs {G : View} {ps : List Nat} (hnd : ps.Nodup) {p : Nat} (hp : p ∈ ps) :
    (ps.flatMap fun p => (G.links p).map fun _ => p).count p = (G.links p).length := by
  induction ps with
  | nil => simp at hp
  | cons a ps ih =>
    rw [List.nodup_cons] at hnd
    have hc : ∀ l : List Nat, (l.map fun _ => a).count a = l.length := by
      intro l; simp
    have hz : p ∉ (ps.flatMap fun p => (G.links p).map fun _ => p) ∨ p ∈ ps := by
      by_cases h : p ∈ ps
      · exact .inr h
      · refine .inl ?_
        intro hc
        simp only [List.mem_flatMap, List.mem_map] at hc
        obtain ⟨x, hx, _, _, rfl⟩ := hc
        exact h hx
    rw [List.flatMap_cons, List.count_append]
    by_cases h : p = a
    · subst h
      rw [hc, List.count_eq_zero_of_not_mem (hz.resolve_right hnd.1), Nat.add_zero]
    · rw [ih hnd.2 ((List.mem_cons.1 hp).resolve_left h), List.count_eq_zero_of_not_mem, Nat.zero_add]
      intro hm
      simp only [List.mem_map] at hm
      obtain ⟨_, _, rfl⟩ := hm
      exact h rfl

theorem sum_count_le {l : List Nat} : ∀ {L : List Nat}, L.Nodup → (L.map fun q => l.count q).sum ≤ l.length := by
  induction l with
  | nil => intro L _; simp
  | cons a l ih =>
    intro L hL
    have := ih hL
    have key : ∀ {L : List Nat}, L.Nodup → (L.map fun q => (a :: l).count q).sum ≤ (L.map fun q => l.count q).sum + 1 ∧
        (a ∉ L → (L.map fun q => (a :: l).count q).sum = (L.map fun q => l.count q).sum) := by
      intro L
      induction L with
      | nil => simp
      | cons b L ihL =>
        intro hL
        rw [List.nodup_cons] at hL
        obtain ⟨h1, h2⟩ := ihL hL.2
        simp only [List.map_cons, List.sum_cons, List.count_cons]
        simp only [List.count_cons] at h1 h2
        by_cases hab : a = b
        · subst hab
          have := h2 hL.1
          simp only [List.mem_cons, true_or, not_true_eq_false, false_implies, and_true]
          simp only [beq_self_eq_true, if_true]
          omega
        · have : (a == b) = false := by simpa using hab
          simp only [this, Bool.false_eq_true, if_false, Nat.add_zero]
          refine ⟨by omega, ?_⟩
          intro hm
          have := h2 (fun h => hm (by simp [h]))
          omega
    have := (key hL).1
    simp only [List.length_cons]; omega

/-- Links at the ports of different nodes are no more than those of the port. -/
theorem count_ins_le {G : View} (hG : G.WF) (hc : CountSym G) {ns : List Nat} (hns : ns.Nodup) (p : Nat) :
    (ns.flatMap fun m => (lk G m .incoming).map (·.2)).count p ≤ (G.links p).length := by
  have e : (ns.flatMap fun m => (lk G m .incoming).map (·.2)) = (ns.flatMap fun m => G.ports m .incoming).flatMap G.links := by
    rw [List.flatMap_assoc]
    apply List.flatMap_congr
    intro m _
    exact lk_ins G m .incoming
  rw [e, List.count_flatMap]
  have e2 : (List.count p ∘ G.links) = fun q => (G.links p).count q := by
    funext q; exact hc q p
  rw [e2]
  apply sum_count_le
  rw [List.nodup_flatMap]
  refine ⟨fun m _ => hG.ports_nodup m .incoming, hns.imp ?_⟩
  intro a b hab q ha hb
  have h1 := (hG.ports_node _ _ _ ha).1
  have h2 := (hG.ports_node _ _ _ hb).1
  rw [h1] at h2; simp at h2; exact hab h2

theorem zip_filter_length {p : Nat} : ∀ {ps ls : List Nat}, ps.length ≤ ls.length →
    ((ps.zip ls).filter fun x => x.1 == p).length = ps.count p := by
  intro ps
  induction ps with
  | nil => intro ls _; simp
  | cons a ps ih =>
    intro ls h
    cases ls with
    | nil => simp at h
    | cons l ls =>
      have := ih (ls := ls) (by simpa using h)
      rw [List.zip_cons_cons, List.filter_cons, List.count_cons]
      simp only
      split
      · rw [List.length_cons, this]
      · rw [this, Nat.add_zero]

namespace Line

/-- The lines on the frontier are different. -/
structure FrOK (fr : Nat → LinePos) : Prop where
  nodup : ∀ p, (fr p).lines.Nodup
  inj : ∀ p p' l, l ∈ (fr p).lines → l ∈ (fr p').lines → p = p'

theorem popLoop_ok {ps : List Nat} {fr : Nat → LinePos} (hok : FrOK fr) (hlen : ∀ p, ps.count p ≤ (fr p).lines.length)
    (acc : List Nat) (mx : Option Nat) :
    ∃ fr' ls mx', popLoop ps fr acc mx = some (fr', acc ++ ls, mx') ∧ ls.length = ps.length ∧ ls.Nodup ∧ FrOK fr' ∧
      (∀ p l, (p, l) ∈ ps.zip ls → l ∈ (fr p).lines) ∧
      (∀ p, (fr' p).pos = (fr p).pos ∧ (fr' p).lines.length + ps.count p = (fr p).lines.length) ∧
      (∀ p, ∀ l ∈ (fr' p).lines, l ∈ (fr p).lines ∧ l ∉ ls) ∧
      (∀ p, ∀ l ∈ (fr p).lines, l ∈ (fr' p).lines ∨ (p, l) ∈ ps.zip ls) ∧
      (∀ v, mx = some v → ∃ m, mx' = some m ∧ v ≤ m) ∧ (∀ p ∈ ps, ∃ m, mx' = some m ∧ (fr p).pos ≤ m) ∧
      (∀ m, mx' = some m → mx = some m ∨ ∃ p ∈ ps, (fr p).pos = m) := by
  induction ps generalizing fr acc mx with
  | nil =>
    exact ⟨fr, [], mx, by simp [popLoop], rfl, .nil, hok, by simp, by simp, by simp, by simp,
      fun v h => ⟨v, h, Nat.le_refl _⟩, by simp, fun m h => .inl h⟩
  | cons p ps ih =>
    generalize hfr1 : (fun x => if x = p then (⟨(fr p).lines.dropLast, (fr p).pos⟩ : LinePos) else fr x) = fr1
    have e1 : ∀ x, x ≠ p → fr1 x = fr x := by intro x hx; rw [← hfr1]; simp [hx]
    have e2 : fr1 p = ⟨(fr p).lines.dropLast, (fr p).pos⟩ := by rw [← hfr1]; simp
    have hne : (fr p).lines ≠ [] := by
      intro hc
      have := hlen p
      rw [hc] at this; simp at this
    obtain ⟨L, l, hL⟩ : ∃ L l, (fr p).lines = L ++ [l] := ⟨_, _, (List.dropLast_append_getLast hne).symm⟩
    have hpop : popFrontier fr p = some ((l, (fr p).pos), fr1) := by
      unfold popFrontier
      rw [hfr1, hL]; simp
    rw [hL, List.dropLast_concat] at e2
    have hnd := hok.nodup p
    rw [hL, List.nodup_append] at hnd
    have hsub : ∀ x, ∀ l' ∈ (fr1 x).lines, l' ∈ (fr x).lines ∧ l' ≠ l := by
      intro x l' hl'
      by_cases hx : x = p
      · subst hx
        rw [e2] at hl'
        exact ⟨by rw [hL]; exact List.mem_append_left _ hl', fun e => hnd.2.2 l' hl' l (by simp) e⟩
      · rw [e1 x hx] at hl'
        refine ⟨hl', fun e => hx (hok.inj x p l (e ▸ hl') (by rw [hL]; simp))⟩
    have hok1 : FrOK fr1 := by
      refine ⟨?_, fun a b x ha hb => hok.inj a b x (hsub a x ha).1 (hsub b x hb).1⟩
      intro x
      by_cases hx : x = p
      · subst hx; rw [e2]; exact hnd.1
      · rw [e1 x hx]; exact hok.nodup x
    have hlen1 : ∀ x, (fr1 x).lines.length + (if x = p then 1 else 0) = (fr x).lines.length := by
      intro x
      by_cases hx : x = p
      · subst hx; rw [e2, hL]; simp
      · rw [e1 x hx]; simp [hx]
    have hpos1 : ∀ x, (fr1 x).pos = (fr x).pos := by
      intro x
      by_cases hx : x = p
      · subst hx; rw [e2]
      · rw [e1 x hx]
    have hcnt : ∀ x, (p :: ps).count x = ps.count x + (if x = p then 1 else 0) := by
      intro x
      rw [List.count_cons]
      by_cases hx : x = p
      · simp [hx]
      · have : (p == x) = false := by simpa using Ne.symm hx
        simp [hx, this]
    obtain ⟨fr', ls, mx', h1, h2, h3, h4, h5, h6, h7, h8, h9, h10, h11⟩ := ih hok1 (fun x => by
      have a := hlen x
      have b := hlen1 x
      rw [hcnt] at a; omega) (acc ++ [l])
      (some (match mx with | none => (fr p).pos | some m => max m (fr p).pos))
    have hl : l ∉ ls := by
      intro hc
      obtain ⟨k, hk, e⟩ := List.mem_iff_getElem.1 hc
      have hk' : k < ps.length := by omega
      have := h5 ps[k] l (by
        rw [List.mem_iff_getElem]
        exact ⟨k, by rw [List.length_zip]; omega, by rw [List.getElem_zip, e]⟩)
      exact (hsub _ _ this).2 rfl
    obtain ⟨m, hm, hm'⟩ := h9 _ rfl
    refine ⟨fr', l :: ls, mx', ?_, by simp [h2], List.nodup_cons.2 ⟨hl, h3⟩, h4, ?_, ?_, ?_, ?_, ?_, ?_, ?_⟩
    · simp only [popLoop, hpop]
      exact h1.trans (by simp)
    · intro x l' hx
      rw [List.zip_cons_cons, List.mem_cons] at hx
      rcases hx with hx | hx
      · obtain ⟨rfl, rfl⟩ := Prod.mk.inj hx
        rw [hL]; simp
      · exact (hsub _ _ (h5 x l' hx)).1
    · intro x
      obtain ⟨a, b⟩ := h6 x
      have d := hlen1 x
      exact ⟨a.trans (hpos1 x), by rw [hcnt]; omega⟩
    · intro x l' hx
      obtain ⟨a, b⟩ := h7 x l' hx
      obtain ⟨a', b'⟩ := hsub _ _ a
      exact ⟨a', by simp [b, b']⟩
    · intro x l' hx
      have : l' ∈ (fr1 x).lines ∨ (x = p ∧ l' = l) := by
        by_cases hxp : x = p
        · subst hxp
          rw [hL] at hx
          rw [e2]
          simpa using hx
        · exact .inl (by rw [e1 x hxp]; exact hx)
      rw [List.zip_cons_cons, List.mem_cons]
      rcases this with h | ⟨rfl, rfl⟩
      · exact (h8 x l' h).imp id .inr
      · exact .inr (.inl rfl)
    · intro v hv
      subst hv
      exact ⟨m, hm, by simp only at hm'; omega⟩
    · intro x hx
      rcases List.mem_cons.1 hx with hx | hx
      · subst hx
        refine ⟨m, hm, ?_⟩
        cases mx <;> simp only at hm' <;> omega
      · have := h10 x hx
        rwa [hpos1] at this
    · intro v hv
      rcases h11 v hv with h12 | ⟨x, hx, h12⟩
      · simp only [Option.some.injEq] at h12
        cases mx with
        | none => exact .inr ⟨p, by simp, h12⟩
        | some m0 =>
          simp only at h12
          rcases Nat.le_total m0 (fr p).pos with hle | hle
          · exact .inr ⟨p, by simp, by omega⟩
          · exact .inl (by congr 1; omega)
      · exact .inr ⟨x, by simp [hx], by rw [← hpos1]; exact h12⟩

theorem pushLoop_ok {pos : Nat} {ps free : List Nat} {e : Ends} {lines : List Nat} :
    ∃ e' k, pushLoop pos ps free e lines = (e', lines ++ List.range' e.count k) ∧ e'.count = e.count + k ∧
      k = ps.length - free.length ∧
      ∀ p, e'.frontier p = if p ∈ ps then
        ⟨(e.frontier p).lines ++ ((ps.zip (free ++ List.range' e.count k)).filter fun x => x.1 == p).map (·.2), pos⟩
        else e.frontier p := by
  induction ps generalizing free e lines with
  | nil => exact ⟨e, 0, by simp [pushLoop], by simp, by simp, by simp⟩
  | cons p ps ih =>
    have hpush : ∀ (l x : Nat), pushFrontier e.frontier p l pos x =
        if x = p then ⟨(e.frontier x).lines ++ [l], pos⟩ else e.frontier x := by
      intro l x
      unfold pushFrontier
      by_cases hx : x = p
      · subst hx; simp
      · simp [hx]
    have hfil : ∀ (l x : Nat) (R : List Nat), (((p :: ps).zip (l :: R)).filter fun y => y.1 == x).map (·.2) =
        (if x = p then [l] else []) ++ ((ps.zip R).filter fun y => y.1 == x).map (·.2) := by
      intro l x R
      rw [List.zip_cons_cons, List.filter_cons]
      by_cases hx : x = p
      · subst hx; simp
      · have : (p == x) = false := by simpa using Ne.symm hx
        simp [hx, this]
    have hnil : ∀ (x : Nat) (R : List Nat), x ∉ ps → ((ps.zip R).filter fun y => y.1 == x) = [] := by
      intro x R hx
      rw [List.filter_eq_nil_iff]
      rintro ⟨a, b⟩ hab hc
      simp only [beq_iff_eq] at hc
      subst hc
      exact hx (List.of_mem_zip hab).1
    cases free with
    | cons l free =>
      obtain ⟨e', k, h1, h2, h3, h4⟩ := ih (free := free) (e := ⟨pushFrontier e.frontier p l pos, e.count⟩) (lines := lines)
      refine ⟨e', k, h1, h2, by simp only [List.length_cons]; omega, ?_⟩
      intro x
      rw [h4 x, List.cons_append, hfil]
      simp only [hpush, List.mem_cons]
      by_cases hx : x = p
      · subst hx
        by_cases hxs : x ∈ ps
        · simp [hxs]
        · simp [hxs, hnil x _ hxs]
      · simp [hx]
    | nil =>
      obtain ⟨e', k, h1, h2, h3, h4⟩ := ih (free := []) (e := ⟨pushFrontier e.frontier p e.count pos, e.count + 1⟩)
        (lines := lines ++ [e.count])
      refine ⟨e', k + 1, ?_, ?_, by simp only [List.length_cons, List.length_nil] at h3 ⊢; omega, ?_⟩
      · simp only [pushLoop, h1, List.range'_succ]
        simp
      · simp only at h2; omega
      · intro x
        rw [h4 x, List.nil_append, List.nil_append, List.range'_succ, hfil]
        simp only [hpush, List.mem_cons]
        by_cases hx : x = p
        · subst hx
          by_cases hxs : x ∈ ps
          · simp [hxs]
          · simp [hxs, hnil x _ hxs]
        · simp [hx]

theorem appendTo_lt {lines : List (List Nat)} {n l : Nat} (h : l < lines.length) :
    (appendTo lines n l).length = lines.length ∧
      ∀ k : Nat, (appendTo lines n l)[k]? = if k = l then some ((lines[l]?).getD [] ++ [n]) else lines[k]? := by
  unfold appendTo
  rw [if_neg (by omega)]
  refine ⟨by simp, ?_⟩
  intro k
  rw [List.getElem?_set]
  by_cases hk : k = l
  · subst hk; simp [h]
  · simp [hk, Ne.symm hk]

theorem appendTo_eq {lines : List (List Nat)} {n : Nat} :
    appendTo lines n lines.length = lines ++ [[n]] := by
  unfold appendTo
  rw [if_pos (Nat.le_refl _)]
  simp

/-- All the lines of a node are extended. -/
theorem append_range {n k : Nat} {lines : List (List Nat)} :
    (List.range' lines.length k).foldl (fun ls l => appendTo ls n l) lines = lines ++ List.replicate k [n] := by
  induction k generalizing lines with
  | zero => simp
  | succ k ih =>
    rw [List.range'_succ, List.foldl_cons, appendTo_eq]
    have := ih (lines := lines ++ [[n]])
    rw [List.length_append, List.length_singleton] at this
    rw [this, List.append_assoc]
    rfl

theorem append_old {n : Nat} {a : List Nat} {lines : List (List Nat)} (ha : a.Nodup) (hlt : ∀ l ∈ a, l < lines.length) :
    (a.foldl (fun ls l => appendTo ls n l) lines).length = lines.length ∧
      ∀ k : Nat, (a.foldl (fun ls l => appendTo ls n l) lines)[k]? =
        if k ∈ a then some ((lines[k]?).getD [] ++ [n]) else lines[k]? := by
  induction a generalizing lines with
  | nil => simp
  | cons l a ih =>
    rw [List.nodup_cons] at ha
    obtain ⟨h1, h2⟩ := appendTo_lt (n := n) (hlt l (by simp))
    obtain ⟨h3, h4⟩ := ih (lines := appendTo lines n l) ha.2 (fun k hk => by rw [h1]; exact hlt k (by simp [hk]))
    rw [List.foldl_cons]
    refine ⟨by omega, ?_⟩
    intro k
    rw [h4, h2]
    by_cases hk : k = l
    · subst hk; simp [ha.1]
    · simp [hk]

theorem append_all {n k : Nat} {a : List Nat} {lines : List (List Nat)} (ha : a.Nodup) (hlt : ∀ l ∈ a, l < lines.length) :
    ((a ++ List.range' lines.length k).foldl (fun ls l => appendTo ls n l) lines).length = lines.length + k ∧
      ∀ j : Nat, ((a ++ List.range' lines.length k).foldl (fun ls l => appendTo ls n l) lines)[j]? =
        if j ∈ a ++ List.range' lines.length k then some ((lines[j]?).getD [] ++ [n]) else lines[j]? := by
  obtain ⟨h1, h2⟩ := append_old (n := n) ha hlt
  rw [List.foldl_append]
  generalize hL : a.foldl (fun ls l => appendTo ls n l) lines = L at h1 h2
  rw [← h1, append_range]
  refine ⟨by simp, ?_⟩
  intro j
  rw [h1]
  simp only [List.mem_append, List.mem_range'_1]
  by_cases hj : j < L.length
  · rw [List.getElem?_append_left hj, h2]
    have : (j ∈ a ∨ lines.length ≤ j ∧ j < lines.length + k) ↔ j ∈ a := by
      constructor
      · rintro (h | h)
        · exact h
        · omega
      · exact .inl
    simp only [this]
  · rw [List.getElem?_append_right (by omega)]
    have hja : j ∉ a := fun h => by have := hlt j h; omega
    have hjn : lines[j]? = none := List.getElem?_eq_none (by omega)
    simp only [hja, false_or, hjn, Option.getD_none, List.nil_append, List.getElem?_replicate]
    by_cases hjk : j < lines.length + k
    · rw [if_pos (by omega), if_pos (by omega)]
    · rw [if_neg (by omega), if_neg (by omega)]

theorem zip_inj {α : Type} {a : List α} {b : List Nat} (hb : b.Nodup) {x y : α} {l : Nat} (hx : (x, l) ∈ a.zip b)
    (hy : (y, l) ∈ a.zip b) : x = y := by
  obtain ⟨i, hi, ei⟩ := List.mem_iff_getElem.1 hx
  obtain ⟨j, hj, ej⟩ := List.mem_iff_getElem.1 hy
  rw [List.getElem_zip] at ei ej
  rw [List.length_zip] at hi hj
  obtain ⟨e1, e2⟩ := Prod.mk.inj ei
  obtain ⟨e3, e4⟩ := Prod.mk.inj ej
  have := (List.Nodup.getElem_inj_iff hb (hi := by omega) (hj := by omega)).1 (e2.trans e4.symm)
  subst this
  exact e1.symm.trans e3

/-- The links of a node with the lines they are on. -/
def onLine (G : View) (c : Line) (n : Nat) (d : Direction) : List ((Nat × Nat) × Nat) := (lk G n d).zip (c.getLines n)

/-- The ports at the other ends of the links which enter `m`. -/
def entering (G : View) (m : Nat) : List Nat := (lk G m .incoming).map (·.2)

/-- The state of the construction after the nodes of `pre`. -/
structure BInv (G : View) (pre : List Nat) (e : Ends) (c : Line) : Prop where
  graph : c.graph = G
  count : c.lines.length = e.count
  unproc : ∀ n, n ∉ pre → c.getLines n = []
  chain : ∀ (l : Nat) (line : List Nat), c.lines[l]? = some line → line.IsChain (VArc G .outgoing)
  mem : ∀ (l : Nat) (line : List Nat) n, c.lines[l]? = some line → (n ∈ line ↔ l ∈ c.getLines n)
  valid : ∀ n l, l ∈ c.getLines n → l < c.lines.length
  fwd : ∀ a ∈ pre, ∀ b ∈ pre, VArc G .outgoing a b → c.getPos a < c.getPos b
  some_line : ∀ n ∈ pre, c.getLines n ≠ []
  nodup : ∀ n, (c.getLines n).Nodup
  len : ∀ n ∈ pre, ∀ d, (lk G n d).length ≤ (c.getLines n).length
  frOK : FrOK e.frontier
  frLen : ∀ n ∈ pre, ∀ p ∈ G.ports n .outgoing,
    (e.frontier p).lines.length + (pre.flatMap (entering G)).count p = (G.links p).length
  frIn : ∀ p, ∀ l ∈ (e.frontier p).lines, ∃ n ∈ pre, p ∈ G.ports n .outgoing ∧ (e.frontier p).pos = c.getPos n ∧
    ∃ u, c.lines[l]? = some (u ++ [n])
  frOut : ∀ p, ∀ l ∈ (e.frontier p).lines, ∃ n ∈ pre, ∃ q, ((p, q), l) ∈ onLine G c n .outgoing
  out : ∀ n ∈ pre, ∀ p q l, ((p, q), l) ∈ onLine G c n .outgoing → l ∈ (e.frontier p).lines ∨
    ∃ m ∈ pre, ∃ q', ((q', p), l) ∈ onLine G c m .incoming ∧ ∃ u v, c.lines[l]? = some (u ++ n :: m :: v)
  inc : ∀ m ∈ pre, ∀ q p l, ((q, p), l) ∈ onLine G c m .incoming →
    ∃ n ∈ pre, (∃ q', ((p, q'), l) ∈ onLine G c n .outgoing) ∧ ∃ u v, c.lines[l]? = some (u ++ n :: m :: v)
  lenEq : ∀ n ∈ pre, (c.getLines n).length = max 1 (max (lk G n .incoming).length (lk G n .outgoing).length)
  tight : ∀ n ∈ pre, c.getPos n = 0 ∨ ∃ m ∈ pre, VArc G .outgoing m n ∧ c.getPos n = c.getPos m + 1
  total : e.count = (pre.map fun n => (c.getLines n).length - (lk G n .incoming).length).sum
  prev : ∀ m ∈ pre, ∀ (l : Nat) (u v : List Nat), c.lines[l]? = some (u ++ m :: v) → u ≠ [] → ∃ x, (x, l) ∈ onLine G c m .incoming
  ne : ∀ (l : Nat) (line : List Nat), c.lines[l]? = some line → line ≠ []

theorem zip_nodup {α : Type} : ∀ {a : List α} {b : List Nat}, b.Nodup → ((a.zip b).map (·.2)).Nodup := by
  intro a
  induction a with
  | nil => intro b _; simp
  | cons x a ih =>
    intro b hb
    cases b with
    | nil => simp
    | cons y b =>
      rw [List.nodup_cons] at hb
      rw [List.zip_cons_cons, List.map_cons, List.nodup_cons]
      refine ⟨fun hc => hb.1 ?_, ih hb.2⟩
      obtain ⟨⟨x', y'⟩, h1, h2⟩ := List.mem_map.1 hc
      simp only at h2
      subst h2
      exact (List.of_mem_zip h1).2

theorem zip_append_left {α β : Type} {a : List α} {b b' : List β} (h : a.length = b.length) : a.zip (b ++ b') = a.zip b := by
  have := List.zip_append (l₁ := a) (r₁ := []) (l₂ := b) (r₂ := b') h
  simpa using this

theorem mem_zip_map {α β γ : Type} (f : α → γ) {a : List α} {b : List β} {x : γ} {y : β} :
    (x, y) ∈ (a.map f).zip b ↔ ∃ z, f z = x ∧ (z, y) ∈ a.zip b := by
  rw [List.zip_map_left, List.mem_map]
  constructor
  · rintro ⟨⟨z, y'⟩, h1, h2⟩
    obtain ⟨rfl, rfl⟩ := Prod.mk.inj h2
    exact ⟨z, rfl, h1⟩
  · rintro ⟨z, rfl, h⟩
    exact ⟨(z, y), h, rfl⟩

theorem step_ok {G : View} (hG : G.WF) (hcs : CountSym G) {pre : List Nat} {e : Ends} {c : Line} (h : BInv G pre e c) {n : Nat}
    (hnd : (n :: pre).Nodup) (hpred : ∀ m, VArc G .outgoing m n → m ∈ pre)
    (hclosed : ∀ b ∈ pre, ∀ m, VArc G .outgoing m b → m ∈ pre) (hself : ¬ VArc G .outgoing n n) :
    ∃ lp e', extend G e n = some (lp, e') ∧
      BInv G (n :: pre) e' ⟨c.graph, fun x => if x = n then lp else c.nodePos x,
        lp.lines.foldl (fun ls l => appendTo ls n l) c.lines⟩ := by
  have hn : n ∉ pre := (List.nodup_cons.1 hnd).1
  have same : ∀ {p a b d}, p ∈ G.ports a d → p ∈ G.ports b d → a = b := by
    intro p a b d ha hb
    have h1 := (hG.ports_node _ _ _ ha).1
    have h2 := (hG.ports_node _ _ _ hb).1
    rw [h1] at h2; simpa using h2
  -- a port at the other end of a link which enters a node
  have hent : ∀ b p, p ∈ entering G b → ∃ m q, p ∈ G.ports m .outgoing ∧ q ∈ G.links p ∧ q ∈ G.ports b .incoming := by
    intro b p hp
    obtain ⟨⟨q, p'⟩, hq, rfl⟩ := List.mem_map.1 hp
    obtain ⟨h1, h2⟩ := mem_lk.1 hq
    obtain ⟨m, hm⟩ := hG.link_dir _ _ _ _ h1 h2
    exact ⟨m, q, hm, hG.link_sym _ _ h2, h1⟩
  have hin : ∀ p ∈ entering G n, ∃ m ∈ pre, p ∈ G.ports m .outgoing ∧ VArc G .outgoing m n := by
    intro p hp
    obtain ⟨m, q, h1, h2, h3⟩ := hent n p hp
    have hR : VArc G .outgoing m n := ⟨p, h1, q, h2, h3⟩
    exact ⟨m, hpred m hR, h1, hR⟩
  have hcount : ∀ p, (entering G n).count p ≤ (e.frontier p).lines.length := by
    intro p
    by_cases hp : p ∈ entering G n
    · obtain ⟨m, hm, hpm, _⟩ := hin p hp
      have h1 := h.frLen m hm p hpm
      have h2 := count_ins_le hG hcs hnd p
      rw [List.flatMap_cons, List.count_append] at h2
      have h3 : (entering G n).count p + (pre.flatMap (entering G)).count p ≤ (G.links p).length := h2
      omega
    · rw [List.count_eq_zero_of_not_mem hp]; omega
  -- the outgoing ports of the node are new
  have hnewout : ∀ p ∈ G.ports n .outgoing, (e.frontier p).lines = [] := by
    intro p hp
    rw [List.eq_nil_iff_forall_not_mem]
    intro l hl
    obtain ⟨m, hm, hpm, _⟩ := h.frIn p l hl
    exact hn (same hp hpm ▸ hm)
  have hnoent : ∀ p ∈ G.ports n .outgoing, ∀ b ∈ n :: pre, p ∉ entering G b := by
    intro p hp b hb hc
    obtain ⟨m, q, h1, h2, h3⟩ := hent b p hc
    have := same hp h1
    subst this
    have hR : VArc G .outgoing n b := ⟨p, h1, q, h2, h3⟩
    rcases List.mem_cons.1 hb with rfl | hb
    · exact hself hR
    · exact hn (hclosed b hb n hR)
  obtain ⟨fr, popped, mx, hpop, hplen, hpnd, hfrok, hp5, hp6, hp7, hp8, -, hp10, hp11⟩ :=
    popLoop_ok (ps := entering G n) h.frOK hcount [] none
  generalize hpos : nextPos mx = pos
  generalize houts : (lk G n .outgoing).map (·.1) = outs
  have houtmem : ∀ p, p ∈ outs → p ∈ G.ports n .outgoing := by
    intro p hp
    rw [← houts] at hp
    obtain ⟨⟨p', q⟩, hq, rfl⟩ := List.mem_map.1 hp
    exact (mem_lk.1 hq).1
  have houtlen : outs.length = (lk G n .outgoing).length := by rw [← houts]; simp
  have hinlen : (lk G n .incoming).length = popped.length := by rw [hplen]; simp [entering]
  have hfrnew : ∀ p ∈ G.ports n .outgoing, (fr p).lines = [] := by
    intro p hp
    rw [List.eq_nil_iff_forall_not_mem]
    intro l hl
    have := (hp7 p l hl).1
    rw [hnewout p hp] at this; simp at this
  obtain ⟨e1, k1, hpush, hcnt1, hk1, hfr1⟩ := pushLoop_ok (pos := pos) (ps := outs) (free := popped) (e := ⟨fr, e.count⟩)
    (lines := popped)
  -- the lines of the node in both cases
  have hext : ∃ k e', extend G e n = some (⟨popped ++ List.range' e.count k, pos⟩, e') ∧ e'.count = e.count + k ∧
      popped ++ List.range' e.count k ≠ [] ∧ outs.length ≤ (popped ++ List.range' e.count k).length ∧
      popped.length + k = max 1 (max popped.length outs.length) ∧
      (∀ p, e'.frontier p = if p ∈ outs then
        ⟨((outs.zip (popped ++ List.range' e.count k)).filter fun x => x.1 == p).map (·.2), pos⟩ else fr p) := by
    have hins : (G.ports n .incoming).flatMap G.links = entering G n := (lk_ins G n .incoming).symm
    have houts' : ((G.ports n .outgoing).flatMap fun p => (G.links p).map fun _ => p) = outs := by
      rw [← houts, lk_outs]
    have hfr1' : ∀ p, e1.frontier p = if p ∈ outs then
        ⟨((outs.zip (popped ++ List.range' e.count k1)).filter fun x => x.1 == p).map (·.2), pos⟩ else fr p := by
      intro p
      rw [hfr1 p]
      split
      · rename_i hp
        show (⟨(fr p).lines ++ _, _⟩ : LinePos) = _
        rw [hfrnew p (houtmem p hp), List.nil_append]
      · rfl
    unfold extend
    rw [hins, hpop]
    simp only [List.nil_append]
    rw [houts', hpos, hpush]
    simp only
    split
    · rename_i hem
      rw [List.isEmpty_iff] at hem
      have h1 : popped = [] := (List.append_eq_nil_iff.1 hem).1
      have h2 : k1 = 0 := by
        have := congrArg List.length (List.append_eq_nil_iff.1 hem).2
        simpa using this
      have h3 : outs = [] := by
        rw [h1, h2] at hk1
        simp only [List.length_nil] at hk1
        exact List.length_eq_zero_iff.1 (by omega)
      have hc : e1.count = e.count := by rw [hcnt1, h2]; rfl
      refine ⟨1, ⟨e1.frontier, e1.count + 1⟩, ?_, by simp [hc], by simp, by simp [h3], by simp [h1, h3], ?_⟩
      · simp [h1, hc]
      · intro p
        have := hfr1' p
        rw [h3] at this ⊢
        simpa using this
    · rename_i hem
      rw [List.isEmpty_iff] at hem
      have hpos1 : 0 < popped.length + k1 := by
        have := List.length_pos_of_ne_nil hem
        rwa [List.length_append, List.length_range'] at this
      refine ⟨k1, e1, rfl, hcnt1, hem, ?_, by omega, hfr1'⟩
      rw [List.length_append, List.length_range']; omega
  obtain ⟨k, e', hE, hcnt, hne, hlenout, hkk, hf⟩ := hext
  refine ⟨_, e', hE, ?_⟩
  -- the popped lines are old ones
  have hpopin : ∀ l ∈ popped, ∃ p ∈ entering G n, (p, l) ∈ (entering G n).zip popped ∧ l ∈ (e.frontier p).lines := by
    intro l hl
    obtain ⟨j, hj, ej⟩ := List.mem_iff_getElem.1 hl
    have hj' : j < (entering G n).length := by omega
    have hz : ((entering G n)[j], l) ∈ (entering G n).zip popped := by
      rw [List.mem_iff_getElem]
      exact ⟨j, by rw [List.length_zip]; omega, by rw [List.getElem_zip, ej]⟩
    exact ⟨_, List.getElem_mem hj', hz, hp5 _ _ hz⟩
  have hinslt : ∀ l ∈ popped, l < e.count := by
    intro l hl
    obtain ⟨p, _, _, hlp⟩ := hpopin l hl
    obtain ⟨m, _, _, _, u, h2⟩ := h.frIn p l hlp
    rw [← h.count]
    exact (List.getElem?_eq_some_iff.1 h2).1
  have hLNnd : (popped ++ List.range' e.count k).Nodup := by
    rw [List.nodup_append]
    refine ⟨hpnd, List.nodup_range', ?_⟩
    intro a ha b hb hab
    have := hinslt a ha
    rw [List.mem_range'_1] at hb; omega
  obtain ⟨hlen, hget⟩ := append_all (n := n) (k := k) (lines := c.lines) hpnd (by rw [h.count]; exact hinslt)
  rw [h.count] at hlen hget
  show BInv G (n :: pre) e' ⟨c.graph, fun x => if x = n then ⟨popped ++ List.range' e.count k, pos⟩ else c.nodePos x,
    (popped ++ List.range' e.count k).foldl (fun ls l => appendTo ls n l) c.lines⟩
  generalize hLs : (popped ++ List.range' e.count k).foldl (fun ls l => appendTo ls n l) c.lines = L at hlen hget ⊢
  have hzin : (lk G n .incoming).zip (popped ++ List.range' e.count k) = (lk G n .incoming).zip popped :=
    zip_append_left hinlen
  have hLNin : ∀ l ∈ popped ++ List.range' e.count k, l < e.count → l ∈ popped := by
    intro l hl hlt
    rcases List.mem_append.1 hl with hl | hl
    · exact hl
    · rw [List.mem_range'_1] at hl; omega
  have hLNlt : ∀ l ∈ popped ++ List.range' e.count k, l < e.count + k := by
    intro l hl
    rcases List.mem_append.1 hl with hl | hl
    · have := hinslt l hl; omega
    · rw [List.mem_range'_1] at hl; omega
  have hLNpop : popped ⊆ popped ++ List.range' e.count k := List.subset_append_left _ _
  have hinLN : (lk G n .incoming).length ≤ (popped ++ List.range' e.count k).length := by
    rw [List.length_append]; omega
  have hLNlen : (popped ++ List.range' e.count k).length = popped.length + k := by
    rw [List.length_append, List.length_range']
  generalize hLN : popped ++ List.range' e.count k = LN at *
  generalize hc' : (⟨c.graph, fun x => if x = n then ⟨LN, pos⟩ else c.nodePos x, L⟩ : Line) = c'
  have gl : ∀ x, c'.getLines x = if x = n then LN else c.getLines x := by
    intro x; rw [← hc']; simp only [getLines]; split <;> rfl
  have gp : ∀ x, c'.getPos x = if x = n then pos else c.getPos x := by
    intro x; rw [← hc']; simp only [getPos]; split <;> rfl
  have gL : c'.lines = L := by rw [← hc']
  have hpren : ∀ x ∈ pre, x ≠ n := fun x hx e => hn (e ▸ hx)
  have hold : ∀ l : Nat, l ∉ LN → L[l]? = c.lines[l]? := by
    intro l hl; rw [hget, if_neg hl]
  have hnew : ∀ l : Nat, l ∈ LN → L[l]? = some ((c.lines[l]?).getD [] ++ [n]) := by
    intro l hl; rw [hget, if_pos hl]
  -- lines keep their consecutive nodes
  have hkeep : ∀ (l : Nat) (a b : Nat), (∃ u v, c.lines[l]? = some (u ++ a :: b :: v)) → ∃ u v, c'.lines[l]? = some (u ++ a :: b :: v) := by
    rintro l a b ⟨u, v, hl⟩
    rw [gL]
    by_cases hm : l ∈ LN
    · refine ⟨u, v ++ [n], ?_⟩
      rw [hnew l hm, hl]; simp
    · exact ⟨u, v, by rw [hold l hm, hl]⟩
  have onpre : ∀ x ∈ pre, ∀ d, onLine G c' x d = onLine G c x d := by
    intro x hx d
    unfold onLine; rw [gl, if_neg (hpren x hx)]
  have onn : ∀ d, onLine G c' n d = (lk G n d).zip LN := by
    intro d
    unfold onLine; rw [gl, if_pos rfl]
  -- the frontier after the step
  have hfout : ∀ p, p ∈ outs → ∀ l, l ∈ (e'.frontier p).lines ↔ ∃ q, ((p, q), l) ∈ onLine G c' n .outgoing := by
    intro p hp l
    rw [hf p, if_pos hp, onn]
    simp only [List.mem_map, List.mem_filter, beq_iff_eq]
    rw [← houts]
    constructor
    · rintro ⟨⟨p', l'⟩, ⟨h1, h2⟩, h3⟩
      simp only at h2 h3
      subst h2 h3
      obtain ⟨⟨p'', q⟩, h4, h5⟩ := (mem_zip_map Prod.fst).1 h1
      simp only at h4
      subst h4
      exact ⟨q, h5⟩
    · rintro ⟨q, hq⟩
      exact ⟨(p, l), ⟨(mem_zip_map Prod.fst).2 ⟨(p, q), rfl, hq⟩, rfl⟩, rfl⟩
  have hfold : ∀ p, p ∉ outs → e'.frontier p = fr p := by
    intro p hp; rw [hf p, if_neg hp]
  have hfrold : ∀ p, ∀ l ∈ (fr p).lines, l ∈ (e.frontier p).lines ∧ l ∉ LN := by
    intro p l hl
    obtain ⟨h1, h2⟩ := hp7 p l hl
    refine ⟨h1, fun hc => h2 (hLNin l hc ?_)⟩
    obtain ⟨m, _, _, _, u, h3⟩ := h.frIn p l h1
    rw [← h.count]
    exact (List.getElem?_eq_some_iff.1 h3).1
  have houtLN : ∀ p, p ∈ outs → ∀ l ∈ (e'.frontier p).lines, l ∈ LN := by
    intro p hp l hl
    obtain ⟨q, hq⟩ := (hfout p hp l).1 hl
    rw [onn] at hq
    exact (List.of_mem_zip hq).2
  -- a line popped at `p` ended at the node of `p`
  have hend : ∀ q p l, ((q, p), l) ∈ (lk G n .incoming).zip popped → l ∈ (e.frontier p).lines := by
    intro q p l hz
    exact hp5 p l ((mem_zip_map Prod.snd).2 ⟨(q, p), rfl, hz⟩)
  refine ⟨by rw [← hc']; exact h.graph, by rw [gL]; omega, ?_, ?_, ?_, ?_, ?_, ?_, ?_, ?_, ?_, ?_, ?_, ?_, ?_, ?_, ?_, ?_, ?_, ?_, ?_⟩
  · -- unproc
    intro x hx
    simp only [List.mem_cons, not_or] at hx
    rw [gl, if_neg hx.1]; exact h.unproc x hx.2
  · -- chain
    intro l line hl
    rw [gL] at hl
    by_cases hm : l ∈ LN
    · rw [hnew l hm] at hl
      simp at hl; subst hl
      by_cases hlt : l < e.count
      · obtain ⟨p, hp, _, hlp⟩ := hpopin l (hLNin l hm hlt)
        obtain ⟨m, hm', hpm, _, u, h2⟩ := h.frIn p l hlp
        obtain ⟨m', _, hpm', hR⟩ := hin p hp
        rw [← same hpm hpm'] at hR
        rw [h2]
        simp only [Option.getD_some]
        rw [List.isChain_append]
        refine ⟨h.chain _ _ h2, by simp, ?_⟩
        intro x hx y hy
        simp at hx hy
        subst hx hy; exact hR
      · have : c.lines[l]? = none := List.getElem?_eq_none (by rw [h.count]; omega)
        rw [this]; simp
    · rw [hold l hm] at hl
      exact h.chain l line hl
  · -- mem
    intro l line x hl
    rw [gL] at hl
    rw [gl]
    by_cases hm : l ∈ LN
    · rw [hnew l hm] at hl
      simp at hl; subst hl
      by_cases hx : x = n
      · rw [if_pos hx]; simp only [hm, iff_true]; simp [hx]
      · rw [if_neg hx]
        simp only [List.mem_append, List.mem_singleton, hx, or_false]
        cases hcl : c.lines[l]? with
        | some line => exact h.mem l line x hcl
        | none =>
          simp only [Option.getD_none, List.not_mem_nil, false_iff]
          intro hc
          have := h.valid x l hc
          rw [List.getElem?_eq_none_iff] at hcl; omega
    · rw [hold l hm] at hl
      by_cases hx : x = n
      · rw [if_pos hx]
        simp only [hm, iff_false]
        rw [hx, h.mem l line n hl, h.unproc n hn]; simp
      · rw [if_neg hx]; exact h.mem l line x hl
  · -- valid
    intro x l hl
    rw [gL, hlen]
    rw [gl] at hl
    by_cases hx : x = n
    · rw [if_pos hx] at hl
      exact hLNlt l hl
    · rw [if_neg hx] at hl
      have := h.valid x l hl
      rw [h.count] at this; omega
  · -- fwd
    intro a ha b hb hab
    rcases List.mem_cons.1 hb with hb | hb
    · subst hb
      rcases List.mem_cons.1 ha with ha | ha
      · subst ha; exact absurd hab hself
      · rw [gp, gp, if_neg (hpren a ha), if_pos rfl]
        obtain ⟨p, hp, q, hq, hqn⟩ := hab
        have hpe : p ∈ entering G b := List.mem_map.2 ⟨(q, p), mem_lk.2 ⟨hqn, hG.link_sym _ _ hq⟩, rfl⟩
        obtain ⟨m, hm, hle⟩ := hp10 p hpe
        have hne : (e.frontier p).lines ≠ [] := by
          intro hc
          have h1 := hcount p
          have h2 := List.count_pos_iff.2 hpe
          rw [hc] at h1; simp at h1; omega
        obtain ⟨l, hl⟩ := List.exists_mem_of_ne_nil _ hne
        obtain ⟨m', _, hpm', hpos', _⟩ := h.frIn p l hl
        rw [same hpm' hp] at hpos'
        rw [← hpos, hm]
        simp only [nextPos] at hle ⊢; omega
    · rcases List.mem_cons.1 ha with ha | ha
      · subst ha; exact absurd (hclosed b ‹_› a hab) hn
      · rw [gp, gp, if_neg (hpren a ha), if_neg (hpren b hb)]
        exact h.fwd a ha b hb hab
  · -- some_line
    intro x hx
    rw [gl]
    rcases List.mem_cons.1 hx with hx | hx
    · rw [if_pos hx]; exact hne
    · rw [if_neg (hpren x hx)]; exact h.some_line x hx
  · -- nodup
    intro x
    rw [gl]
    split
    · exact hLNnd
    · exact h.nodup x
  · -- len
    intro x hx d
    rw [gl]
    rcases List.mem_cons.1 hx with hx | hx
    · rw [if_pos hx, hx]
      cases d
      · exact hinLN
      · rw [← houtlen]; exact hlenout
    · rw [if_neg (hpren x hx)]; exact h.len x hx d
  · -- frOK
    refine ⟨?_, ?_⟩
    · intro p
      rw [hf p]
      split
      · -- the lines of different positions are different
        have h1 : ((outs.zip LN).map (·.2)).Nodup := by
          exact zip_nodup hLNnd
        exact h1.sublist (List.filter_sublist.map _)
      · exact hfrok.nodup p
    · intro p p' l hl hl'
      by_cases hp : p ∈ outs <;> by_cases hp' : p' ∈ outs
      · obtain ⟨q, hq⟩ := (hfout p hp l).1 hl
        obtain ⟨q', hq'⟩ := (hfout p' hp' l).1 hl'
        rw [onn] at hq hq'
        exact congrArg Prod.fst (zip_inj hLNnd hq hq')
      · rw [hfold p' hp'] at hl'
        exact absurd (houtLN p hp l hl) (hfrold p' l hl').2
      · rw [hfold p hp] at hl
        exact absurd (houtLN p' hp' l hl') (hfrold p l hl).2
      · rw [hfold p hp] at hl
        rw [hfold p' hp'] at hl'
        exact hfrok.inj p p' l hl hl'
  · -- frLen
    intro x hx p hp
    rw [List.flatMap_cons, List.count_append]
    rcases List.mem_cons.1 hx with hx | hx
    · subst hx
      have hz1 : (entering G x).count p = 0 := List.count_eq_zero_of_not_mem (hnoent p hp x (by simp))
      have hz2 : (pre.flatMap (entering G)).count p = 0 := by
        apply List.count_eq_zero_of_not_mem
        intro hc
        obtain ⟨b, hb, hpb⟩ := List.mem_flatMap.1 hc
        exact hnoent p hp b (by simp [hb]) hpb
      have hcnt : outs.count p = (G.links p).length := by
        rw [← houts, lk_outs]
        exact count_outs (hG.ports_nodup _ _) hp
      rw [hz1, hz2, ← hcnt]
      by_cases hpo : p ∈ outs
      · rw [hf p, if_pos hpo]
        rw [List.length_map, zip_filter_length hlenout]
        omega
      · rw [hfold p hpo, hfrnew p hp, List.count_eq_zero_of_not_mem hpo]; rfl
    · have hpo : p ∉ outs := fun hc => hpren x hx (same hp (houtmem p hc))
      rw [hfold p hpo]
      have h1 := (hp6 p).2
      have h2 := h.frLen x hx p hp
      omega
  · -- frIn
    intro p l hl
    by_cases hpo : p ∈ outs
    · refine ⟨n, by simp, houtmem p hpo, ?_, (c.lines[l]?).getD [], ?_⟩
      · rw [hf p, if_pos hpo, gp, if_pos rfl]
      · rw [gL]; exact hnew l (houtLN p hpo l hl)
    · rw [hfold p hpo] at hl ⊢
      obtain ⟨h1, h2⟩ := hfrold p l hl
      obtain ⟨m, hm, hpm, h3, u, h4⟩ := h.frIn p l h1
      refine ⟨m, by simp [hm], hpm, ?_, u, ?_⟩
      · rw [(hp6 p).1, h3, gp, if_neg (hpren m hm)]
      · rw [gL, hold l h2, h4]
  · -- frOut
    intro p l hl
    by_cases hpo : p ∈ outs
    · exact ⟨n, by simp, (hfout p hpo l).1 hl⟩
    · rw [hfold p hpo] at hl
      obtain ⟨m, hm, q, hq⟩ := h.frOut p l (hfrold p l hl).1
      exact ⟨m, by simp [hm], q, by rw [onpre m hm]; exact hq⟩
  · -- out
    intro x hx p q l hz
    rcases List.mem_cons.1 hx with hx | hx
    · subst hx
      refine .inl ?_
      have hpo : p ∈ outs := by
        rw [onn] at hz
        rw [← houts]
        exact List.mem_map.2 ⟨(p, q), (List.of_mem_zip hz).1, rfl⟩
      exact (hfout p hpo l).2 ⟨q, hz⟩
    · rw [onpre x hx] at hz
      have hpx : p ∈ G.ports x .outgoing := (mem_lk.1 (List.of_mem_zip hz).1).1
      have hpo : p ∉ outs := fun hc => hpren x hx (same hpx (houtmem p hc))
      rcases h.out x hx p q l hz with h1 | ⟨m, hm, q', hq', h2⟩
      · rcases hp8 p l h1 with h2 | h2
        · exact .inl (by rw [hfold p hpo]; exact h2)
        · obtain ⟨⟨q', p'⟩, h3, h4⟩ := (mem_zip_map Prod.snd).1 h2
          simp only at h3
          subst h3
          refine .inr ⟨n, by simp, q', by rw [onn, hzin]; exact h4, ?_⟩
          obtain ⟨m, hm, hpm, _, u, h5⟩ := h.frIn p' l h1
          have := same hpx hpm
          subst this
          refine ⟨u, [], ?_⟩
          rw [gL, hnew l (hLNpop (List.of_mem_zip h4).2), h5]; simp
      · exact .inr ⟨m, by simp [hm], q', by rw [onpre m hm]; exact hq', hkeep l x m h2⟩
  · -- inc
    intro m hm q p l hz
    rcases List.mem_cons.1 hm with hm | hm
    · subst hm
      rw [onn, hzin] at hz
      have h1 := hend q p l hz
      obtain ⟨x, hx, q', hq'⟩ := h.frOut p l h1
      obtain ⟨x', hx', hpx', _, u, h2⟩ := h.frIn p l h1
      have hpx : p ∈ G.ports x .outgoing := (mem_lk.1 (List.of_mem_zip hq').1).1
      have := same hpx hpx'
      subst this
      refine ⟨x, by simp [hx], ⟨q', by rw [onpre x hx]; exact hq'⟩, u, [], ?_⟩
      rw [gL, hnew l (hLNpop (List.of_mem_zip hz).2), h2]; simp
    · rw [onpre m hm] at hz
      obtain ⟨x, hx, ⟨q', hq'⟩, h2⟩ := h.inc m hm q p l hz
      exact ⟨x, by simp [hx], ⟨q', by rw [onpre x hx]; exact hq'⟩, hkeep l x m h2⟩
  · -- lenEq
    intro x hx
    rw [gl]
    rcases List.mem_cons.1 hx with hx | hx
    · rw [if_pos hx, hx, hLNlen, hkk, hinlen, houtlen]
    · rw [if_neg (hpren x hx)]; exact h.lenEq x hx
  · -- tight
    intro x hx
    rcases List.mem_cons.1 hx with hx | hx
    · subst hx
      cases hmx : mx with
      | none =>
        refine .inl ?_
        rw [gp, if_pos rfl, ← hpos, hmx]; rfl
      | some v =>
        rcases hp11 v hmx with h1 | ⟨p, hp, h1⟩
        · cases h1
        · obtain ⟨m, hm, hpm, hR⟩ := hin p hp
          have hne : (e.frontier p).lines ≠ [] := by
            intro hc
            have h1 := hcount p
            have h2 := List.count_pos_iff.2 hp
            rw [hc] at h1; simp at h1; omega
          obtain ⟨l, hl⟩ := List.exists_mem_of_ne_nil _ hne
          obtain ⟨m', _, hpm', hpos', _⟩ := h.frIn p l hl
          rw [same hpm' hpm] at hpos'
          refine .inr ⟨m, by simp [hm], hR, ?_⟩
          rw [gp, gp, if_pos rfl, if_neg (hpren m hm), ← hpos, hmx, ← hpos', h1]; rfl
    · rw [gp, if_neg (hpren x hx)]
      rcases h.tight x hx with h1 | ⟨m, hm, h1, h2⟩
      · exact .inl h1
      · exact .inr ⟨m, by simp [hm], h1, by rw [gp, if_neg (hpren m hm)]; exact h2⟩
  · -- total
    rw [hcnt, List.map_cons, List.sum_cons, gl, if_pos rfl, hLNlen, hinlen, h.total]
    have : (pre.map fun n => (c'.getLines n).length - (lk G n .incoming).length) =
        pre.map fun n => (c.getLines n).length - (lk G n .incoming).length := by
      apply List.map_congr_left
      intro x hx
      rw [gl, if_neg (hpren x hx)]
    rw [this]; omega
  · -- prev
    intro x hx l u v hl hu
    rw [gL] at hl
    by_cases hm : l ∈ LN
    · rw [hnew l hm, Option.some.injEq] at hl
      cases hcl : c.lines[l]? with
      | none =>
        rw [hcl] at hl
        obtain ⟨a, u, rfl⟩ := List.exists_cons_of_ne_nil hu
        have := congrArg List.length hl
        simp at this
      | some old =>
        rw [hcl, Option.getD_some] at hl
        have hlt : l < e.count := by rw [← h.count]; exact (List.getElem?_eq_some_iff.1 hcl).1
        rcases List.mem_cons.1 hx with hx | hx
        · subst hx
          rw [onn, hzin]
          obtain ⟨j, hj, ej⟩ := List.mem_iff_getElem.1 (hLNin l hm hlt)
          exact ⟨(lk G x .incoming)[j], List.mem_iff_getElem.2 ⟨j, by rw [List.length_zip]; omega, by rw [List.getElem_zip, ej]⟩⟩
        · rcases List.eq_nil_or_concat v with rfl | ⟨v', b, rfl⟩
          · have := (List.append_inj' hl rfl).2
            simp only [List.cons.injEq, and_true] at this
            exact absurd this.symm (hpren x hx)
          · rw [List.concat_eq_append, ← List.cons_append, ← List.append_assoc] at hl
            have := (List.append_inj' hl rfl).1
            rw [onpre x hx]
            exact h.prev x hx l u v' (by rw [hcl, this]) hu
    · rw [hold l hm] at hl
      rcases List.mem_cons.1 hx with hx | hx
      · subst hx
        have := (h.mem l _ x hl).1 (by simp)
        rw [h.unproc x hn] at this; simp at this
      · rw [onpre x hx]; exact h.prev x hx l u v hl hu
  · -- ne
    intro l line hl
    rw [gL] at hl
    by_cases hm : l ∈ LN
    · rw [hnew l hm, Option.some.injEq] at hl
      rw [← hl]; simp
    · rw [hold l hm] at hl; exact h.ne l line hl

theorem build_ok {G : View} (hG : G.WF) (hcs : CountSym G) {order : List Nat} (hnd : order.Nodup)
    (harc : ∀ m n, VArc G .outgoing m n → Before order m n) {pre post : List Nat} (ho : order = pre ++ post)
    {e : Ends} {c : Line} (h : BInv G pre.reverse e c) :
    ∃ e' c', build G post e c = some c' ∧ BInv G order.reverse e' c' := by
  induction post generalizing pre e c with
  | nil => simp at ho; subst ho; exact ⟨e, c, rfl, h⟩
  | cons n post ih =>
    have hn : n ∉ pre := by
      rw [ho] at hnd
      intro hc
      exact (List.nodup_append.1 hnd).2.2 n hc n (by simp) rfl
    have before : ∀ m b, VArc G .outgoing m b → b ∈ pre ++ [n] → m ∈ pre := by
      intro m b hm hb
      obtain ⟨x, y, e1, hx⟩ := harc m b hm
      obtain ⟨s, t, e2⟩ := List.append_of_mem hb
      rw [ho] at e1 hnd
      have e3 : pre ++ n :: post = s ++ b :: (t ++ post) := by
        have : pre ++ n :: post = (pre ++ [n]) ++ post := by simp
        rw [this, e2]; simp
      have hxs : x = s := by
        have hnd1 : (x ++ b :: y).Nodup := e1 ▸ hnd
        have hnd2 : (s ++ b :: (t ++ post)).Nodup := e3 ▸ hnd
        have i1 : (pre ++ n :: post).idxOf b = x.length := by
          rw [e1, List.idxOf_append_of_notMem (fun hc => (List.nodup_append.1 hnd1).2.2 b hc b (by simp) rfl)]; simp
        have i2 : (pre ++ n :: post).idxOf b = s.length := by
          rw [e3, List.idxOf_append_of_notMem (fun hc => (List.nodup_append.1 hnd2).2.2 b hc b (by simp) rfl)]; simp
        have := e1.symm.trans e3
        exact (List.append_inj this (by omega)).1
      subst hxs
      -- `m` comes before `b` in `pre ++ [n]`
      have hm' : m ∈ pre ++ [n] := by rw [e2]; simp [hx]
      rcases List.mem_append.1 hm' with hm' | hm'
      · exact hm'
      · simp at hm'; subst hm'
        -- the last element has nothing after it
        exfalso
        obtain ⟨x1, x2, ex⟩ := List.append_of_mem hx
        have : (pre ++ [m]) = x1 ++ m :: (x2 ++ b :: t) := by rw [e2, ex]; simp
        have hnd3 : (pre ++ [m]).Nodup := by
          have : pre ++ m :: post = (pre ++ [m]) ++ post := by simp
          rw [this] at hnd
          exact (List.nodup_append.1 hnd).1
        have i1 : (pre ++ [m]).idxOf m = pre.length := by
          rw [List.idxOf_append_of_notMem hn]; simp
        have hx1 : m ∉ x1 := by
          rw [this] at hnd3
          exact fun hc => (List.nodup_append.1 hnd3).2.2 m hc m (by simp) rfl
        have i2 : (pre ++ [m]).idxOf m = x1.length := by
          rw [this, List.idxOf_append_of_notMem hx1]; simp
        have l1 := congrArg List.length this
        simp at l1; omega
    obtain ⟨lp, e', h1, h2⟩ := step_ok hG hcs h (n := n) (by
        rw [ho] at hnd
        have h1 := (List.nodup_append.1 hnd).1
        exact List.nodup_cons.2 ⟨by simpa using hn, List.nodup_reverse.2 h1⟩)
      (fun m hm => by simpa using before m n hm (by simp))
      (fun b hb m hm => by simpa using before m b hm (by simp at hb; simp [hb]))
      (fun hc => hn (before n n hc (by simp)))
    simp only [build, h1]
    exact ih (pre := pre ++ [n]) (by simp [ho]) (by simpa using h2)

/-- How the links are on the lines: each link has its own line among those of its nodes, in the order
of the links, and the line passes from the outgoing to the incoming port. -/
structure Wired (G : View) (c : Line) : Prop where
  prev : ∀ m ∈ G.nodes, ∀ (l : Nat) (u v : List Nat), c.lines[l]? = some (u ++ m :: v) → u ≠ [] → ∃ x, (x, l) ∈ onLine G c m .incoming
  ne : ∀ (l : Nat) (line : List Nat), c.lines[l]? = some line → line ≠ []
  live : ∀ n, c.getLines n ≠ [] → n ∈ G.nodes
  lenEq : ∀ n ∈ G.nodes, (c.getLines n).length = max 1 (max (lk G n .incoming).length (lk G n .outgoing).length)
  tight : ∀ n ∈ G.nodes, c.getPos n = 0 ∨ ∃ m, VArc G .outgoing m n ∧ c.getPos n = c.getPos m + 1
  total : ∃ order : List Nat, order.Nodup ∧ (∀ n, n ∈ order ↔ n ∈ G.nodes) ∧
    c.lines.length = (order.map fun n => (c.getLines n).length - (lk G n .incoming).length).sum
  len : ∀ n ∈ G.nodes, ∀ d, (lk G n d).length ≤ (c.getLines n).length
  out : ∀ n ∈ G.nodes, ∀ p q l, ((p, q), l) ∈ onLine G c n .outgoing →
    ∃ m ∈ G.nodes, ∃ q', ((q', p), l) ∈ onLine G c m .incoming ∧ ∃ u v, c.lines[l]? = some (u ++ n :: m :: v)
  inc : ∀ m ∈ G.nodes, ∀ q p l, ((q, p), l) ∈ onLine G c m .incoming →
    ∃ n ∈ G.nodes, (∃ q', ((p, q'), l) ∈ onLine G c n .outgoing) ∧ ∃ u v, c.lines[l]? = some (u ++ n :: m :: v)

theorem mem_onLine_of {G : View} {c : Line} {n : Nat} {d : Direction} (hlen : (lk G n d).length ≤ (c.getLines n).length)
    {x : Nat × Nat} (hx : x ∈ lk G n d) : ∃ l, (x, l) ∈ onLine G c n d := by
  obtain ⟨k, hk, e⟩ := List.mem_iff_getElem.1 hx
  refine ⟨(c.getLines n)[k], List.mem_iff_getElem.2 ⟨k, by rw [onLine, List.length_zip]; omega, ?_⟩⟩
  simp only [onLine, List.getElem_zip, e]

theorem sum_count_all {l : List Nat} : ∀ {L : List Nat}, L.Nodup → (∀ q ∈ l, q ∈ L) → (L.map fun q => l.count q).sum = l.length := by
  induction l with
  | nil => intro L _ _; simp
  | cons a l ih =>
    intro L hL hall
    have h1 := ih hL fun q hq => hall q (by simp [hq])
    obtain ⟨s, t, rfl⟩ := List.append_of_mem (hall a (by simp))
    have hne : ∀ q, q ∈ s ∨ q ∈ t → (a == q) = false := by
      intro q hq
      rw [List.nodup_append, List.nodup_cons] at hL
      simp only [beq_eq_false_iff_ne, ne_eq]
      rintro rfl
      rcases hq with hq | hq
      · exact hL.2.2 a hq a (by simp) rfl
      · exact hL.2.1.1 hq
    have e1 : (s.map fun q => (a :: l).count q) = s.map fun q => l.count q := by
      apply List.map_congr_left
      intro q hq
      rw [List.count_cons, hne q (.inl hq)]; simp
    have e2 : (t.map fun q => (a :: l).count q) = t.map fun q => l.count q := by
      apply List.map_congr_left
      intro q hq
      rw [List.count_cons, hne q (.inr hq)]; simp
    simp only [List.map_append, List.map_cons, List.sum_append, List.sum_cons, e1, e2, List.count_cons_self,
      List.length_cons] at h1 ⊢
    omega

/-- The construction yields a line partition. -/
theorem build_part {G : View} (hG : G.WF) (hcs : CountSym G) {order : List Nat} (hnd : order.Nodup)
    (hmem : ∀ n, n ∈ order ↔ n ∈ G.nodes) (harc : ∀ m n, VArc G .outgoing m n → Before order m n) :
    ∃ c, build G order ⟨fun _ => ⟨[], 0⟩, 0⟩ ⟨G, fun _ => ⟨[], 0⟩, []⟩ = some c ∧ c.graph = G ∧
      Part c (VArc G .outgoing) (· ∈ G.nodes) ∧ Wired G c := by
  obtain ⟨e, c, h1, h⟩ := build_ok hG hcs hnd harc (pre := []) rfl (e := ⟨fun _ => ⟨[], 0⟩, 0⟩)
    (c := ⟨G, fun _ => ⟨[], 0⟩, []⟩)
    ⟨rfl, rfl, by simp [getLines], by simp, by simp, by simp [getLines], by simp, by simp,
      by simp [getLines], by simp, ⟨by simp, by simp⟩, by simp, by simp, by simp, by simp, by simp, by simp, by simp, by simp,
      by simp, by simp⟩
  have hnodes : ∀ n, n ∈ order.reverse ↔ n ∈ G.nodes := by
    intro n; rw [List.mem_reverse, hmem]
  have hin : ∀ a b, VArc G .outgoing a b → a ∈ order.reverse ∧ b ∈ order.reverse := by
    intro a b hab
    have := before_index (harc a b hab)
    simpa using this
  -- the frontier is empty in the end
  have hempty : ∀ n ∈ order.reverse, ∀ p ∈ G.ports n .outgoing, (e.frontier p).lines = [] := by
    intro n hn p hp
    have h2 := h.frLen n hn p hp
    have h3 : (order.reverse.flatMap (entering G)).count p = (G.links p).length := by
      have e1 : order.reverse.flatMap (entering G) = (order.reverse.flatMap fun m => G.ports m .incoming).flatMap G.links := by
        rw [List.flatMap_assoc]
        apply List.flatMap_congr
        intro m _
        exact lk_ins G m .incoming
      have e2 : (List.count p ∘ G.links) = fun q => (G.links p).count q := by
        funext q; exact hcs q p
      rw [e1, List.count_flatMap, e2]
      apply sum_count_all
      · rw [List.nodup_flatMap]
        refine ⟨fun m _ => hG.ports_nodup m .incoming, (List.nodup_reverse.2 hnd).imp ?_⟩
        intro a b hab q ha hb
        have h1 := (hG.ports_node _ _ _ ha).1
        have h2 := (hG.ports_node _ _ _ hb).1
        rw [h1] at h2; simp at h2; exact hab h2
      · intro q hq
        obtain ⟨m, hm⟩ := hG.link_dir _ _ _ _ hp hq
        exact List.mem_flatMap.2 ⟨m, (hnodes m).2 (hG.ports_node _ _ _ hm).2.1, hm⟩
    exact List.length_eq_zero_iff.1 (by omega)
  refine ⟨c, h1, h.graph, ⟨h.chain, h.mem, h.valid, ?_, ?_, ?_, h.nodup, ?_, ?_, ?_⟩, fun m hm => h.prev m ((hnodes m).2 hm), h.ne,
    ?_, ?_, ?_, ⟨order.reverse, List.nodup_reverse.2 hnd, hnodes, h.count.trans h.total⟩, ?_, ?_, ?_⟩
  · intro a b hab
    exact h.fwd a (hin a b hab).1 b (hin a b hab).2 hab
  · intro a b hab
    obtain ⟨p, hp, q, hq, hqb⟩ := id hab
    have hb := (hin a b hab).2
    obtain ⟨l, hl⟩ := mem_onLine_of (h.len b hb .incoming) (mem_lk.2 ⟨hqb, hG.link_sym _ _ hq⟩)
    obtain ⟨a', _, ⟨q', hq'⟩, h2⟩ := h.inc b hb q p l hl
    have hpa' := (mem_lk.1 (List.of_mem_zip hq').1).1
    have : a' = a := by
      have h3 := (hG.ports_node _ _ _ hp).1
      have h4 := (hG.ports_node _ _ _ hpa').1
      rw [h3] at h4; simp at h4; exact h4.symm
    subst this
    exact ⟨l, h2⟩
  · intro n hn
    exact h.some_line n ((hnodes n).2 hn)
  · intro a b hab
    exact varc_nodes hG hab
  · intro n; rw [h.graph]
  · intro a _ b; rw [h.graph]; exact mem_neighbours hG
  · intro n hn; exact (hnodes n).1 (by_contra fun hc => hn (h.unproc n hc))
  · intro n hn; exact h.lenEq n ((hnodes n).2 hn)
  · intro n hn
    rcases h.tight n ((hnodes n).2 hn) with h2 | ⟨m, _, h2, h3⟩
    · exact .inl h2
    · exact .inr ⟨m, h2, h3⟩
  · intro n hn d; exact h.len n ((hnodes n).2 hn) d
  · intro n hn p q l hz
    have hp := (mem_lk.1 (List.of_mem_zip hz).1).1
    rcases h.out n ((hnodes n).2 hn) p q l hz with h2 | ⟨m, hm, h3⟩
    · rw [hempty n ((hnodes n).2 hn) p hp] at h2; simp at h2
    · exact ⟨m, (hnodes m).1 hm, h3⟩
  · intro m hm q p l hz
    obtain ⟨n, hn, h2⟩ := h.inc m ((hnodes m).2 hm) q p l hz
    exact ⟨n, (hnodes n).1 hn, h2⟩

end Line

end Verif.Convex
