import Verif.Dyn.Update
import Verif.PortGraph.PropsOps

/-!
# The checker: its graph and its order stay in step
-/

namespace Verif.Dyn

open Verif (Direction)
open Verif.PG
open Verif.Algo
open Verif.Convex

theorem live_counts {g : PG} {n : Nat} : g.containsNode n = true ↔ (g.abs.counts n).isSome := by
  unfold PG.abs
  by_cases h : g.containsNode n = true <;> simp [h]

theorem arc_add {g g' : PG} {n i o : Nat} (h : g'.abs = g.abs.add n i o) {d : Direction} {a b : Nat} :
    Arc g' d a b ↔ Arc g d a b := by
  unfold Arc; rw [h]; rfl

theorem live_add {g g' : PG} {n i o : Nat} (h : g'.abs = g.abs.add n i o) {x : Nat} :
    g'.containsNode x = true ↔ g.containsNode x = true ∨ x = n := by
  rw [live_counts, live_counts, h]
  simp only [AGraph.add]
  by_cases hx : x = n <;> simp [hx]

theorem cut_link {A : AGraph} {S : Endpoint → Bool} {e f : Endpoint} :
    (A.cutEnds S).link e = some f ↔ A.link e = some f ∧ S e = false ∧ S f = false := by
  simp only [AGraph.cutEnds]
  by_cases h : S e = true
  · simp [h]
  · rw [if_neg h]
    cases hl : A.link e with
    | none => simp
    | some f' =>
      by_cases h' : S f' = true
      · simp only [h', if_true, Option.some.injEq]
        constructor
        · simp
        · rintro ⟨rfl, _, h2⟩; rw [h'] at h2; simp at h2
      · simp only [if_neg h', Option.some.injEq]
        constructor
        · rintro rfl; exact ⟨rfl, by simpa using h, by simpa using h'⟩
        · exact fun h => h.1

theorem arc_remove {g g' : PG} {n : Nat} (h : g'.abs = g.abs.remove n) {d : Direction} {a b : Nat} :
    Arc g' d a b ↔ Arc g d a b ∧ a ≠ n ∧ b ≠ n := by
  unfold Arc
  rw [h]
  have : ∀ j k, (g.abs.remove n).link (a, d, j) = some (b, d.reverse, k) ↔
      g.abs.link (a, d, j) = some (b, d.reverse, k) ∧ a ≠ n ∧ b ≠ n := by
    intro j k
    refine (cut_link (A := g.abs) (S := fun e => decide (e.1 = n))).trans ?_
    simp
  simp only [this]
  constructor
  · rintro ⟨j, k, h1, h2⟩; exact ⟨⟨j, k, h1⟩, h2⟩
  · rintro ⟨⟨j, k, h1⟩, h2⟩; exact ⟨j, k, h1, h2⟩

theorem live_remove {g g' : PG} {n : Nat} (h : g'.abs = g.abs.remove n) {x : Nat} :
    g'.containsNode x = true ↔ g.containsNode x = true ∧ x ≠ n := by
  rw [live_counts, live_counts, h]
  simp only [AGraph.remove]
  by_cases hx : x = n <;> simp [hx]

theorem arc_unlink {g g' : PG} {e : Endpoint} (h : g'.abs = g.abs.unlink e) {d : Direction} {a b : Nat}
    (ha : Arc g' d a b) : Arc g d a b := by
  obtain ⟨j, k, hj⟩ := ha
  rw [h] at hj
  exact ⟨j, k, ((cut_link (A := g.abs)).1 hj).1⟩

theorem live_unlink {g g' : PG} {e : Endpoint} (h : g'.abs = g.abs.unlink e) {x : Nat} :
    g'.containsNode x = true ↔ g.containsNode x = true := by
  rw [live_counts, live_counts, h]; rfl

theorem live_join {g g' : PG} {e f : Endpoint} (h : g'.abs = g.abs.join e f) {x : Nat} :
    g'.containsNode x = true ↔ g.containsNode x = true := by
  rw [live_counts, live_counts, h]; rfl

theorem free_end {g : PG} (hI : Inv g) {p : Nat} {e : Endpoint} (he : g.endpoint p = some e) (hl : g.portLink? p = some none) :
    g.abs.link e = none := by
  have h := at_index.2 ((endpoint_at hI).1 he)
  simp only [PG.abs]
  rw [h]
  simp only
  rw [hl]

theorem endpoint_node {g : PG} {p : Nat} {e : Endpoint} (he : g.endpoint p = some e) :
    g.portNode p = some e.1 := by
  unfold PG.endpoint at he
  split at he
  · rename_i h _
    simp only [Option.some.injEq] at he
    subst he; exact h
  · simp at he

/-- Linking an outgoing port of `a` with an incoming port of `b` adds the arc from `a` to `b`. -/
theorem arc_join {g g' : PG} (hI : Inv g) {p q a b j k : Nat} (hp : g.endpoint p = some (a, .outgoing, j))
    (hq : g.endpoint q = some (b, .incoming, k)) (lp : g.portLink? p = some none) (lq : g.portLink? q = some none)
    (h : g'.abs = g.abs.join (a, .outgoing, j) (b, .incoming, k)) {x y : Nat} :
    Arc g' .outgoing x y ↔ Plus (Arc g .outgoing) a b x y := by
  have np := free_end hI hp lp
  have nq := free_end hI hq lq
  unfold Plus Arc
  rw [h]
  simp only [AGraph.join, Direction.reverse]
  constructor
  · rintro ⟨j', k', hl⟩
    split at hl
    · rename_i e
      simp at e hl
      exact .inr ⟨e.1, hl.1.symm⟩
    · simp only [Prod.mk.injEq, reduceCtorEq, false_and, and_false, if_false] at hl
      exact .inl ⟨j', k', hl⟩
  · rintro (⟨j', k', hl⟩ | ⟨rfl, rfl⟩)
    · refine ⟨j', k', ?_⟩
      split
      · rename_i e
        rw [← e, hl] at np; simp at np
      · simp only [Prod.mk.injEq, reduceCtorEq, false_and, and_false, if_false]
        exact hl
    · exact ⟨j, k, by simp⟩

theorem arc_view {g : PG} (hI : Inv g) : VArc (ofPG g) .outgoing = Arc g .outgoing := by
  funext x y; exact propext (varc_iff hI)

theorem shows_self {g : PG} (hI : Inv g) (a b : Nat) : Shows (ofPG g) (Arc g .outgoing) a b :=
  ⟨ofPG_wf hI, fun x y h => (varc_iff hI).2 h, fun x y h => .inl ((varc_iff hI).1 h)⟩

theorem shows_join {g g' : PG} (hI' : Inv g') {a b : Nat}
    (h : ∀ x y, Arc g' .outgoing x y ↔ Plus (Arc g .outgoing) a b x y) : Shows (ofPG g') (Arc g .outgoing) a b :=
  ⟨ofPG_wf hI', fun x y hx => (varc_iff hI').2 ((h x y).2 (.inl hx)), fun x y hx => (h x y).1 ((varc_iff hI').1 hx)⟩

/-! ## `connect_nodes` -/

variable {D : TSort} {V : Nat → Prop} {R : Nat → Nat → Prop} {G : View} {a b pa pb : Nat}

theorem connect_cycle (h : Valid D V R) (hs : Shows G R a b) (ha : V a) (hb : V b) (hc : Relation.ReflTransGen R b a) :
    D.connectNodes G a b = some (.error (.wouldCreateCycle a b)) := by
  obtain ⟨pa, hpa⟩ := h.tracked.1 ha
  obtain ⟨pb, hpb⟩ := h.tracked.1 hb
  obtain ⟨r, h1, h2⟩ := cycle_ok h hs ha
  rw [h2.2 hc] at h1
  simp [TSort.connectNodes, hpa, hpb, h1]

theorem connect_forward (h : Valid D V R) (hs : Shows G R a b) (hpa : D.pos a = some pa) (hpb : D.pos b = some pb)
    (hlt : pa < pb) : D.connectNodes G a b = some (.ok D) ∧ Valid D V (Plus R a b) := by
  obtain ⟨r, h1, h2⟩ := cycle_ok h hs (h.tracked.2 ⟨pa, hpa⟩)
  have hr : r = false := by
    cases r with
    | false => rfl
    | true =>
      have := h.le (h2.1 rfl) hpb hpa
      omega
  subst hr
  refine ⟨?_, h.nodup, h.mem, h.pos, ?_⟩
  · simp only [TSort.connectNodes, hpa, hpb, h1]
    rw [if_neg (by omega)]
  · rintro x y (hxy | ⟨rfl, rfl⟩)
    · exact h.forward x y hxy
    · exact before_iff.2 ⟨pa, pb, hlt, (h.pos _ _).1 hpa, (h.pos _ _).1 hpb⟩

theorem connect_back (h : Valid D V R) (hs : Shows G R a b) (hpa : D.pos a = some pa) (hpb : D.pos b = some pb)
    (hlt : pb < pa) (hnc : ¬ Relation.ReflTransGen R b a) :
    ∃ B F D', D.cone G a pb .incoming = some B ∧ D.cone G b pa .outgoing = some F ∧ Cones D R a b pa pb B F ∧
      D.connectNodes G a b = some (.ok D') ∧ (D'.order.Nodup ↔ Related D R a b pa pb) ∧
      (Valid D' V (Plus R a b) ↔ Related D R a b pa pb ∧ Sorted R B ∧ Sorted R F) := by
  obtain ⟨B, F, D', h1, h2, h3, h4, h5, h6, h7⟩ := update_cones h hs hpa hpb hlt hnc
  obtain ⟨r, c1, c2⟩ := cycle_ok h hs (h.tracked.2 ⟨pa, hpa⟩)
  have hr : r = false := by
    cases r with
    | false => rfl
    | true => exact absurd (c2.1 rfl) hnc
  subst hr
  refine ⟨B, F, D', h1, h2, h3, ?_, (update_nodup h hpa hpb hlt h3 h4 h6).1, update_valid h hpa hpb hlt hnc h3 h4 h6 h7⟩
  simp only [TSort.connectNodes, hpa, hpb, c1]
  rw [if_pos (by omega), h5]; rfl

/-- The backward cone starts with its own last node, so it is sorted only if it has no other. -/
theorem sortedB (h : Valid D V R) (hpa : D.pos a = some pa) {B F : List Nat} (hc : Cones D R a b pa pb B F) :
    Sorted R B ↔ ∀ x p, R x a → D.pos x = some p → p ≤ pb := by
  obtain ⟨t, rfl⟩ := hc.headB
  have hnd := (List.nodup_append.1 hc.nodup).1
  constructor
  · intro hs x p hxa hp
    by_contra hlt
    have hx := (hc.memB x).2 ⟨.single hxa, p, hp, by omega⟩
    have := hs x a hxa hx (by simp)
    obtain ⟨u, v, hu, hxu⟩ := this
    cases u with
    | nil => simp at hxu
    | cons y u =>
      simp at hu
      rw [← hu.1] at hxu
      rw [hu.2] at hnd
      simp at hnd
  · intro hs x y hxy hx hy
    have hone : ∀ z, z ∈ [a] ++ t → z = a := by
      intro z hz
      obtain ⟨hza, p, hp, hlt⟩ := (hc.memB z).1 hz
      rcases Relation.ReflTransGen.cases_tail hza with rfl | ⟨w, hzw, hwa⟩
      · rfl
      · obtain ⟨q, hq⟩ := h.tracked.1 (h.live hwa).1
        have := h.le hzw hp hq
        have := hs w q hwa hq
        omega
    obtain rfl := hone x hx
    obtain rfl := hone y hy
    exact absurd (h.lt hxy hpa hpa) (by omega)

/-- What `connect_nodes` needs to give a valid order. -/
def Good (D : TSort) (R : Nat → Nat → Prop) (G : View) (a b pa pb : Nat) : Prop :=
  pa < pb ∨ ((∀ x p, D.pos x = some p → pb < p → p < pa → Relation.ReflTransGen R b x) ∧
    ∀ F, D.cone G b pa .outgoing = some F → Sorted R F)

theorem connect_valid (h : Valid D V R) (hs : Shows G R a b) (hpa : D.pos a = some pa) (hpb : D.pos b = some pb)
    (hnc : ¬ Relation.ReflTransGen R b a) :
    ∃ D', D.connectNodes G a b = some (.ok D') ∧ (Valid D' V (Plus R a b) ↔ Good D R G a b pa pb) := by
  have hne : pa ≠ pb := by
    rintro rfl
    obtain rfl := h.inj hpa hpb
    exact hnc .refl
  rcases Nat.lt_or_gt_of_ne hne with hlt | hlt
  · obtain ⟨h1, h2⟩ := connect_forward h hs hpa hpb hlt
    exact ⟨D, h1, fun _ => .inl hlt, fun _ => h2⟩
  · obtain ⟨B, F, D', h1, h2, h3, h4, h5, h6⟩ := connect_back h hs hpa hpb hlt hnc
    refine ⟨D', h4, h6.trans ?_⟩
    rw [sortedB h hpa h3]
    constructor
    · rintro ⟨hr, hB, hF⟩
      refine .inr ⟨?_, ?_⟩
      · intro x p hx hlo hhi
        rcases hr x p hx hlo hhi with h' | h'
        · exact h'
        · exfalso
          rcases Relation.ReflTransGen.cases_tail h' with rfl | ⟨w, hxw, hwa⟩
          · rw [hpa] at hx; simp at hx; omega
          · obtain ⟨q, hq⟩ := h.tracked.1 (h.live hwa).1
            have := h.le hxw hx hq
            have := hB w q hwa hq
            omega
      · intro F' hF'
        rw [h2] at hF'; cases hF'; exact hF
    · rintro (hc | ⟨hr, hF⟩)
      · omega
      · refine ⟨fun x p hx h1 h2 => .inl (hr x p hx h1 h2), ?_, hF F h2⟩
        intro x p hxa hp
        by_contra hlo
        have := h.lt hxa hp hpa
        exact hnc ((hr x p hp (by omega) this).tail hxa)

end Verif.Dyn
