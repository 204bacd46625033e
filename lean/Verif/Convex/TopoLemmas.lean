import Verif.Convex.TopoModel
import Verif.Convex.Spec

/-!
# The convexity search at the level of positions
-/

namespace Verif.Convex

open Verif (Direction)
open Verif.Algo

/-- Strictly increasing lists. -/
abbrev Inc (l : List Nat) : Prop := l.Pairwise (· < ·)

theorem mem_ins {x y : Nat} {l : List Nat} : y ∈ ins x l ↔ y = x ∨ y ∈ l := by
  induction l with
  | nil => simp [ins]
  | cons z l ih =>
    simp only [ins]
    split
    · simp
    · split
      · simp only [List.mem_cons]; grind
      · simp only [List.mem_cons, ih]; grind

theorem inc_ins {x : Nat} {l : List Nat} (h : Inc l) : Inc (ins x l) := by
  induction l with
  | nil => simp [ins]
  | cons z l ih =>
    have h' := List.pairwise_cons.1 h
    simp only [ins]
    split
    · refine List.pairwise_cons.2 ⟨?_, h⟩
      intro y hy
      rcases List.mem_cons.1 hy with hy | hy
      · omega
      · have := h'.1 y hy; omega
    · split
      · exact h
      · refine List.pairwise_cons.2 ⟨?_, ih h'.2⟩
        intro y hy
        rcases mem_ins.1 hy with hy | hy
        · omega
        · exact h'.1 y hy

theorem toSet_aux {l s : List Nat} (hs : Inc s) :
    Inc (l.foldl (fun s x => ins x s) s) ∧ ∀ y, y ∈ l.foldl (fun s x => ins x s) s ↔ y ∈ l ∨ y ∈ s := by
  induction l generalizing s with
  | nil => simp [hs]
  | cons x l ih =>
    obtain ⟨h1, h2⟩ := ih (inc_ins (x := x) hs)
    refine ⟨h1, fun y => ?_⟩
    simp only [List.foldl_cons, h2, mem_ins, List.mem_cons]
    grind

theorem inc_toSet (l : List Nat) : Inc (toSet l) := (toSet_aux List.Pairwise.nil).1

theorem mem_toSet {l : List Nat} {y : Nat} : y ∈ toSet l ↔ y ∈ l := by
  simpa [toSet] using (toSet_aux (l := l) (s := []) List.Pairwise.nil).2 y

namespace Topo

theorem insertOut_ok {nodes : List Nat} {lo hi : Nat} {xs other : List Nat} (h : Inc other) :
    Inc (insertOut nodes lo hi xs other) ∧ ∀ y, y ∈ insertOut nodes lo hi xs other ↔
      y ∈ other ∨ (y ∈ xs ∧ lo ≤ y ∧ y ≤ hi ∧ y ∉ nodes) := by
  induction xs generalizing other with
  | nil => simp [insertOut, h]
  | cons x xs ih =>
    simp only [insertOut]
    split
    · rename_i hc
      simp only [Bool.and_eq_true, decide_eq_true_eq, Bool.not_eq_true', List.contains_eq_mem,
        decide_eq_false_iff_not] at hc
      obtain ⟨h1, h2⟩ := ih (inc_ins (x := x) h)
      refine ⟨h1, fun y => ?_⟩
      rw [h2, mem_ins]; grind
    · rename_i hc
      simp only [Bool.and_eq_true, decide_eq_true_eq, Bool.not_eq_true', List.contains_eq_mem,
        decide_eq_false_iff_not] at hc
      obtain ⟨h1, h2⟩ := ih h
      refine ⟨h1, fun y => ?_⟩
      rw [h2]; grind

theorem insertIn_none {nodes : List Nat} {lo hi : Nat} {xs other : List Nat} :
    insertIn nodes lo hi xs other = none ↔ ∃ x ∈ xs, lo ≤ x ∧ x ≤ hi ∧ x ∈ nodes := by
  induction xs generalizing other with
  | nil => simp [insertIn]
  | cons x xs ih =>
    simp only [insertIn]
    split
    · rename_i hc
      simp only [Bool.and_eq_true, decide_eq_true_eq] at hc
      split
      · rename_i hn
        simp only [List.contains_eq_mem, decide_eq_true_eq] at hn
        simp only [true_iff]
        exact ⟨x, by simp, hc.1, hc.2, hn⟩
      · rename_i hn
        simp only [List.contains_eq_mem, decide_eq_true_eq] at hn
        rw [ih]; grind
    · rename_i hc
      simp only [Bool.and_eq_true, decide_eq_true_eq] at hc
      rw [ih]; grind

theorem insertIn_some {nodes : List Nat} {lo hi : Nat} {xs other o : List Nat} (h : Inc other)
    (e : insertIn nodes lo hi xs other = some o) :
    Inc o ∧ ∀ y, y ∈ o ↔ y ∈ other ∨ (y ∈ xs ∧ lo ≤ y ∧ y ≤ hi) := by
  induction xs generalizing other with
  | nil => simp [insertIn] at e; simp [← e, h]
  | cons x xs ih =>
    simp only [insertIn] at e
    split at e
    · rename_i hc
      simp only [Bool.and_eq_true, decide_eq_true_eq] at hc
      split at e
      · simp at e
      · obtain ⟨h1, h2⟩ := ih (inc_ins (x := x) h) e
        refine ⟨h1, fun y => ?_⟩
        rw [h2, mem_ins]; grind
    · rename_i hc
      simp only [Bool.and_eq_true, decide_eq_true_eq] at hc
      obtain ⟨h1, h2⟩ := ih h e
      refine ⟨h1, fun y => ?_⟩
      rw [h2]; grind

/-- Positions joined by a link. -/
def IArc (c : Topo) (i j : Nat) : Prop :=
  ∃ n, c.order[i]? = some n ∧ j ∈ (neighbours c.graph n .outgoing).map c.ind

/-- Links go forward in the order. -/
def Forward (c : Topo) : Prop := ∀ i j, c.IArc i j → i < j ∧ j < c.order.length

theorem Forward.le {c : Topo} (hf : c.Forward) {i j} (h : Relation.ReflTransGen c.IArc i j) : i ≤ j := by
  induction h with
  | refl => exact Nat.le_refl _
  | tail _ h ih => have := (hf _ _ h).1; omega

/-- Outside positions in the future of the set. -/
def Fut (c : Topo) (nodes : List Nat) (hi x : Nat) : Prop :=
  x ∉ nodes ∧ x ≤ hi ∧ ∃ s ∈ nodes, Relation.ReflTransGen c.IArc s x

/-- All positions below `b` were handled. -/
structure LInv (c : Topo) (nodes : List Nat) (lo hi b : Nat) (ns other : List Nat) : Prop where
  ns_inc : Inc ns
  other_inc : Inc other
  hns : ∀ x, x ∈ ns ↔ x ∈ nodes ∧ b ≤ x
  hoth : ∀ x ∈ other, b ≤ x ∧ c.Fut nodes hi x
  next : ∀ y x, y < b → (y ∈ nodes ∨ c.Fut nodes hi y) → c.IArc y x → x ∉ nodes → x ≤ hi → b ≤ x → x ∈ other
  safe : ∀ y x, y < b → c.Fut nodes hi y → c.IArc y x → x ∉ nodes

/-- The first position not handled on a path from the set. -/
theorem LInv.frontier {c : Topo} {nodes lo hi b ns other} (h : LInv c nodes lo hi b ns other) (hf : c.Forward)
    {s x} (hs : s ∈ nodes) (hp : Relation.ReflTransGen c.IArc s x) (hx : x ≤ hi) (hb : b ≤ x) :
    ∃ z, z ≤ x ∧ (z ∈ ns ∨ z ∈ other) := by
  induction hp with
  | refl => exact ⟨s, Nat.le_refl _, .inl ((h.hns _).2 ⟨hs, hb⟩)⟩
  | @tail y x hp hxy ih =>
    have hlt := (hf _ _ hxy).1
    by_cases hy : b ≤ y
    · obtain ⟨z, hz, hz'⟩ := ih (by omega) hy
      exact ⟨z, by omega, hz'⟩
    · by_cases hxn : x ∈ nodes
      · exact ⟨x, Nat.le_refl _, .inl ((h.hns _).2 ⟨hxn, hb⟩)⟩
      · refine ⟨x, Nat.le_refl _, .inr (h.next y x (by omega) ?_ hxy hxn hx hb)⟩
        by_cases hyn : y ∈ nodes
        · exact .inl hyn
        · exact .inr ⟨hyn, by omega, s, hs, hp⟩

theorem LInv.done {c : Topo} {nodes lo hi b other} (h : LInv c nodes lo hi b [] other) (hf : c.Forward)
    (hhi : ∀ x ∈ nodes, x ≤ hi) : Convex c.IArc nodes := by
  intro s hs t ht x hsx hxt
  induction hxt using Relation.ReflTransGen.head_induction_on with
  | refl => exact ht
  | @head x y hxy hyt ih =>
    have hy := ih (hsx.tail hxy)
    by_contra hx
    have h1 := (hf _ _ hxy).1
    have h2 := hhi _ hy
    have h3 : y < b := by
      have := h.hns y
      simp only [List.not_mem_nil, false_iff, not_and] at this
      have := this hy; omega
    exact h.safe x y (by omega) ⟨hx, by omega, s, hs, hsx⟩ hxy hy

theorem loop_ok {c : Topo} (hf : c.Forward) {nodes : List Nat} {lo hi : Nat} (hlo : ∀ x ∈ nodes, lo ≤ x)
    (hhi : ∀ x ∈ nodes, x ≤ hi) (hlen : hi < c.order.length) {f b : Nat} {ns other : List Nat}
    (h : LInv c nodes lo hi b ns other) (hfuel : c.order.length < f + b) (hb : b ≤ c.order.length) :
    ∃ r, loop c nodes lo hi f ns other = some r ∧ (r = true ↔ Convex c.IArc nodes) := by
  induction f generalizing b ns other with
  | zero => omega
  | succ f ih =>
    cases ns with
    | nil => exact ⟨true, rfl, by simp [h.done hf hhi]⟩
    | cons x xs =>
      have hx : x ∈ nodes ∧ b ≤ x := (h.hns x).1 (by simp)
      have hxs := List.pairwise_cons.1 h.ns_inc
      have hxl : x < c.order.length := by have := hhi x hx.1; omega
      have node : (∀ y ∈ other, x < y) → ∃ n, c.order[x]? = some n ∧ ∃ r, loop c nodes lo hi f xs
          (insertOut nodes lo hi ((neighbours c.graph n .outgoing).map c.ind) other) = some r ∧
          (r = true ↔ Convex c.IArc nodes) := by
        intro hlt
        refine ⟨c.order[x], by simp [hxl], ?_⟩
        have he : c.order[x]? = some c.order[x] := by simp [hxl]
        have harc : ∀ j, c.IArc x j ↔ j ∈ (neighbours c.graph c.order[x] .outgoing).map c.ind := by
          intro j; unfold IArc; rw [he]; simp
        obtain ⟨h1, h2⟩ := insertOut_ok (nodes := nodes) (lo := lo) (hi := hi)
          (xs := (neighbours c.graph c.order[x] .outgoing).map c.ind) h.other_inc
        -- no position between `b` and `x` is in the future
        have hgap : ∀ y, b ≤ y → y < x → ¬ (y ∈ nodes ∨ c.Fut nodes hi y) := by
          rintro y hby hyx (hy | ⟨_, hy, s, hs, hp⟩)
          · have := (h.hns y).2 ⟨hy, hby⟩
            rcases List.mem_cons.1 this with h | h
            · omega
            · have := hxs.1 _ h; omega
          · obtain ⟨z, hz, hz'⟩ := h.frontier hf hs hp hy hby
            rcases hz' with hz' | hz'
            · rcases List.mem_cons.1 hz' with h | h
              · omega
              · have := hxs.1 _ h; omega
            · have := hlt _ hz'; omega
        refine ih (b := x + 1) ⟨hxs.2, h1, ?_, ?_, ?_, ?_⟩ (by omega) (by omega)
        · intro y
          have := h.hns y
          constructor
          · intro hy
            exact ⟨(this.1 (by simp [hy])).1, hxs.1 _ hy⟩
          · rintro ⟨hy, hy'⟩
            rcases List.mem_cons.1 (this.2 ⟨hy, by omega⟩) with h | h
            · omega
            · exact h
        · intro y hy
          rcases (h2 y).1 hy with hy | ⟨hy, hy1, hy2, hy3⟩
          · exact ⟨hlt _ hy, (h.hoth _ hy).2⟩
          · have ha := (harc y).2 hy
            exact ⟨(hf _ _ ha).1, hy3, hy2, x, hx.1, .single ha⟩
        · intro y z hy hyn hyz hz hzhi hzb
          rw [h2]
          by_cases hyx : y = x
          · subst hyx
            exact .inr ⟨(harc z).1 hyz, by have := hlo _ hx.1; omega, hzhi, hz⟩
          · refine .inl (h.next y z ?_ hyn hyz hz hzhi (by omega))
            by_contra hc
            exact hgap y (by omega) (by omega) hyn
        · intro y z hy hyn hyz
          by_cases hyx : y = x
          · subst hyx; exact absurd hx.1 hyn.1
          · refine h.safe y z ?_ hyn hyz
            by_contra hc
            exact hgap y (by omega) (by omega) (.inr hyn)
      cases other with
      | nil =>
        obtain ⟨n, e, hr⟩ := node (by simp)
        simp only [loop, e]; exact hr
      | cons y ys =>
        have hys := List.pairwise_cons.1 h.other_inc
        by_cases hxy : x < y
        · obtain ⟨n, e, hr⟩ := node (by
            intro z hz
            rcases List.mem_cons.1 hz with h | h
            · omega
            · have := hys.1 _ h; omega)
          simp only [loop, if_pos hxy, e]; exact hr
        · obtain ⟨hby, hfy⟩ := h.hoth y (by simp)
          have hne : y ≠ x := fun e => hfy.1 (e ▸ hx.1)
          have hyl : y < c.order.length := by have := hfy.2.1; omega
          have he : c.order[y]? = some c.order[y] := by simp [hyl]
          have harc : ∀ j, c.IArc y j ↔ j ∈ (neighbours c.graph c.order[y] .outgoing).map c.ind := by
            intro j; unfold IArc; rw [he]; simp
          have hloy : lo ≤ y := by
            obtain ⟨_, _, s, hs, hp⟩ := hfy
            have := hlo _ hs
            have := hf.le hp
            omega
          have hgap : ∀ z, b ≤ z → z < y → ¬ (z ∈ nodes ∨ c.Fut nodes hi z) := by
            rintro z hbz hzy (hz | ⟨_, hz, s, hs, hp⟩)
            · have := (h.hns z).2 ⟨hz, hbz⟩
              rcases List.mem_cons.1 this with h | h
              · omega
              · have := hxs.1 _ h; omega
            · obtain ⟨w, hw, hw'⟩ := h.frontier hf hs hp hz hbz
              rcases hw' with hw' | hw'
              · rcases List.mem_cons.1 hw' with h | h
                · omega
                · have := hxs.1 _ h; omega
              · rcases List.mem_cons.1 hw' with h | h
                · omega
                · have := hys.1 _ h; omega
          simp only [loop, if_neg hxy, he]
          cases ei : insertIn nodes lo hi ((neighbours c.graph c.order[y] .outgoing).map c.ind) ys with
          | none =>
            obtain ⟨t, ht, _, _, htn⟩ := insertIn_none.1 ei
            refine ⟨false, rfl, ?_⟩
            simp only [Bool.false_eq_true, false_iff]
            intro hc
            obtain ⟨hyn, _, s, hs, hp⟩ := hfy
            exact hyn (hc s hs t htn y hp (.single ((harc t).2 ht)))
          | some o =>
            obtain ⟨h1, h2⟩ := insertIn_some hys.2 ei
            have hno : ∀ t, c.IArc y t → t ∉ nodes := by
              intro t ht htn
              have : insertIn nodes lo hi ((neighbours c.graph c.order[y] .outgoing).map c.ind) ys = none :=
                insertIn_none.2 ⟨t, (harc t).1 ht, hlo t htn, hhi t htn, htn⟩
              rw [ei] at this; simp at this
            refine ih (b := y + 1) ⟨h.ns_inc, h1, ?_, ?_, ?_, ?_⟩ (by omega) (by omega)
            · intro z
              rw [h.hns]
              constructor
              · rintro ⟨hz, hbz⟩
                refine ⟨hz, ?_⟩
                by_contra hc
                by_cases hzy : z = y
                · exact hfy.1 (hzy ▸ hz)
                · exact hgap z hbz (by omega) (.inl hz)
              · rintro ⟨hz, hbz⟩
                exact ⟨hz, by omega⟩
            · intro z hz
              rcases (h2 z).1 hz with hz | ⟨hz, hz1, hz2⟩
              · exact ⟨hys.1 _ hz, (h.hoth z (by simp [hz])).2⟩
              · have ha := (harc z).2 hz
                obtain ⟨_, _, s, hs, hp⟩ := hfy
                exact ⟨(hf _ _ ha).1, hno _ ha, hz2, s, hs, hp.tail ha⟩
            · intro w z hw hwn hwz hz hzhi hzb
              rw [h2]
              by_cases hwy : w = y
              · subst hwy
                exact .inr ⟨(harc z).1 hwz, by omega, hzhi⟩
              · have : w < b := by
                  by_contra hc
                  exact hgap w (by omega) (by omega) hwn
                have hzo := h.next w z this hwn hwz hz hzhi (by omega)
                rcases List.mem_cons.1 hzo with h | h
                · omega
                · exact .inl h
            · intro w z hw hwn hwz
              by_cases hwy : w = y
              · subst hwy; exact hno _ hwz
              · refine h.safe w z ?_ hwn hwz
                by_contra hc
                exact hgap w (by omega) (by omega) (.inr hwn)

theorem inc_head_le {l : List Nat} (h : Inc l) : ∀ x ∈ l, l.headD 0 ≤ x := by
  cases l with
  | nil => simp
  | cons a l =>
    intro x hx
    rcases List.mem_cons.1 hx with h' | h'
    · simp [h']
    · exact Nat.le_of_lt ((List.pairwise_cons.1 h).1 x h')

theorem inc_le_last {l : List Nat} (h : Inc l) : ∀ x ∈ l, x ≤ l.getLastD 0 := by
  induction l with
  | nil => simp
  | cons a l ih =>
    have h' := List.pairwise_cons.1 h
    intro x hx
    cases l with
    | nil => simp at hx; simp [hx]
    | cons b l =>
      have e : (a :: b :: l).getLastD 0 = (b :: l).getLastD 0 := by simp [List.getLastD]
      rw [e]
      rcases List.mem_cons.1 hx with hx | hx
      · have h1 := h'.1 b (by simp)
        have h2 := ih h'.2 b (by simp)
        omega
      · exact ih h'.2 x hx

theorem getLastD_mem {l : List Nat} (h : l ≠ []) : l.getLastD 0 ∈ l := by
  rw [List.getLastD_eq_getLast?, List.getLast?_eq_some_getLast h]
  simp

/-- The search at the level of positions. -/
theorem search_ok {c : Topo} (hf : c.Forward) {S : List Nat} (hS : ∀ n ∈ S, c.ind n < c.order.length) :
    ∃ r, c.isNodeConvex S = some r ∧ (r = true ↔ Convex c.IArc (toSet (S.map c.ind))) := by
  unfold isNodeConvex
  simp only
  have hinc := inc_toSet (S.map c.ind)
  have hlt : ∀ x ∈ toSet (S.map c.ind), x < c.order.length := by
    intro x hx
    obtain ⟨n, hn, rfl⟩ := List.mem_map.1 (mem_toSet.1 hx)
    exact hS n hn
  generalize toSet (S.map c.ind) = nodes at hinc hlt ⊢
  split
  · rename_i hl
    refine ⟨true, rfl, ?_⟩
    simp only [true_iff]
    intro s hs t ht x hsx hxt
    have : s = t := by
      match nodes, hl with
      | [], _ => simp at hs
      | [a], _ => simp at hs ht; omega
    subst this
    have h1 := hf.le hsx
    have h2 := hf.le hxt
    have : x = s := by omega
    exact this ▸ hs
  · rename_i hl
    have hne : nodes ≠ [] := by rintro rfl; simp at hl
    refine loop_ok hf (inc_head_le hinc) (inc_le_last hinc) (hlt _ (getLastD_mem hne)) (b := 0)
      ⟨hinc, List.Pairwise.nil, by simp, by simp, by simp, by simp⟩ (by omega) (by omega)

end Topo

end Verif.Convex
