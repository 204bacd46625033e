import Verif.Dyn.Spec
import Verif.Convex.TopoProps
import Mathlib.Data.List.Perm.Subperm

/-!
# Lemmas on the dynamic topological order
-/

namespace Verif.Dyn

open Verif (Direction)
open Verif.PG
open Verif.Algo
open Verif.Convex

/-! ## Orders -/

theorem before_iff {l : List Nat} {a b : Nat} :
    Before l a b ↔ ∃ i j : Nat, i < j ∧ l[i]? = some a ∧ l[j]? = some b := by
  constructor
  · rintro ⟨u, v, rfl, h⟩
    obtain ⟨i, hi⟩ := List.mem_iff_getElem?.1 h
    have hlt := (List.getElem?_eq_some_iff.1 hi).1
    exact ⟨i, u.length, hlt, by rw [List.getElem?_append_left hlt, hi], by simp⟩
  · rintro ⟨i, j, hij, hi, hj⟩
    obtain ⟨hlt, e⟩ := List.getElem?_eq_some_iff.1 hj
    refine ⟨l.take j, l.drop (j + 1), ?_, ?_⟩
    · rw [← e, List.getElem_cons_drop, List.take_append_drop]
    · rw [List.mem_iff_getElem?]
      exact ⟨i, by rw [List.getElem?_take_of_lt hij, hi]⟩

theorem before_append_left {u v : List Nat} {a b : Nat} (h : Before u a b) : Before (u ++ v) a b := by
  obtain ⟨x, y, rfl, h⟩ := h
  exact ⟨x, y ++ v, by simp, h⟩

theorem before_append_right {u v : List Nat} {a b : Nat} (h : Before v a b) : Before (u ++ v) a b := by
  obtain ⟨x, y, rfl, h⟩ := h
  exact ⟨u ++ x, y, by simp, by simp [h]⟩

theorem before_append_mem {u v : List Nat} {a b : Nat} (ha : a ∈ u) (hb : b ∈ v) : Before (u ++ v) a b := by
  obtain ⟨x, y, rfl⟩ := List.append_of_mem hb
  exact ⟨u ++ x, y, by simp, by simp [ha]⟩

theorem before_right {u v : List Nat} (hnd : (u ++ v).Nodup) {a b : Nat} (h : Before (u ++ v) a b) (ha : a ∈ v) :
    Before v a b := by
  rw [before_iff] at h ⊢
  obtain ⟨i, j, hij, hi, hj⟩ := h
  have hiu : u.length ≤ i := by
    by_contra hc
    rw [List.getElem?_append_left (by omega)] at hi
    exact (List.nodup_append.1 hnd).2.2 a (List.mem_of_getElem? hi) a ha rfl
  rw [List.getElem?_append_right hiu] at hi
  rw [List.getElem?_append_right (by omega)] at hj
  exact ⟨i - u.length, j - u.length, by omega, hi, hj⟩

theorem before_left {u v : List Nat} (hnd : (u ++ v).Nodup) {a b : Nat} (h : Before (u ++ v) a b) (hb : b ∈ u) :
    Before u a b := by
  rw [before_iff] at h ⊢
  obtain ⟨i, j, hij, hi, hj⟩ := h
  have hju : j < u.length := by
    by_contra hc
    rw [List.getElem?_append_right (by omega)] at hj
    exact (List.nodup_append.1 hnd).2.2 b hb b (List.mem_of_getElem? hj) rfl
  rw [List.getElem?_append_left (by omega)] at hi
  rw [List.getElem?_append_left hju] at hj
  exact ⟨i, j, hij, hi, hj⟩

theorem before_asymm {l : List Nat} (hnd : l.Nodup) {a b : Nat} (h : Before l a b) (h' : Before l b a) : False := by
  rw [before_iff] at h h'
  obtain ⟨i, j, hij, hi, hj⟩ := h
  obtain ⟨i', j', hij', hi', hj'⟩ := h'
  have h1 := (List.getElem?_inj (List.getElem?_eq_some_iff.1 hi).1 hnd).1 (hi.trans hj'.symm)
  have h2 := (List.getElem?_inj (List.getElem?_eq_some_iff.1 hj).1 hnd).1 (hj.trans hi'.symm)
  omega

theorem before_total {l : List Nat} {a b : Nat} (ha : a ∈ l) (hb : b ∈ l) (hne : a ≠ b) : Before l a b ∨ Before l b a := by
  obtain ⟨i, hi⟩ := List.mem_iff_getElem?.1 ha
  obtain ⟨j, hj⟩ := List.mem_iff_getElem?.1 hb
  rcases Nat.lt_trichotomy i j with h | h | h
  · exact .inl (before_iff.2 ⟨i, j, h, hi, hj⟩)
  · subst h; rw [hi] at hj; simp at hj; exact absurd hj hne
  · exact .inr (before_iff.2 ⟨j, i, h, hj, hi⟩)

/-! ## Valid states -/

variable {D : TSort} {V : Nat → Prop} {R : Nat → Nat → Prop}

theorem Valid.tracked (h : Valid D V R) {n : Nat} : V n ↔ ∃ i, D.pos n = some i := by
  rw [← h.mem, List.mem_iff_getElem?]
  exact exists_congr fun i => (h.pos n i).symm

theorem Valid.lt (h : Valid D V R) {a b i j : Nat} (hab : R a b) (ha : D.pos a = some i) (hb : D.pos b = some j) : i < j := by
  obtain ⟨i', j', hij, hi, hj⟩ := before_iff.1 (h.forward a b hab)
  rw [← h.pos] at hi hj
  rw [ha] at hi; rw [hb] at hj
  simp at hi hj; omega

theorem Valid.live (h : Valid D V R) {a b : Nat} (hab : R a b) : V a ∧ V b := by
  have := before_index (h.forward a b hab)
  exact ⟨(h.mem a).1 this.1, (h.mem b).1 this.2⟩

theorem Valid.le (h : Valid D V R) {a b i j : Nat} (hab : Relation.ReflTransGen R a b) (ha : D.pos a = some i)
    (hb : D.pos b = some j) : i ≤ j := by
  induction hab generalizing j with
  | refl => rw [ha] at hb; simp at hb; omega
  | tail hax hxy ih =>
    obtain ⟨k, hk⟩ := h.tracked.1 (h.live hxy).1
    have := ih hk
    have := h.lt hxy hk hb
    omega

theorem Valid.inj (h : Valid D V R) {a b i : Nat} (ha : D.pos a = some i) (hb : D.pos b = some i) : a = b := by
  rw [h.pos] at ha hb
  rw [ha] at hb; simpa using hb

theorem Valid.star_live (h : Valid D V R) {a b : Nat} (hab : Relation.ReflTransGen R a b) (ha : V a) : V b := by
  induction hab with
  | refl => exact ha
  | tail _ hxy _ => exact (h.live hxy).2

theorem reindex_eq {l : List Nat} (hnd : l.Nodup) {k : Nat} {f : Nat → Option Nat} {n : Nat} :
    TSort.reindex l k f n = if n ∈ l then some (k + l.idxOf n) else f n := by
  induction l generalizing k f with
  | nil => simp [TSort.reindex]
  | cons a l ih =>
    rw [List.nodup_cons] at hnd
    rw [TSort.reindex, ih hnd.2]
    by_cases hn : n ∈ l
    · have : a ≠ n := fun e => hnd.1 (e ▸ hn)
      rw [if_pos hn, if_pos (by simp [hn]), List.idxOf_cons_ne _ this]
      congr 1; omega
    · by_cases ha : n = a
      · subst ha; simp [hn]
      · simp [hn, ha]

theorem reindex_pos {l : List Nat} (hnd : l.Nodup) {f : Nat → Option Nat} (hf : ∀ n, n ∉ l → f n = none) {n i : Nat} :
    TSort.reindex l 0 f n = some i ↔ l[i]? = some n := by
  rw [reindex_eq hnd]
  by_cases hn : n ∈ l
  · rw [if_pos hn, Nat.zero_add, Option.some.injEq]
    constructor
    · rintro rfl
      rw [List.getElem?_eq_getElem (List.idxOf_lt_length_iff.2 hn)]; simp
    · intro h
      obtain ⟨hi, rfl⟩ := List.getElem?_eq_some_iff.1 h
      exact List.Nodup.idxOf_getElem hnd i hi
  · rw [if_neg hn, hf n hn]
    simp only [reduceCtorEq, false_iff]
    exact fun h => hn (List.mem_of_getElem? h)

/-- `with_graph` on an acyclic graph. -/
theorem withGraph_ok {maxOff : Nat} (hmax : maxOff ≤ 32767) {g : PG} (hg : PG.Reach maxOff g)
    (hac : Acyclic (Arc g .outgoing)) :
    ∃ D, TSort.withGraph (ofPG g) = some D ∧ Valid D (g.containsNode · = true) (Arc g .outgoing) := by
  obtain ⟨order, h1, h2⟩ := C31_new hmax hg hac
  refine ⟨⟨order, TSort.reindex order 0 fun _ => none⟩, ?_, h2.nodup, h2.mem, ?_, h2.arcs⟩
  · unfold TSort.withGraph
    unfold Convex.Topo.new at h1
    split at h1
    · simp at h1
    · rename_i o x e
      simp only [Option.some.injEq] at h1
      have : o = order := congrArg Topo.order h1
      subst this
      rw [e]
  · intro n i
    exact reindex_pos h2.nodup (fun _ _ => rfl)

theorem addNode_ok (h : Valid D V R) {n : Nat} (hn : ¬ V n) : Valid (D.addNode n) (fun x => V x ∨ x = n) R := by
  have hp : D.pos n = none := by
    cases hp : D.pos n with
    | none => rfl
    | some i => exact absurd (h.tracked.2 ⟨i, hp⟩) hn
  have hno : n ∉ D.order := fun hc => hn ((h.mem n).1 hc)
  unfold TSort.addNode
  rw [hp]
  simp only [Option.isSome_none, Bool.false_eq_true, if_false]
  refine ⟨?_, ?_, ?_, ?_⟩
  · simp only
    rw [List.nodup_append]
    refine ⟨h.nodup, by simp, ?_⟩
    intro a ha b hb e
    simp at hb; subst hb; exact hno (e ▸ ha)
  · intro x; simp [h.mem]
  · intro x i
    simp only
    rw [List.getElem?_append]
    by_cases hx : x = n
    · subst hx
      simp only [if_true, Option.some.injEq]
      split
      · rename_i hi
        constructor
        · intro e; omega
        · intro hc; exact absurd (List.mem_of_getElem? hc) hno
      · rename_i hi
        constructor
        · rintro rfl; simp
        · intro hc
          have := (List.getElem?_eq_some_iff.1 hc).1
          simp at this; omega
    · simp only [hx, if_false]
      rw [h.pos]
      split
      · rfl
      · rename_i hi
        rw [List.getElem?_eq_none (by omega)]
        simp only [reduceCtorEq, false_iff]
        intro hc
        have := List.mem_of_getElem? hc
        simp at this; exact hx this
  · intro a b hab
    exact before_append_left (h.forward a b hab)

theorem addNode_known {n : Nat} (h : Valid D V R) (hn : V n) : D.addNode n = D := by
  obtain ⟨i, hi⟩ := h.tracked.1 hn
  simp [TSort.addNode, hi]

theorem removeNode_ok (h : Valid D V R) {n : Nat} (hn : V n) {R' : Nat → Nat → Prop}
    (hR : ∀ a b, R' a b → R a b ∧ a ≠ n ∧ b ≠ n) :
    ∃ D', D.removeNode n = some (.ok D') ∧ Valid D' (fun x => V x ∧ x ≠ n) R' := by
  obtain ⟨p, hp⟩ := h.tracked.1 hn
  have hpo := (h.pos n p).1 hp
  have hlt := (List.getElem?_eq_some_iff.1 hpo).1
  have hnd : (D.order.eraseIdx p).Nodup := h.nodup.sublist (List.eraseIdx_sublist _ _)
  have hget : ∀ i : Nat, (D.order.eraseIdx p)[i]? = if i < p then D.order[i]? else D.order[i + 1]? := by
    intro i; rw [List.getElem?_eraseIdx]
  have huniq : ∀ i : Nat, D.order[i]? = some n → i = p := fun i hi =>
    (List.getElem?_inj (List.getElem?_eq_some_iff.1 hi).1 h.nodup).1 (hi.trans hpo.symm)
  have hmem : ∀ x, x ∈ D.order.eraseIdx p ↔ V x ∧ x ≠ n := by
    intro x
    rw [← h.mem, List.mem_iff_getElem?, List.mem_iff_getElem?]
    constructor
    · rintro ⟨i, hi⟩
      rw [hget] at hi
      split at hi
      · refine ⟨⟨i, hi⟩, ?_⟩
        rintro rfl
        have := huniq i hi; omega
      · refine ⟨⟨i + 1, hi⟩, ?_⟩
        rintro rfl
        have := huniq _ hi; omega
    · rintro ⟨⟨i, hi⟩, hne⟩
      have hip : i ≠ p := by
        rintro rfl
        rw [hpo] at hi; simp at hi; exact hne hi.symm
      rcases Nat.lt_or_ge i p with hlt | hge
      · exact ⟨i, by rw [hget, if_pos hlt, hi]⟩
      · refine ⟨i - 1, ?_⟩
        rw [hget, if_neg (by omega)]
        rw [show i - 1 + 1 = i by omega, hi]
  refine ⟨⟨D.order.eraseIdx p, TSort.reindex (D.order.eraseIdx p) 0 fun x => if x = n then none else D.pos x⟩, ?_, hnd, hmem, ?_, ?_⟩
  · unfold TSort.removeNode
    rw [hp]
    simp only
    rw [if_pos hlt]
  · intro x i
    refine reindex_pos hnd ?_
    intro y hy
    rw [hmem, not_and'] at hy
    by_cases hyn : y = n
    · simp [hyn]
    · simp only [hyn, if_false]
      cases e : D.pos y with
      | none => rfl
      | some j => exact absurd (h.tracked.2 ⟨j, e⟩) (hy hyn)
  · intro a b hab
    obtain ⟨hab, han, hbn⟩ := hR a b hab
    obtain ⟨i, j, hij, hi, hj⟩ := before_iff.1 (h.forward a b hab)
    have hip : i ≠ p := by
      rintro rfl
      rw [hpo] at hi; simp at hi; exact han hi.symm
    have hjp : j ≠ p := by
      rintro rfl
      rw [hpo] at hj; simp at hj; exact hbn hj.symm
    refine before_iff.2 ⟨if i < p then i else i - 1, if j < p then j else j - 1, ?_, ?_, ?_⟩
    · split <;> split <;> omega
    · rw [hget]
      by_cases hip' : i < p
      · rw [if_pos hip', if_pos hip', hi]
      · rw [if_neg hip', if_neg (by omega), show i - 1 + 1 = i by omega, hi]
    · rw [hget]
      by_cases hjp' : j < p
      · rw [if_pos hjp', if_pos hjp', hj]
      · rw [if_neg hjp', if_neg (by omega), show j - 1 + 1 = j by omega, hj]

theorem removeNode_unknown (h : Valid D V R) {n : Nat} (hn : ¬ V n) : D.removeNode n = some (.error (.invalidNode n)) := by
  have hp : D.pos n = none := by
    cases hp : D.pos n with
    | none => rfl
    | some i => exact absurd (h.tracked.2 ⟨i, hp⟩) hn
  simp [TSort.removeNode, hp]

theorem Valid.mono (h : Valid D V R) {R' : Nat → Nat → Prop} (hR : ∀ a b, R' a b → R a b) : Valid D V R' :=
  ⟨h.nodup, h.mem, h.pos, fun a b hab => h.forward a b (hR a b hab)⟩

theorem disconnect_ok (h : Valid D V R) {a b : Nat} (ha : V a) (hb : V b) : D.disconnectNodes a b = .ok D := by
  obtain ⟨i, hi⟩ := h.tracked.1 ha
  obtain ⟨j, hj⟩ := h.tracked.1 hb
  simp [TSort.disconnectNodes, hi, hj]

/-! ## Breadth first search -/

/-- The links from nodes not yet visited. -/
def rest (next : Nat → List Nat) (U vis : List Nat) : Nat :=
  ((U.filter fun n => !vis.contains n).map fun n => (next n).length).sum

theorem rest_cons {next : Nat → List Nat} {U vis : List Nat} (hU : U.Nodup) {n : Nat} (hn : n ∈ U) (hv : n ∉ vis) :
    rest next U vis = (next n).length + rest next U (n :: vis) := by
  unfold rest
  induction U with
  | nil => simp at hn
  | cons a U ih =>
    rw [List.nodup_cons] at hU
    by_cases ha : a = n
    · subst ha
      have : (U.filter fun m => !(a :: vis).contains m) = U.filter fun m => !vis.contains m := by
        apply List.filter_congr
        intro x hx
        have : x ≠ a := fun e => hU.1 (e ▸ hx)
        simp [this]
      rw [List.filter_cons_of_pos (by simpa using hv), List.filter_cons_of_neg (by simp), this]
      simp
    · have hnU : n ∈ U := by
        rcases List.mem_cons.1 hn with h | h
        · exact absurd h.symm ha
        · exact h
      have ih := ih hU.2 hnU
      by_cases hav : a ∈ vis
      · rw [List.filter_cons_of_neg (by simpa using hav), List.filter_cons_of_neg (by simp [hav])]
        exact ih
      · rw [List.filter_cons_of_pos (by simpa using hav), List.filter_cons_of_pos (by simp [hav, ha])]
        simp only [List.map_cons, List.sum_cons]
        omega

/-- The steps of a search. -/
def Step (next : Nat → List Nat) (stop skip : Nat → Bool) (a b : Nat) : Prop :=
  b ∈ next a ∧ stop a = false ∧ skip a = false

theorem bfs_ok {next : Nat → List Nat} {stop skip : Nat → Bool} {U : List Nat} (hU : U.Nodup)
    (hnext : ∀ n, n ∉ U → next n = []) {f : Nat} {queue vis : List Nat}
    (hvis : ∀ v ∈ vis, stop v = false ∧ ∀ b ∈ next v, b ∈ vis ∨ b ∈ queue ∨ (stop b = false ∧ skip b = true))
    (hf : queue.length + rest next U vis ≤ f) :
    ∃ r, TSort.bfs next stop skip f queue vis = some r ∧
      (r = true ↔ ∃ s x, (s ∈ queue ∨ s ∈ vis) ∧ Relation.ReflTransGen (Step next stop skip) s x ∧ stop x = true) := by
  induction f generalizing queue vis with
  | zero =>
    have : queue = [] := List.length_eq_zero_iff.1 (by omega)
    subst this
    exact bfs_nil hvis
  | succ f ih =>
    cases queue with
    | nil => exact bfs_nil hvis
    | cons n queue =>
      rw [List.length_cons] at hf
      simp only [TSort.bfs]
      by_cases hs : stop n
      · rw [if_pos hs]
        exact ⟨true, rfl, by simp only [true_iff]; exact ⟨n, n, by simp, .refl, hs⟩⟩
      · rw [if_neg hs]
        simp only [Bool.not_eq_true] at hs
        by_cases hk : skip n
        · rw [if_pos hk]
          obtain ⟨r, h1, h2⟩ := ih (queue := queue) (vis := vis) (by
            intro v hv
            obtain ⟨e1, e2⟩ := hvis v hv
            refine ⟨e1, ?_⟩
            intro b hb
            rcases e2 b hb with h | h | h
            · exact .inl h
            · rcases List.mem_cons.1 h with h | h
              · subst h; exact .inr (.inr ⟨hs, hk⟩)
              · exact .inr (.inl h)
            · exact .inr (.inr h)) (by omega)
          refine ⟨r, h1, h2.trans ?_⟩
          constructor
          · rintro ⟨s, x, h, h', h''⟩
            exact ⟨s, x, by rcases h with h | h <;> simp [h], h', h''⟩
          · rintro ⟨s, x, h, h', h''⟩
            by_cases hq : s ∈ queue ∨ s ∈ vis
            · exact ⟨s, x, hq, h', h''⟩
            · have hsn : s = n := by
                rw [not_or] at hq
                rcases h with h | h
                · rcases List.mem_cons.1 h with h | h
                  · exact h
                  · exact absurd h hq.1
                · exact absurd h hq.2
              subst hsn
              cases Relation.ReflTransGen.cases_head h' with
              | inl e => subst e; rw [hs] at h''; simp at h''
              | inr h => obtain ⟨y, hy, _⟩ := h; rw [hy.2.2] at hk; simp at hk
        · rw [if_neg hk]
          simp only [Bool.not_eq_true] at hk
          by_cases hv : n ∈ vis
          · rw [if_pos (by simpa using hv)]
            obtain ⟨r, h1, h2⟩ := ih (queue := queue) (vis := vis) (by
              intro v hv'
              obtain ⟨e1, e2⟩ := hvis v hv'
              refine ⟨e1, ?_⟩
              intro b hb
              rcases e2 b hb with h | h | h
              · exact .inl h
              · rcases List.mem_cons.1 h with h | h
                · subst h; exact .inl hv
                · exact .inr (.inl h)
              · exact .inr (.inr h)) (by omega)
            refine ⟨r, h1, h2.trans ?_⟩
            refine exists_congr fun s => exists_congr fun x => and_congr_left fun _ => ?_
            constructor
            · rintro (h | h) <;> simp [h]
            · rintro (h | h)
              · rcases List.mem_cons.1 h with h | h
                · subst h; exact .inr hv
                · exact .inl h
              · exact .inr h
          · rw [if_neg (by simpa using hv)]
            obtain ⟨r, h1, h2⟩ := ih (queue := queue ++ next n) (vis := n :: vis) (by
              intro v hv'
              rcases List.mem_cons.1 hv' with rfl | hv'
              · exact ⟨hs, fun b hb => .inr (.inl (by simp [hb]))⟩
              · obtain ⟨e1, e2⟩ := hvis v hv'
                refine ⟨e1, ?_⟩
                intro b hb
                rcases e2 b hb with h | h | h
                · exact .inl (by simp [h])
                · rcases List.mem_cons.1 h with h | h
                  · subst h; exact .inl (by simp)
                  · exact .inr (.inl (by simp [h]))
                · exact .inr (.inr h)) (by
              rw [List.length_append]
              by_cases hnU : n ∈ U
              · have := rest_cons (next := next) hU hnU hv
                omega
              · rw [hnext n hnU]
                have : rest next U (n :: vis) = rest next U vis := by
                  unfold rest
                  congr 2
                  apply List.filter_congr
                  intro x hx
                  have : x ≠ n := fun e => hnU (e ▸ hx)
                  simp [this]
                simp only [List.length_nil]; omega)
            refine ⟨r, h1, h2.trans ?_⟩
            constructor
            · rintro ⟨s, x, h, h', h''⟩
              rcases h with h | h
              · rcases List.mem_append.1 h with h | h
                · exact ⟨s, x, .inl (by simp [h]), h', h''⟩
                · exact ⟨n, x, .inl (by simp), .head ⟨h, hs, hk⟩ h', h''⟩
              · rcases List.mem_cons.1 h with h | h
                · subst h; exact ⟨s, x, .inl (by simp), h', h''⟩
                · exact ⟨s, x, .inr h, h', h''⟩
            · rintro ⟨s, x, h, h', h''⟩
              refine ⟨s, x, ?_, h', h''⟩
              rcases h with h | h
              · rcases List.mem_cons.1 h with h | h
                · subst h; exact .inr (by simp)
                · exact .inl (by simp [h])
              · exact .inr (by simp [h])
where
  bfs_nil {next : Nat → List Nat} {stop skip : Nat → Bool} {f : Nat} {vis : List Nat}
    (hvis : ∀ v ∈ vis, stop v = false ∧ ∀ b ∈ next v, b ∈ vis ∨ b ∈ ([] : List Nat) ∨ (stop b = false ∧ skip b = true)) :
    ∃ r, TSort.bfs next stop skip f [] vis = some r ∧
      (r = true ↔ ∃ s x, (s ∈ ([] : List Nat) ∨ s ∈ vis) ∧ Relation.ReflTransGen (Step next stop skip) s x ∧ stop x = true) := by
    refine ⟨false, by cases f <;> rfl, ?_⟩
    simp only [Bool.false_eq_true, false_iff]
    rintro ⟨s, x, h, h', h''⟩
    simp only [List.not_mem_nil, false_or] at h
    have key : ∀ x, Relation.ReflTransGen (Step next stop skip) s x → stop x = false ∧ (x ∈ vis ∨ skip x = true) := by
      intro x hx
      induction hx with
      | refl => exact ⟨(hvis s h).1, .inl h⟩
      | @tail y z _ hxy ih =>
        have hy : y ∈ vis := by
          rcases ih.2 with h | h
          · exact h
          · rw [hxy.2.2] at h; simp at h
        rcases (hvis y hy).2 z hxy.1 with h | h | h
        · exact ⟨(hvis z h).1, .inl h⟩
        · simp at h
        · exact ⟨h.1, .inr h.2⟩
    rw [(key x h').1] at h''; simp at h''

end Verif.Dyn
