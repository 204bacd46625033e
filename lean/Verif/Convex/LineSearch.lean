import Verif.Convex.LineInterval

/-!
# The search of the line based check
-/

namespace Verif.Convex

open Verif (Direction)
open Verif.Algo
open Relation (ReflTransGen TransGen)

namespace Line

variable {c : Line} {R : Nat → Nat → Prop} {V : Nat → Prop} {S : List Nat} {I : List Interval}

/-- Outside nodes in the future of `S`. -/
def Out (R : Nat → Nat → Prop) (S : List Nat) (n : Nat) : Prop := n ∉ S ∧ ∃ s ∈ S, TransGen R s n

theorem Part.before (h : Part c R V) {l a b : Nat} (ha : l ∈ c.getLines a) (hb : l ∈ c.getLines b)
    (hlt : c.getPos a < c.getPos b) : TransGen R a b := by
  obtain ⟨line, i, hl, hi⟩ := h.line ha
  obtain ⟨line', j, hl', hj⟩ := h.line hb
  rw [hl] at hl'; simp at hl'; subst hl'
  have hij := (inc_lt (h.inc hl) hi hj).1.1 hlt
  obtain ⟨hil, rfl⟩ := List.getElem?_eq_some_iff.1 hi
  obtain ⟨hjl, rfl⟩ := List.getElem?_eq_some_iff.1 hj
  exact List.pairwise_iff_getElem.1 (h.path hl) i j hil hjl hij

theorem Part.next (h : Part c R V) {l : Nat} {line : List Nat} (hl : c.lines[l]? = some line) {i a b : Nat}
    (ha : line[i]? = some a) (hb : line[i + 1]? = some b) : R a b := by
  obtain ⟨hi, rfl⟩ := List.getElem?_eq_some_iff.1 ha
  obtain ⟨hj, rfl⟩ := List.getElem?_eq_some_iff.1 hb
  exact List.isChain_iff_getElem.1 (h.chain l line hl) i hj

/-- Both ends of a link are on a line, next to each other. -/
theorem Part.link (h : Part c R V) {a b : Nat} (hab : R a b) :
    ∃ (l : Nat) (line : List Nat) (i : Nat), c.lines[l]? = some line ∧ line[i]? = some a ∧ line[i + 1]? = some b ∧
      l ∈ c.getLines a ∧ l ∈ c.getLines b := by
  obtain ⟨l, u, v, hl⟩ := h.arc a b hab
  refine ⟨l, _, u.length, hl, by simp, by simp, (h.mem _ _ _ hl).1 (by simp), (h.mem _ _ _ hl).1 (by simp)⟩

theorem gate (h : Part c R V) (hI : IOK c S I) {w t : Nat} (hwt : R w t) (hw : w ∉ S) (ht : t ∈ S) :
    ∃ x ∈ I, x.line ∈ c.getLines w ∧ c.getPos w < x.min := by
  obtain ⟨l, line, i, hl, _, _, hlw, hlt⟩ := h.link hwt
  obtain ⟨x, hx, rfl⟩ := hI.all t ht l hlt
  refine ⟨x, hx, hlw, ?_⟩
  have h1 := (hI.mem x hx t hlt).1 ht
  have h2 := h.fwd _ _ hwt
  by_contra hc
  exact hw ((hI.mem x hx w hlw).2 ⟨by omega, by omega⟩)

theorem enter {y t : Nat} (hyt : ReflTransGen R y t) (hy : y ∉ S) (ht : t ∈ S) :
    ∃ w t', ReflTransGen R y w ∧ w ∉ S ∧ R w t' ∧ t' ∈ S := by
  induction hyt using ReflTransGen.head_induction_on with
  | refl => exact absurd ht hy
  | @head y z hyz _ ih =>
    by_cases hz : z ∈ S
    · exact ⟨y, z, .refl, hy, hyz, hz⟩
    · obtain ⟨w, t', h1, h2⟩ := ih hz
      exact ⟨w, t', .head hyz h1, h2⟩

theorem lookup_some {l : Nat} {x : Interval} (h : lookup I l = some x) : x ∈ I ∧ x.line = l := by
  unfold lookup at h
  exact ⟨List.mem_of_find?_eq_some h, by simpa using List.find?_some h⟩

theorem lookup_none {l : Nat} (h : lookup I l = none) : ∀ x ∈ I, x.line ≠ l := by
  unfold lookup at h
  intro x hx
  simpa using List.find?_eq_none.1 h x hx

theorem ends_ok (h : Part c R V) {guess : Guess} (hg : guess.OK) (hI : IOK c S I) {J : List Interval} (hJ : ∀ x ∈ J, x ∈ I) :
    ∃ q, c.ends guess J = some q ∧ q.length ≤ J.length ∧ (∀ n ∈ q, Out R S n ∧ V n) ∧
      ∀ x ∈ J, ∀ a b, x.line ∈ c.getLines a → c.getPos a = x.max → ∀ (line : List Nat) (i : Nat),
        c.lines[x.line]? = some line → line[i]? = some a → line[i + 1]? = some b → b ∈ q := by
  induction J with
  | nil => exact ⟨[], rfl, by simp, by simp, by simp⟩
  | cons x J ih =>
    obtain ⟨q, h1, h2, h3, h4⟩ := ih fun y hy => hJ y (by simp [hy])
    have hx := hJ x (by simp)
    obtain ⟨b, hb, hlb, eb⟩ := hI.max_mem x hx
    obtain ⟨line, j, hl, hj⟩ := h.line hlb
    have hf := findIndex_ok hg hl (h.inc hl) hj
    rw [eb] at hf
    simp only [ends, hf, h1, hl, Option.getD_some]
    refine ⟨_, rfl, ?_, ?_, ?_⟩
    · simp only [List.length_append, List.length_cons]
      cases line[j + 1]? <;> simp <;> omega
    · intro n hn
      rcases List.mem_append.1 hn with hn | hn
      · have hn : line[j + 1]? = some n := by simpa using hn
        have hR := h.next hl hj hn
        refine ⟨⟨?_, b, hb, .single hR⟩, (h.live _ _ hR).2⟩
        intro hnS
        have hln := (h.mem _ _ n hl).1 (List.mem_of_getElem? hn)
        have := (hI.mem x hx n hln).1 hnS
        have := h.fwd _ _ hR
        omega
      · exact h3 n hn
    · intro y hy a d hla ea line' i hl' hi hd
      rcases List.mem_cons.1 hy with hy | hy
      · subst hy
        rw [hl] at hl'; simp at hl'; subst hl'
        have : i = j := (inc_lt (h.inc hl) hi hj).2.1 (by omega)
        subst this
        simp [hd]
      · exact List.mem_append_right _ (h4 y hy a d hla ea line' i hl' hi hd)

theorem checkLines_ok (hI : IOK c S I) {n : Nat} (hn : n ∉ S) {ls : List Nat} (hls : ∀ l ∈ ls, l ∈ c.getLines n) :
    ∃ r, checkLines I (c.getPos n) ls = some r ∧
      (r = false → ∃ x ∈ I, x.line ∈ c.getLines n ∧ c.getPos n < x.min) ∧
      (r = true → ∀ x ∈ I, x.line ∈ ls → x.max < c.getPos n) := by
  induction ls with
  | nil => exact ⟨true, rfl, by simp, by simp⟩
  | cons l ls ih =>
    obtain ⟨r, h1, h2, h3⟩ := ih fun k hk => hls k (by simp [hk])
    simp only [checkLines]
    cases e : lookup I l with
    | none =>
      refine ⟨r, h1, h2, ?_⟩
      intro hr x hx hxl
      rcases List.mem_cons.1 hxl with hxl | hxl
      · exact absurd hxl (lookup_none e x hx)
      · exact h3 hr x hx hxl
    | some x =>
      obtain ⟨hx, rfl⟩ := lookup_some e
      have hm := hI.mem x hx n (hls _ (by simp))
      simp only
      rw [if_neg (by simp only [Bool.and_eq_true, decide_eq_true_eq]; exact fun hc => hn (hm.2 hc))]
      split
      · rename_i hlt
        exact ⟨false, rfl, fun _ => ⟨x, hx, hls _ (by simp), hlt⟩, by simp⟩
      · rename_i hnlt
        refine ⟨r, h1, h2, ?_⟩
        intro hr y hy hyl
        rcases List.mem_cons.1 hyl with hyl | hyl
        · have : y = x := by
            have hk := hI.keys
            exact List.inj_on_of_nodup_map hk hy hx hyl
          subst this
          by_contra hc
          exact hn (hm.2 ⟨by omega, by omega⟩)
        · exact h3 hr y hy hyl

/-- The state of the search. -/
structure SInv (c : Line) (R : Nat → Nat → Prop) (V : Nat → Prop) (S : List Nat) (I : List Interval) (ms : Nat)
    (q vis : List Nat) : Prop where
  queued : ∀ n ∈ q, Out R S n ∧ V n
  ok : ∀ n ∈ vis, ∀ x ∈ I, x.line ∈ c.getLines n → x.max < c.getPos n
  closed : ∀ n ∈ vis, ∀ m, R n m → m ∈ q ∨ m ∈ vis ∨ ms < c.getPos m
  start : ∀ s ∈ S, ∀ y, R s y → y ∉ S → y ∈ q ∨ y ∈ vis ∨ ms < c.getPos y

theorem SInv.done (h : Part c R V) (hI : IOK c S I) {ms : Nat} (hms : ∀ x ∈ I, x.min ≤ ms) {vis : List Nat}
    (hs : SInv c R V S I ms [] vis) : Convex R S := by
  have key : ∀ s ∈ S, ∀ y, ReflTransGen R s y → ∀ t ∈ S, ReflTransGen R y t → y ∉ S → y ∈ vis := by
    intro s hsS y hsy t ht
    induction hsy with
    | refl => intro _ hy; exact absurd hsS hy
    | @tail z y hsz hzy ih =>
      intro hyt hy
      obtain ⟨w, t', h1, h2, h3, h4⟩ := enter hyt hy ht
      obtain ⟨x, hx, _, h5⟩ := gate h hI h3 h2 h4
      have h6 := h.le h1
      have h7 := hms x hx
      have hpos : ¬ ms < c.getPos y := by omega
      by_cases hz : z ∈ S
      · rcases hs.start z hz y hzy hy with h | h | h
        · simp at h
        · exact h
        · exact absurd h hpos
      · rcases hs.closed z (ih (.head hzy hyt) hz) y hzy with h | h | h
        · simp at h
        · exact h
        · exact absurd h hpos
  intro s hsS t ht x hsx hxt
  by_contra hx
  obtain ⟨w, t', h1, h2, h3, h4⟩ := enter hxt hx ht
  obtain ⟨i, hi, hiw, h5⟩ := gate h hI h3 h2 h4
  have hw := key s hsS w (hsx.trans h1) t' h4 (.single h3) h2
  have h6 := hs.ok w hw i hi hiw
  obtain ⟨b, hb, hlb, eb⟩ := hI.max_mem i hi
  have := (hI.mem i hi b hlb).1 hb
  omega

/-- The links not yet followed. -/
def rest (c : Line) (vis : List Nat) : Nat :=
  (c.graph.nodes.map fun n => if vis.contains n then 0 else (neighbours c.graph n .outgoing).length).sum

theorem rest_cons {l : List Nat} {n : Nat} (hn : n ∈ l) {vis : List Nat} (hv : n ∉ vis) (f : Nat → Nat) :
    (l.map fun x => if (n :: vis).contains x then 0 else f x).sum + f n ≤
      (l.map fun x => if vis.contains x then 0 else f x).sum := by
  have pw : ∀ a, (if (n :: vis).contains a then 0 else f a) ≤ (if vis.contains a then 0 else f a) := by
    intro a
    by_cases ha : vis.contains a = true
    · have : (n :: vis).contains a = true := by simp at ha ⊢; exact .inr ha
      rw [if_pos ha, if_pos this]; omega
    · rw [if_neg ha]; split <;> omega
  have mono : ∀ l : List Nat, (l.map fun x => if (n :: vis).contains x then 0 else f x).sum ≤
      (l.map fun x => if vis.contains x then 0 else f x).sum := by
    intro l
    induction l with
    | nil => simp
    | cons a l ih =>
      simp only [List.map_cons, List.sum_cons]
      have := pw a
      omega
  induction l with
  | nil => simp at hn
  | cons a l ih =>
    simp only [List.map_cons, List.sum_cons]
    rcases List.mem_cons.1 hn with e | hn
    · subst e
      have := mono l
      have h1 : (n :: vis).contains n = true := by simp
      have h2 : ¬ vis.contains n = true := by simpa using hv
      rw [if_pos h1, if_neg h2]; omega
    · have := ih hn
      have h1 := pw a
      omega

theorem search_ok (h : Part c R V) (hI : IOK c S I) {ms : Nat} (hms : ∀ x ∈ I, x.min ≤ ms) {f : Nat} {q vis : List Nat}
    (hs : SInv c R V S I ms q vis) (hf : q.length + c.rest vis < f) :
    ∃ r, c.search I ms f q vis = some r ∧ (r = true ↔ Convex R S) := by
  induction f generalizing q vis with
  | zero => omega
  | succ f ih =>
    cases q with
    | nil => exact ⟨true, rfl, by simp [hs.done h hI hms]⟩
    | cons n q =>
      simp only [search]
      have hdrop : (ms < c.getPos n ∨ n ∈ vis) → SInv c R V S I ms q vis := by
        intro hn
        refine ⟨fun m hm => hs.queued m (by simp [hm]), hs.ok, ?_, ?_⟩
        · intro m hm k hmk
          rcases hs.closed m hm k hmk with h | h | h
          · rcases List.mem_cons.1 h with h | h
            · subst h; rcases hn with hn | hn
              · exact .inr (.inr hn)
              · exact .inr (.inl hn)
            · exact .inl h
          · exact .inr (.inl h)
          · exact .inr (.inr h)
        · intro s hsS k hsk hk
          rcases hs.start s hsS k hsk hk with h | h | h
          · rcases List.mem_cons.1 h with h | h
            · subst h; rcases hn with hn | hn
              · exact .inr (.inr hn)
              · exact .inr (.inl hn)
            · exact .inl h
          · exact .inr (.inl h)
          · exact .inr (.inr h)
      simp only [List.length_cons] at hf
      split
      · rename_i hlt
        exact ih (hdrop (.inl hlt)) (by omega)
      · rename_i hnlt
        split
        · rename_i hv
          exact ih (hdrop (.inr (by simpa using hv))) (by omega)
        · rename_i hv
          have hv : n ∉ vis := by simpa using hv
          obtain ⟨hout, hVn⟩ := hs.queued n (by simp)
          obtain ⟨r, e, h1, h2⟩ := checkLines_ok hI hout.1 (ls := c.getLines n) (fun _ h => h)
          rw [e]
          cases r with
          | false =>
            refine ⟨false, rfl, ?_⟩
            simp only [Bool.false_eq_true, false_iff]
            intro hc
            obtain ⟨x, hx, hxn, hlt⟩ := h1 rfl
            obtain ⟨a, ha, hla, ea⟩ := hI.min_mem x hx
            have hp := h.before hxn hla (by omega)
            obtain ⟨s, hsS, hp'⟩ := hout.2
            exact hout.1 (hc s hsS a ha n hp'.to_reflTransGen hp.to_reflTransGen)
          | true =>
            have hok := h2 rfl
            simp only
            refine ih ?_ ?_
            · refine ⟨?_, ?_, ?_, ?_⟩
              · intro m hm
                rcases List.mem_append.1 hm with hm | hm
                · exact hs.queued m (by simp [hm])
                · have hR := (h.neighbours n hVn m).1 hm
                  obtain ⟨s, hsS, hp⟩ := hout.2
                  refine ⟨⟨?_, s, hsS, hp.tail hR⟩, (h.live _ _ hR).2⟩
                  intro hmS
                  obtain ⟨x, hx, hxn, hlt⟩ := gate h hI hR hout.1 hmS
                  have := hok x hx hxn
                  obtain ⟨b, hb, hlb, eb⟩ := hI.max_mem x hx
                  have := (hI.mem x hx b hlb).1 hb
                  omega
              · intro m hm
                rcases List.mem_cons.1 hm with hm | hm
                · subst hm; exact hok
                · exact hs.ok m hm
              · intro m hm k hmk
                rcases List.mem_cons.1 hm with hm | hm
                · subst hm
                  exact .inl (List.mem_append_right _ ((h.neighbours _ hVn _).2 hmk))
                · rcases hs.closed m hm k hmk with h | h | h
                  · rcases List.mem_cons.1 h with h | h
                    · exact .inr (.inl (by simp [h]))
                    · exact .inl (List.mem_append_left _ h)
                  · exact .inr (.inl (by simp [h]))
                  · exact .inr (.inr h)
              · intro s hsS k hsk hk
                rcases hs.start s hsS k hsk hk with h | h | h
                · rcases List.mem_cons.1 h with h | h
                  · exact .inr (.inl (by simp [h]))
                  · exact .inl (List.mem_append_left _ h)
                · exact .inr (.inl (by simp [h]))
                · exact .inr (.inr h)
            · have := rest_cons ((h.nodes n).2 hVn) hv fun n => (neighbours c.graph n .outgoing).length
              simp only [rest, List.length_append] at hf this ⊢
              omega

theorem le_foldl_max {xs : List Interval} {m : Nat} :
    m ≤ xs.foldl (fun m y => max m y.min) m ∧ ∀ x ∈ xs, x.min ≤ xs.foldl (fun m y => max m y.min) m := by
  induction xs generalizing m with
  | nil => simp
  | cons a xs ih =>
    obtain ⟨h1, h2⟩ := ih (m := max m a.min)
    simp only [List.foldl_cons, List.mem_cons]
    refine ⟨by omega, ?_⟩
    rintro x (rfl | hx)
    · omega
    · exact h2 x hx

/-- `is_convex_by_intervals` on the intervals of a set of nodes. -/
theorem convexByIntervals_ok (h : Part c R V) {guess : Guess} (hg : guess.OK) (hI : IOK c S I) (hne : I ≠ []) :
    ∃ r, c.convexByIntervals guess I = some r ∧ (r = true ↔ Convex R S) := by
  cases I with
  | nil => exact absurd rfl hne
  | cons x xs =>
    obtain ⟨q, h1, h2, h3, h4⟩ := ends_ok h hg hI (J := x :: xs) (fun _ h => h)
    simp only [convexByIntervals, h1]
    refine search_ok h hI ?_ ⟨h3, by simp, by simp, ?_⟩ ?_
    · intro y hy
      rcases List.mem_cons.1 hy with rfl | hy
      · exact le_foldl_max.1
      · exact le_foldl_max.2 y hy
    · intro s hs y hsy hy
      obtain ⟨l, line, i, hl, hi, hj, hls, hly⟩ := h.link hsy
      obtain ⟨z, hz, rfl⟩ := hI.all s hs l hls
      refine .inl (h4 z hz s y hls ?_ line i hl hi hj)
      -- `s` is the last node of the interval
      obtain ⟨b, hb, hlb, eb⟩ := hI.max_mem z hz
      have hb1 := (hI.mem z hz s hls).1 hs
      have hyn : ¬ (z.min ≤ c.getPos y ∧ c.getPos y ≤ z.max) := fun hc => hy ((hI.mem z hz y hly).2 hc)
      have hlt := h.fwd _ _ hsy
      by_contra hne
      obtain ⟨line', k, hl', hk⟩ := h.line hlb
      rw [hl] at hl'; simp at hl'; subst hl'
      have hik := (inc_lt (h.inc hl) hi hk).1.1 (by omega)
      have : ¬ c.getPos b < c.getPos y := by
        intro hc
        have := (inc_lt (h.inc hl) hk hj).1.1 hc
        omega
      omega
    · simp only [searchFuel, rest, List.contains_nil, Bool.false_eq_true, if_false] at *
      omega

/-- `is_node_convex` for a set of nodes, given the line partition. -/
theorem isNodeConvex_ok (h : Part c R V) {guess : Guess} (hg : guess.OK) (hS : S.Nodup) (hV : ∀ n ∈ S, V n) (hne : S ≠ []) :
    ∃ r, c.isNodeConvex guess S = some r ∧ (r = true ↔ Convex R S) := by
  obtain ⟨r, h1, h2, h3⟩ := intervals_ok h hg hS
  simp only [isNodeConvex, h1]
  cases r with
  | none =>
    refine ⟨false, rfl, ?_⟩
    simp only [Bool.false_eq_true, false_iff]
    intro hc
    refine h2 rfl ?_
    intro l a b d hla hlb hld ha hd hab hbd
    rcases Nat.lt_or_ge (c.getPos a) (c.getPos b) with hab' | hab'
    · rcases Nat.lt_or_ge (c.getPos b) (c.getPos d) with hbd' | hbd'
      · exact hc a ha d hd b (h.before hla hlb hab').to_reflTransGen (h.before hlb hld hbd').to_reflTransGen
      · have : b = d := by
          obtain ⟨line, i, hl, hi⟩ := h.line hlb
          obtain ⟨line', j, hl', hj⟩ := h.line hld
          rw [hl] at hl'; simp at hl'; subst hl'
          have := (inc_lt (h.inc hl) hi hj).2.1 (by omega)
          subst this; rw [hi] at hj; simpa using hj
        exact this ▸ hd
    · have : b = a := by
        obtain ⟨line, i, hl, hi⟩ := h.line hlb
        obtain ⟨line', j, hl', hj⟩ := h.line hla
        rw [hl] at hl'; simp at hl'; subst hl'
        have := (inc_lt (h.inc hl) hi hj).2.1 (by omega)
        subst this; rw [hi] at hj; simpa using hj
      exact this ▸ ha
  | some I =>
    have hI := h3 I rfl
    refine convexByIntervals_ok h hg hI ?_
    rintro rfl
    obtain ⟨n, hn⟩ := List.exists_mem_of_ne_nil S hne
    obtain ⟨l, hl⟩ := List.exists_mem_of_ne_nil _ (h.some_line n (hV n hn))
    obtain ⟨x, hx, _⟩ := hI.all n hn l hl
    simp at hx

end Line

end Verif.Convex
