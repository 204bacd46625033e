import Verif.Convex.LineOpsLemmas

/-!
# Nodes in intervals, lines at ports
-/

namespace Verif.Convex

open Verif (Direction)
open Verif.Algo

namespace Line

variable {c : Line} {R : Nat → Nat → Prop} {V : Nat → Prop}

/-! ## Merging -/

theorem posLt_iff {a b : Nat} : c.posLt a b = true ↔ c.getPos a < c.getPos b ∨ (c.getPos a = c.getPos b ∧ a < b) := by
  simp [posLt]

theorem posLt_trans {a b d : Nat} (h1 : c.posLt a b = true) (h2 : c.posLt b d = true) : c.posLt a d = true := by
  rw [posLt_iff] at *
  omega

theorem posLt_asymm {a b : Nat} (h : c.posLt a b = true) : c.posLt b a = false := by
  rw [← Bool.not_eq_true]
  rw [posLt_iff] at *
  omega

theorem posLt_total {a b : Nat} (h : c.posLt a b = false) : a = b ∨ c.posLt b a = true := by
  rw [← Bool.not_eq_true] at h
  rw [posLt_iff] at *
  omega

theorem KMerge.mem {lt : Nat → Nat → Bool} {ls : List (List Nat)} {out : List Nat} (h : KMerge lt ls out) (x : Nat) :
    x ∈ out ↔ ∃ l ∈ ls, x ∈ l := by
  induction h with
  | done he =>
    simp only [List.not_mem_nil, false_iff, not_exists, not_and]
    intro l hl hx
    rw [he l hl] at hx; simp at hx
  | @take pre post y xs out _ _ ih =>
    rw [List.mem_cons, ih]
    simp only [List.mem_append, List.mem_cons]
    constructor
    · rintro (rfl | ⟨l, hl, hx⟩)
      · exact ⟨x :: xs, by simp, by simp⟩
      · rcases hl with hl | rfl | hl
        · exact ⟨l, by simp [hl], hx⟩
        · exact ⟨y :: l, by simp, by simp [hx]⟩
        · exact ⟨l, by simp [hl], hx⟩
    · rintro ⟨l, hl, hx⟩
      rcases hl with hl | rfl | hl
      · exact .inr ⟨l, by simp [hl], hx⟩
      · rcases List.mem_cons.1 hx with rfl | hx
        · exact .inl rfl
        · exact .inr ⟨xs, by simp, hx⟩
      · exact .inr ⟨l, by simp [hl], hx⟩

theorem KMerge.sorted {ls : List (List Nat)} {out : List Nat} (h : KMerge c.posLt ls out)
    (hs : ∀ l ∈ ls, l.Pairwise fun a b => c.posLt a b = true) : out.Pairwise fun a b => c.posLt b a = false := by
  induction h with
  | done _ => exact .nil
  | @take pre post x xs out hmin hk ih =>
    have hx := List.pairwise_cons.1 (hs (x :: xs) (by simp))
    refine List.pairwise_cons.2 ⟨?_, ih ?_⟩
    · intro y hy
      obtain ⟨l, hl, hyl⟩ := (hk.mem y).1 hy
      have : l = xs ∨ l ∈ pre ++ post := by
        simp only [List.mem_append, List.mem_cons] at hl ⊢
        tauto
      rcases this with rfl | hl'
      · exact posLt_asymm (hx.1 y hyl)
      · cases l with
        | nil => simp at hyl
        | cons z l =>
          have h1 := hmin _ hl' z (by simp)
          rcases List.mem_cons.1 hyl with rfl | hyl
          · exact h1
          · have h2 := (List.pairwise_cons.1 (hs (z :: l) (by
              simp only [List.mem_append, List.mem_cons] at hl' ⊢; tauto))).1 y hyl
            rw [← Bool.not_eq_true]
            intro h3
            rw [posLt_trans h2 h3] at h1; simp at h1
    · intro l hl
      simp only [List.mem_append, List.mem_cons] at hl
      rcases hl with hl | rfl | hl
      · exact hs l (by simp [hl])
      · exact hx.2
      · exact hs l (by simp [hl])

theorem exists_min {ls : List (List Nat)} (h : ∃ l ∈ ls, l ≠ []) :
    ∃ pre x xs post, ls = pre ++ (x :: xs) :: post ∧ ∀ l ∈ pre ++ post, ∀ y ∈ l.head?, c.posLt y x = false := by
  induction ls with
  | nil => simp at h
  | cons a ls ih =>
    by_cases hls : ∃ l ∈ ls, l ≠ []
    · obtain ⟨pre, x, xs, post, e, hmin⟩ := ih hls
      cases a with
      | nil =>
        refine ⟨[] :: pre, x, xs, post, by simp [e], ?_⟩
        intro l hl y hy
        rw [List.cons_append, List.mem_cons] at hl
        rcases hl with rfl | hl
        · simp at hy
        · exact hmin l hl y hy
      | cons z a =>
        by_cases hz : c.posLt z x = true
        · refine ⟨[], z, a, ls, by simp, ?_⟩
          intro l hl y hy
          rw [List.nil_append, e] at hl
          have h1 : c.posLt y x = false ∨ y = x := by
            simp only [List.mem_append, List.mem_cons] at hl
            rcases hl with hl | rfl | hl
            · exact .inl (hmin l (by simp [hl]) y hy)
            · simp at hy; exact .inr hy.symm
            · exact .inl (hmin l (by simp [hl]) y hy)
          rw [← Bool.not_eq_true]
          intro h2
          rcases h1 with h1 | rfl
          · rw [posLt_trans h2 hz] at h1; simp at h1
          · rw [posLt_asymm hz] at h2; simp at h2
        · refine ⟨(z :: a) :: pre, x, xs, post, by simp [e], ?_⟩
          intro l hl y hy
          rw [List.cons_append, List.mem_cons] at hl
          rcases hl with rfl | hl
          · simp at hy; subst hy; simpa using hz
          · exact hmin l hl y hy
    · cases a with
      | nil =>
        obtain ⟨l, hl, hne⟩ := h
        rcases List.mem_cons.1 hl with rfl | hl
        · exact absurd rfl hne
        · exact absurd ⟨l, hl, hne⟩ hls
      | cons z a =>
        refine ⟨[], z, a, ls, by simp, ?_⟩
        intro l hl y hy
        rw [List.nil_append] at hl
        by_cases hne : l = []
        · subst hne; simp at hy
        · exact absurd ⟨l, hl, hne⟩ hls

theorem sum_length_zero {ls : List (List Nat)} : (ls.map List.length).sum = 0 ↔ ∀ l ∈ ls, l = [] := by
  induction ls with
  | nil => simp
  | cons a ls ih =>
    rw [List.map_cons, List.sum_cons, List.forall_mem_cons, ← ih, ← List.length_eq_zero_iff]
    omega

theorem KMerge.exists (ls : List (List Nat)) : ∃ out, KMerge c.posLt ls out := by
  generalize hk : (ls.map List.length).sum = k
  induction k generalizing ls with
  | zero => exact ⟨[], .done (sum_length_zero.1 hk)⟩
  | succ k ih =>
    have hne : ∃ l ∈ ls, l ≠ [] := by
      by_contra hc
      have := sum_length_zero.2 fun l hl => by
        by_contra h; exact hc ⟨l, hl, h⟩
      omega
    obtain ⟨pre, x, xs, post, rfl, hmin⟩ := exists_min (c := c) hne
    obtain ⟨out, ho⟩ := ih (pre ++ xs :: post) (by
      simp only [List.map_append, List.map_cons, List.sum_append, List.sum_cons, List.length_cons] at hk ⊢
      omega)
    exact ⟨x :: out, .take hmin ho⟩

theorem mem_dedupAdj {l : List Nat} {x : Nat} : x ∈ dedupAdj l ↔ x ∈ l := by
  induction l using dedupAdj.induct with
  | case1 => simp [dedupAdj]
  | case2 y => simp [dedupAdj]
  | case3 y l ih =>
    simp only [dedupAdj, if_true]
    rw [ih]; simp
  | case4 y z l hne ih =>
    simp only [dedupAdj, if_neg hne, List.mem_cons]
    rw [ih]; simp

theorem dedupAdj_sorted {l : List Nat} (h : l.Pairwise fun a b => c.posLt b a = false) :
    (dedupAdj l).Pairwise fun a b => c.posLt a b = true := by
  induction l using dedupAdj.induct with
  | case1 => simp [dedupAdj]
  | case2 y => simp [dedupAdj]
  | case3 y l ih =>
    simp only [dedupAdj, if_true]
    exact ih (List.pairwise_cons.1 h).2
  | case4 y z l hne ih =>
    simp only [dedupAdj, if_neg hne]
    obtain ⟨h1, h2⟩ := List.pairwise_cons.1 h
    refine List.pairwise_cons.2 ⟨?_, ih h2⟩
    intro w hw
    have hyz : c.posLt y z = true := by
      rcases posLt_total (h1 z (by simp)) with e | e
      · exact absurd e.symm hne
      · exact e
    rw [mem_dedupAdj] at hw
    rcases List.mem_cons.1 hw with rfl | hw
    · exact hyz
    · have := (List.pairwise_cons.1 h2).1 w hw
      rcases posLt_total this with rfl | e
      · exact hyz
      · exact posLt_trans hyz e

theorem sorted_unique {l : List Nat} (h : l.Pairwise fun a b => c.posLt a b = true) :
    ∀ {l' : List Nat}, (l'.Pairwise fun a b => c.posLt a b = true) → (∀ x, x ∈ l ↔ x ∈ l') → l = l' := by
  have irr : ∀ a, c.posLt a a = false := by
    intro a
    rw [← Bool.not_eq_true, posLt_iff]; omega
  induction l with
  | nil =>
    intro l' _ hm
    cases l' with
    | nil => rfl
    | cons y l' => have := (hm y).2 (by simp); simp at this
  | cons x l ih =>
    intro l' h' hm
    cases l' with
    | nil => have := (hm x).1 (by simp); simp at this
    | cons y l' =>
      obtain ⟨h1, h2⟩ := List.pairwise_cons.1 h
      obtain ⟨h3, h4⟩ := List.pairwise_cons.1 h'
      have hxy : x = y := by
        rcases List.mem_cons.1 ((hm x).1 (by simp)) with e | hx
        · exact e
        · rcases List.mem_cons.1 ((hm y).2 (by simp)) with e | hy
          · exact e.symm
          · have := posLt_asymm (h1 y hy)
            rw [h3 x hx] at this; simp at this
      subst hxy
      rw [ih h2 h4]
      intro z
      constructor
      · intro hz
        rcases List.mem_cons.1 ((hm z).1 (by simp [hz])) with e | hz'
        · subst e; have := h1 z hz; rw [irr] at this; simp at this
        · exact hz'
      · intro hz
        rcases List.mem_cons.1 ((hm z).2 (by simp [hz])) with e | hz'
        · subst e; have := h3 z hz; rw [irr] at this; simp at this
        · exact hz'

/-! ## The nodes of an interval -/

theorem mem_takeWhile {l : List Nat} {p : Nat → Nat} (h : l.Pairwise fun a b => p a < p b) (M x : Nat) :
    x ∈ l.takeWhile (fun n => decide (p n ≤ M)) ↔ x ∈ l ∧ p x ≤ M := by
  induction l with
  | nil => simp
  | cons a l ih =>
    obtain ⟨h1, h2⟩ := List.pairwise_cons.1 h
    by_cases ha : p a ≤ M
    · rw [List.takeWhile_cons_of_pos (by simpa using ha), List.mem_cons, ih h2, List.mem_cons]
      constructor
      · rintro (rfl | ⟨h3, h4⟩)
        · exact ⟨.inl rfl, ha⟩
        · exact ⟨.inr h3, h4⟩
      · rintro ⟨rfl | h3, h4⟩
        · exact .inl rfl
        · exact .inr ⟨h3, h4⟩
    · rw [List.takeWhile_cons_of_neg (by simpa using ha)]
      simp only [List.not_mem_nil, List.mem_cons, false_iff, not_and]
      rintro (rfl | hx)
      · exact ha
      · have := h1 x hx; omega

theorem nodesBetween_ok (h : Part c R V) {guess : Guess} (hg : guess.OK) {x : Interval} {a : Nat} (ha : x.line ∈ c.getLines a)
    (hpos : c.getPos a = x.min) :
    ∃ ns, c.nodesBetween guess x = some ns ∧ (ns.Pairwise fun a b => c.posLt a b = true) ∧
      ∀ m, m ∈ ns ↔ x.line ∈ c.getLines m ∧ x.min ≤ c.getPos m ∧ c.getPos m ≤ x.max := by
  obtain ⟨line, i, hl, hi⟩ := h.line ha
  have hinc := h.inc hl
  have hnf := nodesFrom_ok h hg hl hi
  rw [hpos] at hnf
  unfold nodesBetween
  rw [hnf]
  refine ⟨_, rfl, ?_, ?_⟩
  · refine ((hinc.sublist (List.drop_sublist i line)).sublist (List.takeWhile_sublist _)).imp ?_
    intro a b hab
    rw [posLt_iff]; exact .inl hab
  · intro m
    rw [mem_takeWhile (hinc.sublist (List.drop_sublist i line)), ← h.mem _ _ m hl, ← and_assoc]
    refine and_congr_left fun _ => ?_
    constructor
    · intro hm
      obtain ⟨k, hk⟩ := List.mem_iff_getElem?.1 hm
      rw [List.getElem?_drop] at hk
      have := inc_lt hinc hi hk
      have h2 := inc_lt hinc hk hi
      exact ⟨List.mem_of_getElem? hk, by omega⟩
    · rintro ⟨hm, hle⟩
      obtain ⟨k, hk⟩ := List.mem_iff_getElem?.1 hm
      have := inc_lt hinc hk hi
      rw [List.mem_iff_getElem?]
      exact ⟨k - i, by rw [List.getElem?_drop, show i + (k - i) = k by omega]; exact hk⟩

theorem segments_ok (h : Part c R V) {guess : Guess} (hg : guess.OK) {I : List Interval}
    (hI : ∀ x ∈ I, ∃ a, x.line ∈ c.getLines a ∧ c.getPos a = x.min) :
    ∃ ls, c.segments guess I = some ls ∧ (∀ l ∈ ls, l.Pairwise fun a b => c.posLt a b = true) ∧
      ∀ m, (∃ l ∈ ls, m ∈ l) ↔ ∃ x ∈ I, x.line ∈ c.getLines m ∧ x.min ≤ c.getPos m ∧ c.getPos m ≤ x.max := by
  induction I with
  | nil => exact ⟨[], rfl, by simp, by simp⟩
  | cons x I ih =>
    obtain ⟨ls, h1, h2, h3⟩ := ih fun y hy => hI y (by simp [hy])
    obtain ⟨a, ha, e⟩ := hI x (by simp)
    obtain ⟨ns, h4, h5, h6⟩ := nodesBetween_ok h hg ha e
    refine ⟨ns :: ls, by simp [segments, h4, h1], ?_, ?_⟩
    · intro l hl
      rcases List.mem_cons.1 hl with rfl | hl
      · exact h5
      · exact h2 l hl
    · intro m
      simp only [List.mem_cons, exists_eq_or_imp, h6, h3]

/-- `nodes_in_intervals` lists the represented nodes, each once, ordered by position. -/
theorem nodesIn_ok (h : Part c R V) {guess : Guess} (hg : guess.OK) {S : List Nat} {I : List Interval} (hI : IOK c S I)
    (hV : ∀ n ∈ S, V n) :
    ∃ out, (∀ out', c.NodesIn guess I out' ↔ out' = out) ∧ (∀ n, n ∈ out ↔ n ∈ S) ∧
      out.Pairwise fun a b => c.posLt a b = true := by
  obtain ⟨ls, h1, h2, h3⟩ := segments_ok h hg (I := I) fun x hx => by
    obtain ⟨a, _, hl, e⟩ := hI.min_mem x hx
    exact ⟨a, hl, e⟩
  obtain ⟨merged, hm⟩ := KMerge.exists (c := c) ls
  have hsort : ∀ {m}, KMerge c.posLt ls m → (dedupAdj m).Pairwise fun a b => c.posLt a b = true :=
    fun hm => dedupAdj_sorted (hm.sorted h2)
  refine ⟨dedupAdj merged, ?_, ?_, hsort hm⟩
  · intro out'
    constructor
    · rintro ⟨ls', m', h4, h5, rfl⟩
      rw [h1] at h4
      simp only [Option.some.injEq] at h4
      subst h4
      refine sorted_unique (hsort h5) (hsort hm) fun x => ?_
      rw [mem_dedupAdj, mem_dedupAdj, h5.mem, hm.mem]
    · rintro rfl
      exact ⟨ls, merged, h1, hm, rfl⟩
  · intro n
    rw [mem_dedupAdj, hm.mem, h3]
    constructor
    · rintro ⟨x, hx, hl, hp⟩
      exact (hI.mem x hx n hl).2 hp
    · intro hn
      obtain ⟨l, hl⟩ := List.exists_mem_of_ne_nil _ (h.some_line n (hV n hn))
      obtain ⟨x, hx, rfl⟩ := hI.all n hn l hl
      exact ⟨x, hx, hl, (hI.mem x hx n hl).1 hn⟩

/-! ## The lines at a port -/

theorem slot_zip {G : View} {p : Nat} : ∀ {ps : List Nat} {off : Nat} {L : List Nat}, ps.Nodup → ps[off]? = some p →
    (ps.flatMap fun p => (G.links p).map fun q => (p, q)).length ≤ L.length →
    ((ps.map fun p => (G.links p).length).take off).sum + (G.links p).length ≤ L.length ∧
    (((ps.flatMap fun p => (G.links p).map fun q => (p, q)).zip L).filter fun x => x.1.1 == p) =
      ((G.links p).map fun q => (p, q)).zip ((L.drop ((ps.map fun p => (G.links p).length).take off).sum).take (G.links p).length) := by
  intro ps
  induction ps with
  | nil => intro off L _ h; simp at h
  | cons a ps ih =>
    intro off L hnd hoff hlen
    rw [List.nodup_cons] at hnd
    rw [List.flatMap_cons, List.length_append, List.length_map] at hlen
    have hsplit : L = L.take (G.links a).length ++ L.drop (G.links a).length := (List.take_append_drop _ _).symm
    have hzip : (((a :: ps).flatMap fun p => (G.links p).map fun q => (p, q)).zip L) =
        ((G.links a).map fun q => (a, q)).zip (L.take (G.links a).length) ++
          (ps.flatMap fun p => (G.links p).map fun q => (p, q)).zip (L.drop (G.links a).length) := by
      rw [List.flatMap_cons]
      conv_lhs => rw [hsplit]
      apply List.zip_append
      rw [List.length_map, List.length_take]; omega
    rw [hzip, List.filter_append]
    cases off with
    | zero =>
      simp only [List.getElem?_cons_zero, Option.some.injEq] at hoff
      subst hoff
      simp only [List.take_zero, List.sum_nil, List.drop_zero, Nat.zero_add]
      refine ⟨by omega, ?_⟩
      rw [List.filter_eq_self.2, List.filter_eq_nil_iff.2, List.append_nil]
      · rintro ⟨⟨b, q⟩, l⟩ hz
        have := (List.of_mem_zip hz).1
        simp only [List.mem_flatMap, List.mem_map] at this
        obtain ⟨b', hb', _, _, e⟩ := this
        obtain ⟨rfl, -⟩ := Prod.mk.inj e
        simp only [beq_iff_eq]
        rintro rfl
        exact hnd.1 hb'
      · rintro ⟨⟨b, q⟩, l⟩ hz
        have := (List.of_mem_zip hz).1
        simp only [List.mem_map] at this
        obtain ⟨_, _, e⟩ := this
        obtain ⟨rfl, -⟩ := Prod.mk.inj e
        simp
    | succ off =>
      rw [List.getElem?_cons_succ] at hoff
      have hpa : a ≠ p := fun e => hnd.1 (e ▸ List.mem_of_getElem? hoff)
      obtain ⟨h1, h2⟩ := ih (L := L.drop (G.links a).length) hnd.2 hoff (by rw [List.length_drop]; omega)
      rw [List.length_drop] at h1
      simp only [List.map_cons, List.take_succ_cons, List.sum_cons]
      refine ⟨by omega, ?_⟩
      rw [h2, List.filter_eq_nil_iff.2, List.nil_append, List.drop_drop]
      rintro ⟨⟨b, q⟩, l⟩ hz
      have := (List.of_mem_zip hz).1
      simp only [List.mem_map] at this
      obtain ⟨_, _, e⟩ := this
      obtain ⟨rfl, -⟩ := Prod.mk.inj e
      simpa using hpa

/-- `lines_at_port` lists the lines of the links of the port, in the order of the links. -/
theorem linesAt_ok {G : View} {c : Line} (hg : ∀ n ∈ G.nodes, ∀ d, c.graph.ports n d = G.ports n d)
    (hl : ∀ p, c.graph.links p = G.links p) (hG : G.WF) (hw : Wired G c) {n p off : Nat} {d : Direction} (hn : n ∈ G.nodes)
    (hoff : (G.ports n d)[off]? = some p) :
    ∃ ls, c.linesAt (some n) (some d) (some off) = some ls ∧ ls.length = (G.links p).length ∧
      (∀ l ∈ ls, l ∈ c.getLines n) ∧
      ∀ q l, (q, l) ∈ (G.links p).zip ls ↔ ((p, q), l) ∈ onLine G c n d := by
  obtain ⟨h1, h2⟩ := slot_zip (G := G) (L := c.getLines n) (hG.ports_nodup n d) hoff (hw.len n hn d)
  have hk : ((c.graph.ports n d).map fun p => (c.graph.links p).length) = (G.ports n d).map fun p => (G.links p).length := by
    rw [hg n hn]
    exact List.map_congr_left fun q _ => by rw [hl]
  generalize hst : (((G.ports n d).map fun p => (G.links p).length).take off).sum = start at h1 h2
  refine ⟨((c.getLines n).drop start).take (G.links p).length, ?_, ?_, ?_, ?_⟩
  · simp only [linesAt]
    rw [hk, hst, List.getElem?_map, hoff]
    simp only [Option.map_some]
    rw [if_pos h1]
  · rw [List.length_take, List.length_drop]; omega
  · intro l hl'
    exact List.mem_of_mem_drop (List.mem_of_mem_take hl')
  · intro q l
    have h3 : ((p, q), l) ∈ onLine G c n d ↔ ((p, q), l) ∈ (onLine G c n d).filter fun x => x.1.1 == p := by
      rw [List.mem_filter]; simp
    rw [h3]
    unfold onLine lk
    rw [h2]
    constructor
    · intro h4
      obtain ⟨k, hk, e⟩ := List.mem_iff_getElem.1 h4
      rw [List.getElem_zip] at e
      obtain ⟨e1, e2⟩ := Prod.mk.inj e
      rw [List.length_zip] at hk
      refine List.mem_iff_getElem.2 ⟨k, by rw [List.length_zip, List.length_map]; exact hk, ?_⟩
      rw [List.getElem_zip, List.getElem_map, e1, e2]
    · intro h4
      obtain ⟨z, e, h5⟩ := (mem_zip_map fun q => (p, q)).1 h4
      obtain ⟨-, rfl⟩ := Prod.mk.inj e
      exact h5

end Line

end Verif.Convex
