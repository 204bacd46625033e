import Verif.Render.ReadSpec
import Verif.Render.StyleProps
import Verif.Render.DotTextLemmas

/-!
# The text of a mermaid rendering can be read back (C79)
-/

namespace Verif.Render

open Verif (Direction)
open Verif.View Verif.Hier

variable {E E' : Type}

theorem id_ne (n : Nat) : idText n ≠ [] := by simp [idText, Nat.toDigits_ne_nil]

theorem id_cons (n : Nat) : ∃ c t, idText n = c :: t ∧ c.isDigit = true := by
  cases h : idText n with
  | nil => exact absurd h (id_ne n)
  | cons c t => exact ⟨c, t, rfl, id_digit (by rw [h]; simp)⟩

theorem drop_spaces (k : Nat) {t : Text} (h : ∀ r, t ≠ ' ' :: r) :
    ((List.replicate k "    ".toList).flatten ++ t).dropWhile (· == ' ') = t := by
  induction k with
  | zero =>
    cases t with
    | nil => rfl
    | cons c t =>
      have : c ≠ ' ' := fun hc => h t (by rw [hc])
      simp [List.dropWhile, this]
  | succ k ih =>
    rw [List.replicate_succ, List.flatten_cons, List.append_assoc]
    show List.dropWhile _ (' ' :: ' ' :: ' ' :: ' ' :: ((List.replicate k "    ".toList).flatten ++ t)) = t
    simpa [List.dropWhile] using ih

/-- A line that starts with a digit is none of the others. -/
theorem readM_plain {c : Char} {t : Text} (h : c.isDigit = true) : readM (c :: t) = readPlain (c :: t) := by
  have hne : ∀ d : Char, d.isDigit = false → c ≠ d := fun d hd e => by rw [e, hd] at h; cases h
  have h1 := hne 'e' (by decide)
  have h2 := hne 'd' (by decide)
  have h3 := hne 's' (by decide)
  unfold readM
  rw [if_neg (by intro e; exact h1 (List.cons.inj e).1), if_neg (by intro e; exact h2 (List.cons.inj e).1)]
  have e1 : after "style ".toList (c :: t) = none := by
    unfold after; rw [if_neg]; simp [Ne.symm h3]
  have e2 : after "subgraph ".toList (c :: t) = none := by
    unfold after; rw [if_neg]; simp [Ne.symm h3]
  rw [e1, e2]; rfl

theorem read_id (n : Nat) (t : Text) : readM (idText n ++ t) = readPlain (idText n ++ t) := by
  obtain ⟨c, r, h1, h2⟩ := id_cons n
  rw [h1]; exact readM_plain h2

theorem read_hidden (n : Nat) : readM (idText n ++ ":::hidden".toList) = some (.leaf n none) := by
  rw [read_id]
  unfold readPlain
  have := number_eq n (c := ':') "::hidden".toList (by decide)
  rw [show (":::hidden".toList : Text) = ':' :: "::hidden".toList from by decide, this]
  rfl

theorem dropLast_bracket (e : Text) : (e ++ "]".toList).dropLast = e := by
  show (e ++ [']']).dropLast = e
  simp

theorem read_box (n : Nat) (l : Text) : readM (idText n ++ inBox n l) = some (.leaf n (some (encodeLabel (idText n) l))) := by
  rw [read_id]
  unfold readPlain inBox
  have h := number_eq n (c := '[') (encodeLabel (idText n) l ++ "]".toList) (by decide)
  have e : ("[".toList ++ encodeLabel (idText n) l ++ "]".toList : Text) = '[' :: (encodeLabel (idText n) l ++ "]".toList) := by
    simp
  rw [e, h]
  simp only [Option.bind_some]
  rw [if_neg (by intro h; cases (List.cons.inj h).1)]
  have h2 : after "[".toList ('[' :: (encodeLabel (idText n) l ++ "]".toList)) = some (encodeLabel (idText n) l ++ "]".toList) :=
    after_append "[".toList _
  rw [h2]
  simp only [dropLast_bracket]

theorem not_stop_sub (t : Text) : readM ("subgraph ".toList ++ t) =
    (number t).bind fun x => (after " [".toList x.2).map fun r => .start x.1 (if r = " ]".toList then none else some r.dropLast) := by
  have e : ("subgraph ".toList ++ t : Text) = 's' :: 'u' :: ("bgraph ".toList ++ t) := rfl
  unfold readM
  rw [if_neg (by rw [e]; intro h; cases (List.cons.inj h).1), if_neg (by rw [e]; intro h; cases (List.cons.inj h).1), if_neg]
  · rw [after_append]
  · have : after "style ".toList ("subgraph ".toList ++ t) = none := after_ne t (by decide) (by decide)
    rw [this]; simp

theorem read_sub_hidden (n : Nat) : readM ("subgraph ".toList ++ idText n ++ " [ ]".toList) = some (.start n none) := by
  rw [List.append_assoc, not_stop_sub]
  have := number_eq n (c := ' ') "[ ]".toList (by decide)
  rw [show (" [ ]".toList : Text) = ' ' :: "[ ]".toList from by decide, this]
  rfl

theorem encode_not_space (n : Nat) (l : Text) : encodeLabel (idText n) l ≠ " ".toList := by
  by_cases h : l = []
  · rw [(C51_encode_label _ l).1 h]
    intro hc
    exact id_not (n := n) (c := ' ') (by decide) (by rw [hc]; decide)
  · obtain ⟨s, h1, -, -⟩ := (C51_encode_label (idText n) l).2 h
    rw [h1]
    intro hc
    cases (List.cons.inj hc).1

theorem read_sub_box (n : Nat) (l : Text) :
    readM ("subgraph ".toList ++ idText n ++ " ".toList ++ inBox n l) = some (.start n (some (encodeLabel (idText n) l))) := by
  rw [List.append_assoc, List.append_assoc, not_stop_sub]
  have e : (" ".toList ++ inBox n l : Text) = " [".toList ++ (encodeLabel (idText n) l ++ "]".toList) := by
    simp [inBox]
  have h := number_eq n (c := ' ') ("[".toList ++ (encodeLabel (idText n) l ++ "]".toList)) (by decide)
  rw [e]
  rw [show (" [".toList ++ (encodeLabel (idText n) l ++ "]".toList) : Text) = ' ' :: ("[".toList ++ (encodeLabel (idText n) l ++ "]".toList)) from rfl, h]
  simp only [Option.bind_some]
  rw [show (' ' :: ("[".toList ++ (encodeLabel (idText n) l ++ "]".toList)) : Text) = " [".toList ++ (encodeLabel (idText n) l ++ "]".toList) from rfl,
    after_append]
  simp only [Option.map_some, dropLast_bracket]
  rw [if_neg]
  intro hc
  have := congrArg List.dropLast hc
  rw [dropLast_bracket] at this
  exact encode_not_space n l this

theorem read_style (t : Text) : readM ("style ".toList ++ t) = some .note := by
  have e : ("style ".toList ++ t : Text) = 's' :: ("tyle ".toList ++ t) := rfl
  unfold readM
  rw [if_neg (by rw [e]; intro h; cases (List.cons.inj h).1), if_neg (by rw [e]; intro h; cases (List.cons.inj h).1), if_pos]
  rw [after_append]; rfl

theorem takeWhile_all {f : Char → Bool} {a b : Text} (h : ∀ x ∈ a, f x = true) (hb : ∀ c r, b = c :: r → f c = false) :
    (a ++ b).takeWhile f = a ∧ (a ++ b).dropWhile f = b := by
  cases b with
  | nil =>
    rw [List.append_nil]
    clear hb
    induction a with
    | nil => exact ⟨rfl, rfl⟩
    | cons c a ih =>
      have hc := h c (by simp)
      obtain ⟨h1, h2⟩ := ih fun x hx => h x (List.mem_cons_of_mem _ hx)
      simp [List.takeWhile, List.dropWhile, hc, h1, h2]
  | cons c r => exact takeWhile_to h (hb c r rfl)

theorem read_link (a b : Nat) {s : Text} (h1 : ['-'] <+: s) (h2 : "->".toList <:+ s) :
    readM (idText a ++ s ++ idText b) = some (.link a s b) := by
  rw [List.append_assoc, read_id]
  obtain ⟨r, hr⟩ := h1
  obtain ⟨p, hp⟩ := h2
  have e : s ++ idText b = '-' :: (r ++ idText b) := by rw [← hr]; rfl
  unfold readPlain
  rw [e, number_eq a (c := '-') _ (by decide)]
  simp only [Option.bind_some]
  rw [if_neg (by intro h; cases (List.cons.inj h).1)]
  have e2 : after "[".toList ('-' :: (r ++ idText b)) = none := by
    unfold after; rw [if_neg]; simp
  rw [e2]
  simp only
  unfold readArrow
  rw [← e, List.reverse_append]
  obtain ⟨t1, t2⟩ := takeWhile_all (f := Char.isDigit) (a := (idText b).reverse) (b := s.reverse)
    (fun x hx => id_digit (List.mem_reverse.1 hx)) (by
      intro c r hc
      rw [← hp, List.reverse_append] at hc
      have : c = '>' := by
        have := (List.cons.inj hc).1
        exact this.symm
      rw [this]; decide)
  rw [t1, t2, List.reverse_reverse, List.reverse_reverse, number_end]
  rfl

/-- The lines of a statement say the statement. -/
theorem stmt_read (S : Styles E) (hS : S.Clean) (s : Stmt E) :
    ∃ l ls, stmtLines S s = l :: ls ∧ readM l.2 = some (said S s) ∧ (∀ x ∈ ls, readM x.2 = some .note) ∧
      said S s ≠ .note ∧ ∀ x ∈ stmtLines S s, ∀ r, x.2 ≠ ' ' :: r := by
  have hid : ∀ n t r, idText n ++ t ≠ ' ' :: r := by
    intro n t r h
    obtain ⟨c, u, h1, h2⟩ := id_cons n
    rw [h1] at h
    have := (List.cons.inj h).1
    rw [this] at h2; revert h2; decide
  have hsub : ∀ t r, "subgraph ".toList ++ t ≠ ' ' :: r := by
    intro t r h
    have : ('s' :: ("ubgraph ".toList ++ t) : Text) = ' ' :: r := h
    cases (List.cons.inj this).1
  have hsty : ∀ t r, "style ".toList ++ t ≠ ' ' :: r := by
    intro t r h
    have : ('s' :: ("tyle ".toList ++ t) : Text) = ' ' :: r := h
    cases (List.cons.inj this).1
  have hdir : ∀ r, "direction LR".toList ≠ ' ' :: r := by
    intro r h
    cases (List.cons.inj h).1
  have hattr : ∀ n a, ∀ x ∈ attrLine n a, readM x = some .note ∧ ∀ r, x ≠ ' ' :: r := by
    intro n a x hx
    unfold attrLine at hx
    split at hx
    · cases hx
    · rw [List.mem_singleton] at hx
      subst hx
      rw [List.append_assoc, List.append_assoc]
      exact ⟨read_style _, hsty _⟩
  have hdirn : readM "direction LR".toList = some .note := by decide +kernel
  cases s with
  | leaf n =>
    cases hn : S.node n with
    | hidden =>
      refine ⟨_, _, by simp only [stmtLines, hn]; rfl, ?_, by simp, by simp [said], ?_⟩
      · simp only [said, boxOf, hn]; exact read_hidden n
      · intro x hx
        simp only [stmtLines, hn, List.mem_singleton] at hx
        subst hx; exact hid n _
    | box l =>
      refine ⟨_, _, by simp only [stmtLines, hn]; rfl, ?_, by simp, by simp [said], ?_⟩
      · simp only [said, boxOf, hn]; exact read_box n l
      · intro x hx
        simp only [stmtLines, hn, List.mem_singleton] at hx
        subst hx; exact hid n _
    | boxed l a =>
      refine ⟨_, _, by simp only [stmtLines, hn]; rfl, ?_, ?_, by simp [said], ?_⟩
      · simp only [said, boxOf, hn]; exact read_box n l
      · intro x hx
        obtain ⟨y, hy, rfl⟩ := List.mem_map.1 hx
        exact (hattr n a y hy).1
      · intro x hx
        simp only [stmtLines, hn, List.mem_cons] at hx
        rcases hx with rfl | hx
        · exact hid n _
        · obtain ⟨y, hy, rfl⟩ := List.mem_map.1 hx
          exact (hattr n a y hy).2
  | start n =>
    cases hn : S.node n with
    | hidden =>
      refine ⟨_, _, by simp only [stmtLines, hn]; rfl, ?_, ?_, by simp [said], ?_⟩
      · simp only [said, boxOf, hn]; exact read_sub_hidden n
      · intro x hx
        simp only [List.mem_singleton] at hx
        subst hx; exact hdirn
      · intro x hx
        simp only [stmtLines, hn, List.mem_cons, List.not_mem_nil, or_false] at hx
        rcases hx with rfl | rfl
        · show ∀ r, "subgraph ".toList ++ idText n ++ " [ ]".toList ≠ _
          rw [List.append_assoc]; exact hsub _
        · exact hdir
    | box l =>
      refine ⟨_, _, by simp only [stmtLines, hn]; rfl, ?_, ?_, by simp [said], ?_⟩
      · simp only [said, boxOf, hn]; exact read_sub_box n l
      · intro x hx
        simp only [List.mem_singleton] at hx
        subst hx; exact hdirn
      · intro x hx
        simp only [stmtLines, hn, List.mem_cons, List.not_mem_nil, or_false] at hx
        rcases hx with rfl | rfl
        · show ∀ r, "subgraph ".toList ++ idText n ++ " ".toList ++ inBox n l ≠ _
          rw [List.append_assoc, List.append_assoc]; exact hsub _
        · exact hdir
    | boxed l a =>
      refine ⟨_, _, by simp only [stmtLines, hn]; rfl, ?_, ?_, by simp [said], ?_⟩
      · simp only [said, boxOf, hn]; exact read_sub_box n l
      · intro x hx
        simp only [List.mem_cons] at hx
        rcases hx with rfl | hx
        · exact hdirn
        · obtain ⟨y, hy, rfl⟩ := List.mem_map.1 hx
          exact (hattr n a y hy).1
      · intro x hx
        simp only [stmtLines, hn, List.mem_cons] at hx
        rcases hx with rfl | rfl | hx
        · show ∀ r, "subgraph ".toList ++ idText n ++ " ".toList ++ inBox n l ≠ _
          rw [List.append_assoc, List.append_assoc]; exact hsub _
        · exact hdir
        · obtain ⟨y, hy, rfl⟩ := List.mem_map.1 hx
          exact (hattr n a y hy).2
  | stop =>
    refine ⟨_, _, rfl, ?_, by simp, by simp [said], ?_⟩
    · show readM "end".toList = some .stop
      decide +kernel
    · intro x hx r
      simp only [stmtLines, List.mem_singleton] at hx
      subst hx
      intro h
      cases (List.cons.inj h).1
  | link a =>
    obtain ⟨t, h1, h2, h3, -⟩ := C51_arrow (S.edge a.src a.tgt) (hS.noCustom _ _)
    refine ⟨_, _, rfl, ?_, by simp, by simp [said], ?_⟩
    · simp only [said, h1, Option.getD_some]
      exact read_link _ _ h2 h3
    · intro x hx
      simp only [stmtLines, List.mem_singleton] at hx
      subst hx
      show ∀ r, idText _ ++ _ ++ idText _ ≠ _
      rw [List.append_assoc]; exact hid _ _

theorem lines_read (S : Styles E) (hS : S.Clean) : ∀ (out : List (Stmt E)) (k : Nat),
    ∃ rs, ((linesAt S k out).map fun x => readM (((List.replicate x.1 "    ".toList).flatten ++ x.2).dropWhile (· == ' '))).mapM id = some rs ∧
      rs.filter (· ≠ .note) = out.map (said S) := by
  intro out
  induction out with
  | nil => intro k; exact ⟨[], rfl, rfl⟩
  | cons s out ih =>
    intro k
    obtain ⟨here, next, e0⟩ : ∃ here next, linesAt S k (s :: out) =
        (stmtLines S s).map (fun x => (here + x.1, x.2)) ++ linesAt S next out := ⟨_, _, rfl⟩
    rw [e0]
    obtain ⟨rs, h1, h2⟩ := ih next
    obtain ⟨l, ls, e, e1, e2, e3, e4⟩ := stmt_read S hS s
    rw [List.map_append, List.map_map, List.mapM_append, h1]
    have hmap : ((stmtLines S s).map ((fun x : Nat × Text => readM (((List.replicate x.1 "    ".toList).flatten ++ x.2).dropWhile (· == ' '))) ∘
        fun x => (here + x.1, x.2))) = (stmtLines S s).map fun x => readM x.2 := by
      refine List.map_congr_left fun x hx => ?_
      simp only [Function.comp]
      rw [drop_spaces _ (e4 x hx)]
    rw [hmap, e]
    have hls : ∀ ls : List (Nat × Text), (∀ x ∈ ls, readM x.2 = some .note) →
        (ls.map fun x => readM x.2).mapM id = some (ls.map fun _ => MLine.note) := by
      intro ls
      induction ls with
      | nil => intro _; rfl
      | cons x ls ih =>
        intro h
        rw [List.map_cons, List.mapM_cons, h x (by simp), ih fun y hy => h y (List.mem_cons_of_mem _ hy)]
        rfl
    rw [List.map_cons, List.mapM_cons, e1, hls ls e2]
    refine ⟨(said S s :: ls.map fun _ => MLine.note) ++ rs, rfl, ?_⟩
    rw [List.filter_append, h2, List.filter_cons, if_pos (by simpa using e3)]
    have : (ls.map fun _ => MLine.note).filter (· ≠ .note) = [] := by
      rw [List.filter_eq_nil_iff]
      intro x hx
      obtain ⟨_, _, rfl⟩ := List.mem_map.1 hx
      simp
    rw [this]
    rfl

/-- **C79** The statements can be read back from the text, up to the ports of links: nodes, boxes, subgraphs and
arrows in order. -/
theorem C79_read_partial (S : Styles E) (hS : S.Clean) {out : List (Stmt E)} (hb : blocks out (some []) = some []) :
    ∃ t, mermaidText S (some out) = some t ∧ readMermaid t = some (out.map (said S)) := by
  obtain ⟨t, h1, h2⟩ := C51_lines S hS.noBreaks hb
  refine ⟨t, h1, ?_⟩
  obtain ⟨rs, h3, h4⟩ := lines_read S hS out 1
  unfold readMermaid
  rw [h2]
  simp only [List.cons_append, if_true]
  rw [List.dropLast_concat, List.map_map]
  have : ((fun l : Text => readM (l.dropWhile (· == ' '))) ∘ fun x : Nat × Text => (List.replicate x.1 "    ".toList).flatten ++ x.2) =
      fun x => readM (((List.replicate x.1 "    ".toList).flatten ++ x.2).dropWhile (· == ' ')) := rfl
  rw [this, h3]
  simp only [Option.map_some, h4]

/-! ## Equal texts -/

/-- The nodes read. -/
def readNodes (ls : List MLine) : List (Nat × Option Text) := ls.filterMap fun
  | .leaf n b => some (n, b)
  | .start n b => some (n, b)
  | _ => none

/-- The arrows read. -/
def readArrows (ls : List MLine) : List (Nat × Text × Nat) := ls.filterMap fun
  | .link a s b => some (a, s, b)
  | _ => none

theorem readNodes_said (S : Styles E) (out : List (Stmt E)) : readNodes (out.map (said S)) = (drawn out).map fun n => (n, boxOf S n) := by
  induction out with
  | nil => rfl
  | cons s out ih => cases s <;> simp [readNodes, drawn, said] at ih ⊢ <;> exact ih

/-- The text of the arrow of a link. -/
def arrowOf (S : Styles E) (a : Arrow E) : Text := (S.edge a.src a.tgt).asMermaid.getD []

theorem readArrows_said (S : Styles E) (out : List (Stmt E)) :
    readArrows (out.map (said S)) = (arrows out).map fun a => (a.srcNode, arrowOf S a, a.tgtNode) := by
  induction out with
  | nil => rfl
  | cons s out ih => cases s <;> simp [readArrows, arrows, said, arrowOf] at ih ⊢ <;> exact ih

theorem blocks_said {S : Styles E} {S' : Styles E'} : ∀ {out : List (Stmt E)} {out' : List (Stmt E')} {b : Option (List Nat)},
    out.map (said S) = out'.map (said S') → blocks out b = blocks out' b := by
  intro out
  induction out with
  | nil => intro out' b h; cases out' with
    | nil => rfl
    | cons s' out' => cases h
  | cons s out ih =>
    intro out' b h
    cases out' with
    | nil => cases h
    | cons s' out' =>
      simp only [List.map_cons, List.cons.injEq] at h
      obtain ⟨h1, h2⟩ := h
      cases s <;> cases s' <;> simp only [said, MLine.leaf.injEq, MLine.start.injEq, reduceCtorEq] at h1
      · simp only [blocks]; exact ih h2
      · simp only [blocks]; rw [h1.1]; exact ih h2
      · simp only [blocks]; exact ih h2
      · simp only [blocks]; exact ih h2

theorem encode_inj {n : Nat} {l l' : Text} (h : encodeLabel (idText n) l = encodeLabel (idText n) l') (h1 : '#' ∉ l) (h2 : '<' ∉ l)
    (h1' : '#' ∉ l') (h2' : '<' ∉ l') : l = l' := by
  have hq : ∀ l s : Text, encodeLabel (idText n) l = '"' :: s ++ ['"'] → l ≠ [] := by
    rintro l s h rfl
    rw [(C51_encode_label _ []).1 rfl] at h
    exact id_not (n := n) (c := '"') (by decide) (by rw [h]; simp)
  by_cases hl : l = []
  · by_cases hl' : l' = []
    · rw [hl, hl']
    · obtain ⟨s, e, -⟩ := (C51_encode_label (idText n) l').2 hl'
      exact absurd hl (hq l s (h.trans e))
  · obtain ⟨s, e, hs⟩ := C51_label_shown_partial (idText n) l hl h1 h2
    have hl' := hq l' s (h.symm.trans e)
    obtain ⟨s', e', hs'⟩ := C51_label_shown_partial (idText n) l' hl' h1' h2'
    have : s = s' := by
      have := e.symm.trans (h.trans e')
      simpa using this
    subst this
    exact ((hs' l).1 ((hs l).2 rfl))

theorem arrow_count {G : GView E} {par : Nat → Option Nat} {out : List (Stmt E)} (S : Styles E) (hD : Drawing G par out) (a b : Nat) (t : Text)
    {l : List (Arrow E)} (hl : l.Nodup)
    (hm : ∀ x, x ∈ l ↔ IsArrow G x ∧ x.srcNode = a ∧ x.tgtNode = b ∧ (S.edge x.src x.tgt).asMermaid = some t) :
    l.length = ((readArrows (out.map (said S))).filter (· = (a, t, b))).length := by
  have hsome : ∀ x, (S.edge x.src x.tgt).asMermaid = some t ↔ arrowOf S x = t := by
    intro x
    have := (C51_edge_style (S.edge x.src x.tgt) [] []).2.2.2.2.2.2
    obtain ⟨u, hu⟩ := Option.isSome_iff_exists.1 this
    simp [arrowOf, hu]
  rw [readArrows_said, List.filter_map, List.length_map]
  refine List.Perm.length_eq ((List.perm_ext_iff_of_nodup hl (hD.links_nodup.filter _)).2 fun x => ?_)
  rw [hm, List.mem_filter, hD.mem_links, hsome]
  simp only [Function.comp, decide_eq_true_eq, Prod.mk.injEq]
  constructor
  · rintro ⟨h1, h2, h3, h4⟩; exact ⟨h1, h2, h4, h3⟩
  · rintro ⟨h1, h2, h4, h3⟩; exact ⟨h1, h2, h3, h4⟩

theorem split_at {S : Styles E} {S' : Styles E'} : ∀ {before : List (Stmt E)} {s : Stmt E} {after : List (Stmt E)} {out' : List (Stmt E')},
    (before ++ s :: after).map (said S) = out'.map (said S') →
    ∃ before' s' after', out' = before' ++ s' :: after' ∧ before.map (said S) = before'.map (said S') ∧ said S s = said S' s' := by
  intro before
  induction before with
  | nil =>
    intro s after out' h
    cases out' with
    | nil => cases h
    | cons s' out' =>
      simp only [List.nil_append, List.map_cons, List.cons.injEq] at h
      exact ⟨[], s', out', rfl, rfl, h.1⟩
  | cons x before ih =>
    intro s after out' h
    cases out' with
    | nil => cases h
    | cons x' out' =>
      simp only [List.cons_append, List.map_cons, List.cons.injEq] at h
      obtain ⟨b', s', a', e1, e2, e3⟩ := ih h.2
      exact ⟨x' :: b', s', a', by rw [e1]; rfl, by simp [h.1, e2], e3⟩

theorem same_of_text {G : GView E} {G' : GView E'} {S : Styles E} {S' : Styles E'} {par par' : Nat → Option Nat} (hS : S.Clean) (hS' : S'.Clean)
    {out : List (Stmt E)} {out' : List (Stmt E')} (hD : Drawing G par out) (hD' : Drawing G' par' out')
    (h : mermaidText S (some out) = mermaidText S' (some out')) : SameDrawing G G' S S' par par' := by
  obtain ⟨t, h1, h2⟩ := C79_read_partial S hS hD.closed
  obtain ⟨t', h1', h2'⟩ := C79_read_partial S' hS' hD'.closed
  rw [h1, h1'] at h
  cases h
  rw [h2] at h2'
  have he : out.map (said S) = out'.map (said S') := Option.some.inj h2'
  have hn : (drawn out).map (fun n => (n, boxOf S n)) = (drawn out').map fun n => (n, boxOf S' n) := by
    rw [← readNodes_said, ← readNodes_said, he]
  have hn1 : drawn out = drawn out' := by
    have := congrArg (List.map (·.1)) hn
    simpa [List.map_map, Function.comp_def] using this
  have hnodes : ∀ n, G.containsNode n = true ↔ G'.containsNode n = true := by
    intro n; rw [← hD.mem_nodes, ← hD'.mem_nodes, hn1]
  refine ⟨hnodes, ?_, ?_, ?_⟩
  · intro n hc hl hl'
    have hb : boxOf S n = boxOf S' n := by
      have hm : (n, boxOf S n) ∈ (drawn out).map (fun n => (n, boxOf S n)) := List.mem_map.2 ⟨n, (hD.mem_nodes n).2 hc, rfl⟩
      rw [hn] at hm
      obtain ⟨m, _, e⟩ := List.mem_map.1 hm
      obtain ⟨rfl, e⟩ := Prod.mk.inj e
      exact e.symm
    have key : ∀ (T : Styles E), boxOf T n = (T.node n).label?.map (encodeLabel (idText n)) := by
      intro T; unfold boxOf; cases T.node n <;> rfl
    have key' : ∀ (T : Styles E'), boxOf T n = (T.node n).label?.map (encodeLabel (idText n)) := by
      intro T; unfold boxOf; cases T.node n <;> rfl
    rw [key, key'] at hb
    cases e1 : (S.node n).label? with
    | none =>
      cases e2 : (S'.node n).label? with
      | none => rfl
      | some l' => rw [e1, e2] at hb; cases hb
    | some l =>
      cases e2 : (S'.node n).label? with
      | none => rw [e1, e2] at hb; cases hb
      | some l' =>
        rw [e1, e2] at hb
        rw [encode_inj (Option.some.inj hb) (hl l e1).1 (hl l e1).2 (hl' l' e2).1 (hl' l' e2).2]
  · intro n hc
    have hm : n ∈ drawn out := (hD.mem_nodes n).2 hc
    obtain ⟨s, hs, e⟩ := List.mem_filterMap.1 hm
    obtain ⟨before, after, rfl⟩ := List.append_of_mem hs
    obtain ⟨before', s', after', e1, e2, e3⟩ := split_at he
    have hs1 : s = .leaf n ∨ s = .start n := by
      cases s <;> simp at e
      · exact .inl (by rw [e])
      · exact .inr (by rw [e])
    have hs2 : s' = .leaf n ∨ s' = .start n := by
      rcases hs1 with rfl | rfl <;> cases s' <;> simp only [said, MLine.leaf.injEq, MLine.start.injEq, reduceCtorEq] at e3
      · exact .inl (by rw [e3.1])
      · exact .inr (by rw [e3.1])
    obtain ⟨b, b1, b2⟩ := hD.nested before after n (hs1.imp (by rintro rfl; rfl) (by rintro rfl; rfl))
    obtain ⟨b', b1', b2'⟩ := hD'.nested before' after' n (hs2.imp (by rintro rfl; exact e1) (by rintro rfl; exact e1))
    rw [blocks_said e2, b1'] at b1
    cases b1
    rw [← b2, ← b2']
  · intro a b t l l' hl hl' hm hm'
    rw [arrow_count S hD a b t hl hm, arrow_count S' hD' a b t hl' hm', he]

/-- **C79** Without a hierarchy: views with the same mermaid text, in any styles without line breaks and own arrows,
have the same nodes with the same labels, and as many links between any two nodes in each style. -/
theorem C79_flat_partial {G : GView E} {G' : GView E'} {S : Styles E} {S' : Styles E'} (ok : G.Ok) (ok' : G'.Ok) (hS : S.Clean) (hS' : S'.Clean)
    {order : Pending E → Pending E} (ho : ∀ es, (order es).Perm es) {order' : Pending E' → Pending E'} (ho' : ∀ es, (order' es).Perm es)
    {fuel fuel' : Nat} (hf : 2 * G.nodes.length ≤ fuel) (hf' : 2 * G'.nodes.length ≤ fuel')
    (h : mermaidText S (mermaid G none order fuel) = mermaidText S' (mermaid G' none order' fuel')) :
    SameDrawing G G' S S' (fun _ => none) fun _ => none := by
  obtain ⟨out, h1, h2, -⟩ := C44_mermaid_flat ok ho hf
  obtain ⟨out', h1', h2', -⟩ := C44_mermaid_flat ok' ho' hf'
  rw [h1, h1'] at h
  exact same_of_text hS hS' h2 h2' h

/-- **C79** With hierarchies made by any history of calls, for views that contain the children of their nodes: the same text
also means the same parents. -/
theorem C79_forest_partial {G : GView E} {G' : GView E'} {S : Styles E} {S' : Styles E'} (ok : G.Ok) (ok' : G'.Ok) (hS : S.Clean) (hS' : S'.Clean)
    {f f' : Hierarchy} (hr : Hier.Reach f) (hr' : Hier.Reach f')
    (hc : ∀ n c, G.containsNode n = true → f.parent c = some n → G.containsNode c = true)
    (hc' : ∀ n c, G'.containsNode n = true → f'.parent c = some n → G'.containsNode c = true)
    {order : Pending E → Pending E} (ho : ∀ es, (order es).Perm es) {order' : Pending E' → Pending E'} (ho' : ∀ es, (order' es).Perm es)
    {fuel fuel' : Nat} (hf : 2 * G.nodes.length ≤ fuel) (hf' : 2 * G'.nodes.length ≤ fuel')
    (h : mermaidText S (mermaid G (some f) order fuel) = mermaidText S' (mermaid G' (some f') order' fuel')) :
    SameDrawing G G' S S' f.parent f'.parent := by
  obtain ⟨out, h1, h2, -⟩ := C44_mermaid_partial ok hr hc ho hf
  obtain ⟨out', h1', h2', -⟩ := C44_mermaid_partial ok' hr' hc' ho' hf'
  rw [h1, h1'] at h
  exact same_of_text hS hS' h2 h2' h

/-! ## Examples -/

theorem exStyles_clean : exStyles.Clean := ⟨exStyles_ok, by
  intro e f s
  simp only [exStyles]
  split <;> simp [EdgeStyle.withLabel, EdgeStyle.stripLabel]⟩

/-- The text of the example, read. -/
example : (mermaidText exStyles (mermaid (ofPG Algo.dagG 0 0) (some exH) id 12)).bind readMermaid = some
    [.start 0 (some ['0']), .leaf 1 (some ['1']), .start 2 (some "\"two<br>#quot;2#quot;\"".toList), .leaf 5 (some ['5']), .leaf 4 (some ['4']),
      .stop, .leaf 3 (some ['3']), .link 0 "-.\"a<br>b\".->".toList 1, .link 0 "-->".toList 2, .link 1 "-->".toList 3,
      .link 2 "-->".toList 3, .link 3 "-->".toList 4, .stop] := by decide +kernel

example := C79_read_partial exStyles exStyles_clean (out := [.start 0, .leaf 1, .link ⟨0, 0, 1, 2⟩, .stop]) rfl

/-- Another graph, with ports in other places, and the same nodes and links. -/
def dagG' : PG.PG := (PG.PG.run 32767 PG.PG.empty
  [.addNode 1 3, .addNode 1 1, .addNode 1 2, .addNode 2 1, .addNode 1 0, .addNode 0 0,
   .linkPorts 1 4, .linkPorts 3 6, .linkPorts 5 10, .linkPorts 7 9, .linkPorts 11 12]).getD PG.PG.empty

theorem dagG'_reach : PG.PG.Reach 32767 dagG' := PG.checkedRun_reach .init (ops :=
  [.addNode 1 3, .addNode 1 1, .addNode 1 2, .addNode 2 1, .addNode 1 0, .addNode 0 0,
   .linkPorts 1 4, .linkPorts 3 6, .linkPorts 5 10, .linkPorts 7 9, .linkPorts 11 12]) (by decide +kernel)

/-- The first arrow is labelled as in `exStyles`. -/
def exStyles' : Styles Nat where
  node := exStyles.node
  edge e _ := if e = 1 then EdgeStyle.dashed.withLabel "a\nb".toList else .solid

theorem exStyles'_clean : exStyles'.Clean := ⟨⟨(by
  intro e f s h
  simp only [exStyles'] at h
  split at h <;> cases h), exStyles_ok.node⟩, by
  intro e f s
  simp only [exStyles']
  split <;> simp [EdgeStyle.withLabel, EdgeStyle.stripLabel]⟩

/-- The two graphs have the same text. -/
example : SameDrawing (ofPG Algo.dagG 0 0) (ofPG dagG' 0 0) exStyles exStyles' (fun _ => none) fun _ => none :=
  C79_flat_partial (ofPG_ok (Algo.dagG_reach.inv (by decide)) 0 0) (ofPG_ok (dagG'_reach.inv (by decide)) 0 0) exStyles_clean exStyles'_clean
    (order := id) (fun _ => .refl _) (order' := id) (fun _ => .refl _) (fuel := 12) (fuel' := 14) (by decide +kernel) (by decide +kernel) (by decide +kernel)

example : SameDrawing (ofPG Algo.dagG 0 0) (ofPG dagG' 0 0) exStyles exStyles' exH.parent exH.parent := by
  have h1 : ∀ c < exH.data.data.length, (exH.parent c).all (· < 6) = true ∧ c < 6 := by decide +kernel
  have h2 : ∀ c < 6, (ofPG Algo.dagG 0 0).containsNode c = true ∧ (ofPG dagG' 0 0).containsNode c = true := by decide +kernel
  have h3 : ∀ n c, exH.parent c = some n → c < 6 := fun n c hp =>
    (h1 c (exH_reach.inv.1.lt_of_mem ((Lca.tree_of_reach exH_reach).par_iff c n |>.1 hp))).2
  exact C79_forest_partial (ofPG_ok (Algo.dagG_reach.inv (by decide)) 0 0) (ofPG_ok (dagG'_reach.inv (by decide)) 0 0) exStyles_clean exStyles'_clean
    exH_reach exH_reach (fun n c _ hp => (h2 c (h3 n c hp)).1) (fun n c _ hp => (h2 c (h3 n c hp)).2)
    (order := id) (fun _ => .refl _) (order' := id) (fun _ => .refl _) (fuel := 12) (fuel' := 14) (by decide +kernel) (by decide +kernel) (by decide +kernel)

/-- Thirteen nodes and one link from the first. -/
def starG (q : Nat) : PG.PG := (PG.PG.run 32767 PG.PG.empty (.addNode 0 1 :: List.replicate 12 (.addNode 1 0) ++ [.linkPorts 0 q])).getD PG.PG.empty

/-- With an own arrow the text can be that of another graph: a link from 0 to 2 with the arrow `-->1` and a plain link from
0 to 12. -/
theorem C79_witness_custom : ∃ (S S' : Styles Nat) (t : Text), S.NoBreaks ∧ S'.NoBreaks ∧
    mermaidText S (mermaid (ofPG (starG 2) 0 0) none id 26) = some t ∧
    mermaidText S' (mermaid (ofPG (starG 12) 0 0) none id 26) = some t ∧
    (starG 2).portLink? 0 = some (some 2) ∧ (starG 2).portNode 2 = some 2 ∧
    (starG 12).portLink? 0 = some (some 12) ∧ (starG 12).portNode 12 = some 12 := by
  refine ⟨⟨fun _ => .box [], fun _ _ => .custom "-->1".toList⟩, ⟨fun _ => .box [], fun _ _ => .solid⟩, _, ⟨?_, ?_⟩, ⟨?_, ?_⟩, rfl, ?_, ?_, ?_, ?_, ?_⟩
  · intro e f s h; cases h; decide
  · intro n; simp [NodeStyle.attrs, Attrs.encode]
  · intro e f s h; cases h
  · intro n; simp [NodeStyle.attrs, Attrs.encode]
  all_goals decide +kernel

end Verif.Render

#print axioms Verif.Render.C79_read_partial
#print axioms Verif.Render.C79_flat_partial
#print axioms Verif.Render.C79_forest_partial
#print axioms Verif.Render.C79_witness_custom
