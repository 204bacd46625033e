import Verif.Render.DotTextSpec
import Verif.Render.StyleProps
import Verif.Render.Dot

/-!
# Lemmas for reading dot text
-/

namespace Verif.Render

open Verif (Direction)
open Verif.View Verif.Hier

variable {E : Type}

/-! ## The reader -/

theorem after_append (p t : Text) : after p (p ++ t) = some t := by
  unfold after
  rw [if_pos (by simp)]
  simp

theorem prefix_split {p a t : Text} (h : p <+: a ++ t) : p <+: a ∨ a <+: p :=
  List.prefix_or_prefix_of_prefix h (List.prefix_append a t)

/-- A text that starts with something else. -/
theorem after_ne {p a : Text} (t : Text) (h1 : p.isPrefixOf a = false) (h2 : a.isPrefixOf p = false) : after p (a ++ t) = none := by
  unfold after
  rw [if_neg]
  intro h
  rcases prefix_split (List.isPrefixOf_iff_prefix.1 h) with h | h
  · rw [← List.isPrefixOf_iff_prefix, h1] at h; cases h
  · rw [← List.isPrefixOf_iff_prefix, h2] at h; cases h

theorem takeWhile_to {f : Char → Bool} {a t : Text} {c : Char} (h : ∀ x ∈ a, f x = true) (hc : f c = false) :
    (a ++ c :: t).takeWhile f = a ∧ (a ++ c :: t).dropWhile f = c :: t := by
  induction a with
  | nil => simp [hc]
  | cons x a ih =>
    have hx := h x (by simp)
    have := ih fun y hy => h y (by simp [hy])
    simp [hx, this.1, this.2]

theorem upto_eq {c : Char} {a : Text} (t : Text) (h : c ∉ a) : upto c (a ++ c :: t) = a :=
  (takeWhile_to (fun x hx => by simp; rintro rfl; exact h hx) (by simp)).1

theorem past_eq {c : Char} {a : Text} (t : Text) (h : c ∉ a) : past c (a ++ c :: t) = t := by
  unfold past
  rw [(takeWhile_to (fun x hx => by simp; rintro rfl; exact h hx) (by simp)).2]
  rfl

theorem digits_value (n : Nat) : (idText n).foldl (fun a c => 10 * a + (c.toNat - 48)) 0 = n := by
  have := Nat.ofDigitChars_toDigits (b := 10) (n := n) (by omega) (by omega)
  rw [Nat.ofDigitChars_eq_foldl] at this
  exact this

theorem id_digit {n : Nat} {c : Char} (h : c ∈ idText n) : c.isDigit = true := Nat.isDigit_of_mem_toDigits (by omega) (by omega) h

theorem id_not {n : Nat} {c : Char} (h : c.isDigit = false) : c ∉ idText n := fun hc => by rw [id_digit hc] at h; cases h

theorem number_eq (n : Nat) {c : Char} (t : Text) (hc : c.isDigit = false) : number (idText n ++ c :: t) = some (n, c :: t) := by
  unfold number
  rw [(takeWhile_to (fun _ h => id_digit h) hc).1, (takeWhile_to (fun _ h => id_digit h) hc).2, digits_value, if_neg]
  simp [idText, Nat.toDigits_ne_nil]

theorem number_end (n : Nat) : number (idText n) = some (n, []) := by
  have e1 : ∀ l : Text, (∀ c ∈ l, c.isDigit = true) → l.takeWhile Char.isDigit = l ∧ l.dropWhile Char.isDigit = [] := by
    intro l
    induction l with
    | nil => exact fun _ => ⟨rfl, rfl⟩
    | cons c l ih =>
      intro h
      have := ih fun c hc => h c (by simp [hc])
      simp [h c (by simp), this.1, this.2]
  obtain ⟨e1, e2⟩ := e1 (idText n) fun _ h => id_digit h
  unfold number
  rw [e1, e2, digits_value, if_neg]
  simp [idText, Nat.toDigits_ne_nil]

/-- No occurrence of the first text can start in the second, whatever follows. -/
def clash (p : Text) : Text → Bool
  | [] => true
  | c :: a => !p.isPrefixOf (c :: a) && !(c :: a).isPrefixOf p && clash p a

theorem find_skip {p a : Text} (t : Text) (h : clash p a = true) : find p (a ++ t) = find p t := by
  induction a with
  | nil => rfl
  | cons c a ih =>
    simp only [clash, Bool.and_eq_true, Bool.not_eq_true'] at h
    have := after_ne t h.1.1 h.1.2
    rw [List.cons_append] at this
    rw [List.cons_append, find, this, ih h.2]
    rfl

theorem find_skip_id {c : Char} {p : Text} (n : Nat) (t : Text) (hc : c.isDigit = false) :
    find (c :: p) (idText n ++ t) = find (c :: p) t := by
  refine find_skip t ?_
  have : ∀ a : Text, c ∉ a → clash (c :: p) a = true := by
    intro a
    induction a with
    | nil => exact fun _ => rfl
    | cons x a ih =>
      intro h
      have hx : c ≠ x := by rintro rfl; exact h (by simp)
      have hx' : x ≠ c := fun h => hx h.symm
      simp [clash, ih fun h' => h (List.mem_cons_of_mem _ h'), List.isPrefixOf, hx, hx']
  exact this _ (id_not hc)

theorem find_here (p t : Text) : find p (p ++ t) = some t := by
  have := after_append p t
  cases h : p ++ t with
  | nil => rw [h] at this; exact this
  | cons c r => rw [h] at this; rw [find, this]; rfl

/-! ## Tags -/

theorem readTags_skip {a : Text} (t : Text) (h : '<' ∉ a) : readTags (a ++ t) = readTags t := by
  induction a with
  | nil => rfl
  | cons c a ih =>
    have hc : c ≠ '<' := by rintro rfl; exact h (by simp)
    rw [List.cons_append, readTags, if_neg hc, ih fun h' => h (List.mem_cons_of_mem _ h')]

theorem readTags_other {a : Text} (t : Text) (h1 : '<' ∉ a) (h2 : '>' ∉ a) (h3 : after "td".toList a = none) :
    readTags ('<' :: (a ++ '>' :: t)) = .other a :: readTags t := by
  rw [readTags, if_pos rfl, readTags_skip _ h1]
  congr 1
  unfold readTag
  rw [upto_eq _ h2, h3]
  rfl

theorem readTags_cell {a l : Text} {c : Cell} (t : Text) (h1 : '<' ∉ a) (h2 : '>' ∉ a) (h3 : '<' ∉ l) (h4 : readCell a l = some c) :
    readTags ('<' :: ("td".toList ++ (a ++ '>' :: (l ++ '<' :: t)))) = .cell c :: readTags ('<' :: t) := by
  have e1 : '<' ∉ "td".toList ++ a := by
    rw [List.mem_append]; rintro (h | h); · revert h; decide
    exact h1 h
  have e2 : '>' ∉ "td".toList ++ a := by
    rw [List.mem_append]; rintro (h | h); · revert h; decide
    exact h2 h
  rw [readTags, if_pos rfl, ← List.append_assoc, readTags_skip _ e1]
  congr 1
  · unfold readTag
    rw [upto_eq _ e2, past_eq _ e2, after_append, upto_eq _ h3, Option.bind_some, h4]
  · rw [readTags, if_neg (by decide), readTags_skip _ h3]

/-! ## Port cells -/

/-- The attributes of the cell of a port, after `<td`. -/
def cellAttrs (d : Direction) (k w : Nat) (plain : Bool) : Text :=
  " port=\"".toList ++ (dirText d ++ idText k) ++ "\" align=\"text\" colspan=\"".toList ++ idText w ++ "\" cellpadding=\"1\" ".toList ++
    (if plain then "border=\"0\"".toList else [])

theorem portName_eq (d : Direction) (k : Nat) : portName (dirText d ++ idText k) = some (d, k) := by
  cases d
  · show portName ("in".toList ++ idText k) = _
    unfold portName
    rw [after_append, Option.bind_some, number_end]; rfl
  · show portName ("out".toList ++ idText k) = _
    unfold portName
    rw [after_ne _ (by decide) (by decide), after_append, Option.bind_some, number_end]; rfl

theorem readCell_port (d : Direction) (k w : Nat) (plain : Bool) (label : Text) :
    readCell (cellAttrs d k w plain) label = some ⟨some (d, k), w, plain, label⟩ := by
  have e1 : (find "colspan=\"".toList (cellAttrs d k w plain)).bind number =
      some (w, "\" cellpadding=\"1\" ".toList ++ (if plain then "border=\"0\"".toList else [])) := by
    unfold cellAttrs
    simp only [List.append_assoc]
    rw [find_skip (a := " port=\"".toList) _ (by decide)]
    have : clash "colspan=\"".toList (dirText d) = true := by cases d <;> decide
    rw [find_skip _ this, show "colspan=\"".toList = 'c' :: "olspan=\"".toList from rfl, find_skip_id _ _ (by decide)]
    rw [show "\" align=\"text\" colspan=\"".toList = "\" align=\"text\" ".toList ++ 'c' :: "olspan=\"".toList from rfl, List.append_assoc,
      find_skip _ (by decide), find_here, Option.bind_some]
    exact number_eq w _ (by decide)
  have e2 : (find " border=\"0\"".toList (cellAttrs d k w plain)).isSome = plain := by
    unfold cellAttrs
    simp only [List.append_assoc]
    rw [find_skip (a := " port=\"".toList) _ (by decide)]
    have : clash " border=\"0\"".toList (dirText d) = true := by cases d <;> decide
    rw [find_skip _ this, show " border=\"0\"".toList = ' ' :: "border=\"0\"".toList from rfl, find_skip_id _ _ (by decide),
      find_skip _ (by decide), find_skip_id _ _ (by decide)]
    rw [show "\" cellpadding=\"1\" ".toList = "\" cellpadding=\"1\"".toList ++ " ".toList from rfl, List.append_assoc,
      find_skip _ (by decide)]
    cases plain <;> decide
  have e3 : ∃ t, find "port=\"".toList (cellAttrs d k w plain) = some ((dirText d ++ idText k) ++ '"' :: t) := by
    unfold cellAttrs
    simp only [List.append_assoc]
    rw [show " port=\"".toList = " ".toList ++ "port=\"".toList from rfl, List.append_assoc, find_skip (a := " ".toList) _ (by decide), find_here]
    exact ⟨_, rfl⟩
  obtain ⟨t, e3⟩ := e3
  unfold readCell
  rw [e1, Option.bind_some, e2, e3]
  have : '"' ∉ dirText d ++ idText k := by
    rw [List.mem_append]; rintro (h | h)
    · cases d <;> (revert h; decide)
    · exact id_not (by decide) h
  simp only [upto_eq _ this, portName_eq]
  rfl

theorem readCell_label (w : Nat) (label : Text) :
    readCell (" align=\"text\" border=\"0\" colspan=\"".toList ++ idText w ++ "\"".toList) label = some ⟨none, w, true, label⟩ := by
  have e1 : (find "colspan=\"".toList (" align=\"text\" border=\"0\" colspan=\"".toList ++ idText w ++ "\"".toList)).bind number =
      some (w, "\"".toList) := by
    rw [show " align=\"text\" border=\"0\" colspan=\"".toList = " align=\"text\" border=\"0\" ".toList ++ "colspan=\"".toList from rfl]
    simp only [List.append_assoc]
    rw [find_skip _ (by decide), find_here, Option.bind_some]
    exact number_eq w _ (by decide)
  have e2 : (find " border=\"0\"".toList (" align=\"text\" border=\"0\" colspan=\"".toList ++ idText w ++ "\"".toList)).isSome = true := by
    rw [show " align=\"text\" border=\"0\" colspan=\"".toList = " align=\"text\"".toList ++ (" border=\"0\"".toList ++ " colspan=\"".toList) from rfl]
    simp only [List.append_assoc]
    rw [find_skip _ (by decide), find_here]
    rfl
  have e3 : find "port=\"".toList (" align=\"text\" border=\"0\" colspan=\"".toList ++ idText w ++ "\"".toList) = none := by
    simp only [List.append_assoc]
    rw [find_skip _ (by decide), show "port=\"".toList = 'p' :: "ort=\"".toList from rfl, find_skip_id _ _ (by decide)]
    decide
  unfold readCell
  rw [e1, Option.bind_some, e2, e3]

/-- The cells of the ports in a list of ports with their offsets. -/
def lookCells (S : DotStyles E) (d : Direction) (w : Nat) (l : List (Nat × Nat)) : List Cell :=
  l.filterMap fun x => (S.port x.1).look.map fun y => ⟨some (d, x.2), w, y.2.2, makeLabel x.2 y.2.1 y.1⟩

theorem makeLabel_eq (k : Nat) (b : Bool) (l : Text) :
    makeLabel k b l = if b then (if l = [] then idText k else idText k ++ ": ".toList ++ l) else l := by
  cases b
  · rfl
  · cases l <;> rfl

theorem makeLabel_clean {c : Char} (k : Nat) (b : Bool) {l : Text} (h : c ∉ l) (hc : c.isDigit = false) (h2 : c ∉ ": ".toList) :
    c ∉ makeLabel k b l := by
  rw [makeLabel_eq]
  split
  · split
    · exact id_not hc
    · simp only [List.mem_append]
      rintro ((h' | h') | h')
      · exact id_not hc h'
      · exact h2 h'
      · exact h h'
  · exact h

/-- The text of the cells of a row. -/
def cellsText (S : DotStyles E) (d : Direction) (w : Nat) (l : List (Nat × Nat)) : Text :=
  (lookCells S d w l).flatMap fun c => "<".toList ++ ("td".toList ++
    (cellAttrs d ((c.port.map (·.2)).getD 0) w c.plain ++ '>' :: (c.label ++ '<' :: "/td>".toList)))

theorem cell_text (L T P I A W C Y M N R : Text) (c c' : Char) : (L ++ (T ++ P)) ++ I ++ A ++ W ++ C ++ Y ++ [c] ++ M ++ (c' :: N) ++ R =
    L ++ (T ++ ((P ++ I ++ A ++ W ++ C ++ Y) ++ c :: (M ++ c' :: N))) ++ R := by simp

theorem portCells_text (G : GView E) (S : DotStyles E) (n : Nat) (d : Direction) (w : Nat) :
    (portCells G S n d).length = (lookCells S d w (G.ports n d).zipIdx).length ∧
    portsRow (portCells G S n d) w = if lookCells S d w (G.ports n d).zipIdx = [] then [] else
      "<tr>".toList ++ cellsText S d w (G.ports n d).zipIdx ++ "</tr>".toList := by
  unfold portCells portsRow cellsText
  generalize (G.ports n d).zipIdx = l
  have key : ∀ l : List (Nat × Nat), ∃ ps : List PortCell, l.filterMap (portCell S d) = ps ∧
      ps.length = (lookCells S d w l).length ∧
      (ps.flatMap fun c => "<td port=\"".toList ++ c.id ++ "\" align=\"text\" colspan=\"".toList ++
        idText w ++ "\" cellpadding=\"1\" ".toList ++ c.style ++ ">".toList ++ c.label ++ "</td>".toList) =
      (lookCells S d w l).flatMap fun c => "<".toList ++ ("td".toList ++
        (cellAttrs d ((c.port.map (·.2)).getD 0) w c.plain ++ '>' :: (c.label ++ '<' :: "/td>".toList))) := by
    intro l
    induction l with
    | nil => exact ⟨[], rfl, rfl, rfl⟩
    | cons x l ih =>
      obtain ⟨ps, h1, h2, h3⟩ := ih
      cases hx : S.port x.1 with
      | hidden =>
        refine ⟨ps, by simp only [List.filterMap_cons, portCell, hx, h1], ?_, ?_⟩ <;>
          simp only [lookCells, List.filterMap_cons, hx, PortStyle.look, Option.map_none]
        · exact h2
        · exact h3
      | plain lb b =>
        have e1 : lookCells S d w (x :: l) = ⟨some (d, x.2), w, true, makeLabel x.2 b lb⟩ :: lookCells S d w l := by
          simp only [lookCells, List.filterMap_cons, hx, PortStyle.look, Option.map_some]
        refine ⟨⟨dirText d ++ idText x.2, "border=\"0\"".toList, makeLabel x.2 b lb⟩ :: ps, by simp only [List.filterMap_cons, portCell, hx, h1], ?_, ?_⟩
        · rw [e1, List.length_cons, List.length_cons, h2]
        · rw [e1, List.flatMap_cons, List.flatMap_cons, h3]
          exact cell_text (L := "<".toList) (T := "td".toList) (P := " port=\"".toList) (N := "/td>".toList) ..
      | boxed lb b =>
        have e1 : lookCells S d w (x :: l) = ⟨some (d, x.2), w, false, makeLabel x.2 b lb⟩ :: lookCells S d w l := by
          simp only [lookCells, List.filterMap_cons, hx, PortStyle.look, Option.map_some]
        refine ⟨⟨dirText d ++ idText x.2, [], makeLabel x.2 b lb⟩ :: ps, by simp only [List.filterMap_cons, portCell, hx, h1], ?_, ?_⟩
        · rw [e1, List.length_cons, List.length_cons, h2]
        · rw [e1, List.flatMap_cons, List.flatMap_cons, h3]
          exact cell_text (L := "<".toList) (T := "td".toList) (P := " port=\"".toList) (N := "/td>".toList) ..
  obtain ⟨ps, h1, h2, h3⟩ := key l
  rw [h1]
  refine ⟨h2, ?_⟩
  rw [h3]
  have : ps.isEmpty = true ↔ lookCells S d w l = [] := by
    rw [List.isEmpty_iff, ← List.length_eq_zero_iff, h2, List.length_eq_zero_iff]
  simp only [this]

theorem cellAttrs_clean {c : Char} (d : Direction) (k w : Nat) (b : Bool) (hc : c.isDigit = false)
    (h : c ∉ " port=\"inout\" align=\"text\" colspan=\"\" cellpadding=\"1\" border=\"0\"".toList) : c ∉ cellAttrs d k w b := by
  unfold cellAttrs
  have sub : ∀ a : Text, (∀ x ∈ a, x ∈ " port=\"inout\" align=\"text\" colspan=\"\" cellpadding=\"1\" border=\"0\"".toList) → c ∉ a :=
    fun a ha hca => h (ha _ hca)
  simp only [List.mem_append]
  rintro (((((h' | h' | h') | h') | h') | h') | h')
  · exact sub _ (by decide) h'
  · exact sub _ (by cases d <;> decide) h'
  · exact id_not hc h'
  · exact sub _ (by decide) h'
  · exact id_not hc h'
  · exact sub _ (by decide) h'
  · exact sub _ (by cases b <;> decide) h'

theorem lookCells_mem {S : DotStyles E} {d : Direction} {w : Nat} {l : List (Nat × Nat)} {c : Cell} (h : c ∈ lookCells S d w l) :
    ∃ x ∈ l, ∃ lb b, (S.port x.1).look = some (lb, b, c.plain) ∧ c.port = some (d, x.2) ∧ c.span = w ∧ c.label = makeLabel x.2 b lb := by
  obtain ⟨x, hx, h⟩ := List.mem_filterMap.1 h
  obtain ⟨y, hy, rfl⟩ := Option.map_eq_some_iff.1 h
  exact ⟨x, hx, y.1, y.2.1, hy, rfl, rfl, rfl⟩

theorem readTags_cells {S : DotStyles E} (hS : S.Clean) (d : Direction) (w : Nat) (l : List (Nat × Nat)) (t : Text) :
    readTags (cellsText S d w l ++ t) = ((lookCells S d w l).flatMap fun c => [.cell c, .other "/td".toList]) ++ readTags t := by
  unfold cellsText
  have key : ∀ cs : List Cell, (∀ c ∈ cs, '<' ∉ c.label ∧ ∃ k, c.port = some (d, k) ∧ c.span = w) →
      readTags ((cs.flatMap fun c => "<".toList ++ ("td".toList ++
        (cellAttrs d ((c.port.map (·.2)).getD 0) w c.plain ++ '>' :: (c.label ++ '<' :: "/td>".toList)))) ++ t) =
      (cs.flatMap fun c => [.cell c, .other "/td".toList]) ++ readTags t := by
    intro cs
    induction cs with
    | nil => exact fun _ => rfl
    | cons c cs ih =>
      intro h
      obtain ⟨h1, k, h2, h3⟩ := h c (by simp)
      have ih := ih fun c hc => h c (by simp [hc])
      simp only [List.flatMap_cons, List.append_assoc] at ih ⊢
      rw [← ih]
      generalize cs.flatMap _ = r
      obtain ⟨port, span, plain, label⟩ := c
      simp only at h1 h2 h3
      subst h2 h3
      simp only [Option.map_some, Option.getD_some, List.append_assoc, List.cons_append]
      show readTags ('<' :: ("td".toList ++ _)) = _
      rw [readTags_cell _ (cellAttrs_clean _ _ _ _ (by decide) (by decide)) (cellAttrs_clean _ _ _ _ (by decide) (by decide)) h1
        (readCell_port d k span plain label)]
      show _ :: readTags ('<' :: ("/td".toList ++ '>' :: _)) = _
      rw [readTags_other _ (by decide) (by decide) (by decide)]
      rfl
  refine key _ fun c hc => ?_
  obtain ⟨x, -, lb, b, h1, h2, h3, h4⟩ := lookCells_mem hc
  refine ⟨?_, _, h2, h3⟩
  rw [h4]
  exact makeLabel_clean _ _ (hS.port _ _ _ _ h1).1 (by decide) (by decide)

theorem readTags_row {S : DotStyles E} (hS : S.Clean) (G : GView E) (n : Nat) (d : Direction) (w : Nat) (t : Text) :
    readTags (portsRow (portCells G S n d) w ++ t) = rowTags (lookCells S d w (G.ports n d).zipIdx) ++ readTags t := by
  rw [(portCells_text G S n d w).2]
  unfold rowTags
  split
  · rfl
  · simp only [List.append_assoc]
    show readTags ('<' :: ("tr".toList ++ '>' :: (cellsText S d w (G.ports n d).zipIdx ++ ("</tr>".toList ++ t)))) = _
    rw [readTags_other _ (by decide) (by decide) (by decide), readTags_cells hS]
    show _ :: (_ ++ readTags ('<' :: ("/tr".toList ++ '>' :: t))) = _
    rw [readTags_other _ (by decide) (by decide) (by decide)]
    rfl

theorem lookCells_shows (G : GView E) (S : DotStyles E) (n : Nat) (d : Direction) (w : Nat) :
    ShowsRow G S n d w (lookCells S d w (G.ports n d).zipIdx) := by
  refine ⟨?_, ?_, ?_, ?_⟩
  · intro c hc
    obtain ⟨x, -, lb, b, h1, h2, h3, h4⟩ := lookCells_mem hc
    exact h3
  · unfold lookCells
    rw [List.pairwise_filterMap]
    have : ((G.ports n d).zipIdx.map (·.2)).Pairwise (· < ·) := by
      rw [List.zipIdx_map_snd, List.range'_eq_map_range]
      simpa using List.pairwise_lt_range
    refine (List.pairwise_map.1 this).imp ?_
    intro x y hxy c hc c' hc' i j h1 h2
    obtain ⟨_, -, rfl⟩ := Option.map_eq_some_iff.1 hc
    obtain ⟨_, -, rfl⟩ := Option.map_eq_some_iff.1 hc'
    cases h1
    cases h2
    exact hxy
  · intro c hc
    obtain ⟨x, hx, lb, b, h1, h2, h3, h4⟩ := lookCells_mem hc
    exact ⟨x.2, x.1, lb, b, h2, List.mk_mem_zipIdx_iff_getElem?.1 hx, h1, by rw [h4, makeLabel_eq]⟩
  · intro k p hk hp
    cases hl : (S.port p).look with
    | none => exact (hp hl).elim
    | some y =>
      refine ⟨⟨some (d, k), w, y.2.2, makeLabel k y.2.1 y.1⟩, ?_, rfl⟩
      unfold lookCells
      exact List.mem_filterMap.2 ⟨(p, k), List.mk_mem_zipIdx_iff_getElem?.2 hk, by rw [hl]; rfl⟩

theorem span_sum {cs : List Cell} {w : Nat} (h : ∀ c ∈ cs, c.span = w) : (cs.map (·.span)).sum = cs.length * w := by
  induction cs with
  | nil => simp
  | cons c cs ih =>
    rw [List.map_cons, List.sum_cons, h c (by simp), ih fun c hc => h c (by simp [hc]), List.length_cons, Nat.add_mul, Nat.one_mul,
      Nat.add_comm]

end Verif.Render
