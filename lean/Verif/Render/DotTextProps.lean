import Verif.Render.DotTextLemmas

/-!
# C65: the text of a dot rendering can be read back
-/

namespace Verif.Render

open Verif (Direction)
open Verif.View Verif.Hier Verif.PG

variable {E : Type}

/-! ## The line of a node -/

theorem after_id {c : Char} {p : Text} (n : Nat) (t : Text) (hc : c.isDigit = false) : after (c :: p) (idText n ++ t) = none := by
  cases h : idText n with
  | nil => exact (Nat.toDigits_ne_nil h).elim
  | cons x a =>
    have hx : c ≠ x := by
      rintro rfl
      have : c ∈ idText n := by rw [h]; simp
      exact id_not hc this
    unfold after
    rw [if_neg]
    simp [List.isPrefixOf, hx]

/-- An attribute of a node. -/
def attrText (name : Text) : Option Text → Text
  | none => []
  | some v => name ++ "=\"".toList ++ v ++ "\" ".toList

theorem encodeDot_eq (a : Attrs) : a.encodeDot = attrText "fontcolor".toList a.color ++ attrText "fillcolor".toList a.fill ++
    attrText "color".toList a.stroke ++ attrText "penwidth".toList a.strokeWidth := by
  obtain ⟨_ | a, _ | b, _ | c, _ | d⟩ := a <;> simp [Attrs.encodeDot, attrText]

theorem attr_eq (name t : Text) (o : Option Text) (h1 : ∀ v, o = some v → '"' ∉ v) (h2 : after (name ++ "=\"".toList) t = none) :
    attr name (attrText name o ++ t) = (o, t) := by
  cases o with
  | none => unfold attr; rw [attrText, List.nil_append, h2]
  | some v =>
    have e : attrText name (some v) ++ t = (name ++ "=\"".toList) ++ (v ++ '"' :: (" ".toList ++ t)) := by
      simp only [attrText, List.append_assoc]; rfl
    unfold attr
    rw [e, after_append]
    simp only [upto_eq _ (h1 v rfl), past_eq _ (h1 v rfl)]
    rfl

theorem after_attr {p name t : Text} (o : Option Text) (h1 : p.isPrefixOf (name ++ "=\"".toList) = false)
    (h2 : (name ++ "=\"".toList).isPrefixOf p = false) (h3 : after p t = none) : after p (attrText name o ++ t) = none := by
  cases o with
  | none => exact h3
  | some v =>
    have e : attrText name (some v) ++ t = (name ++ "=\"".toList) ++ (v ++ ("\" ".toList ++ t)) := by
      simp only [attrText, List.append_assoc]
    rw [e]
    exact after_ne _ h1 h2

/-- The line of a node, without the line break. -/
def nodeLine (G : GView E) (S : DotStyles E) (n : Nat) (label : Text) (attrs : Attrs) : Text :=
  let ins := portCells G S n .incoming
  let outs := portCells G S n .outgoing
  idText n ++ (" [shape=plain ".toList ++ (attrText "fontcolor".toList attrs.color ++ (attrText "fillcolor".toList attrs.fill ++
    (attrText "color".toList attrs.stroke ++ (attrText "penwidth".toList attrs.strokeWidth ++ ("label=<".toList ++ ("<table border=\"1\">".toList ++
    (portsRow ins (max outs.length 1) ++
    ("<tr>".toList ++ ("<".toList ++ ("td".toList ++ ((" align=\"text\" border=\"0\" colspan=\"".toList ++ idText (max ins.length 1 * max outs.length 1) ++
      "\"".toList) ++ '>' :: (label ++ '<' :: ("/td></tr>".toList ++
    (portsRow outs (max ins.length 1) ++ ("</table>".toList ++ ">]".toList))))))))))))))))

theorem nodeText_line (G : GView E) (S : DotStyles E) (n : Nat) (label : Text) (attrs : Attrs) :
    nodeText G S n label attrs = nodeLine G S n label attrs ++ ['\n'] := by
  unfold nodeText nodeLine
  have e1 : "<tr><td align=\"text\" border=\"0\" colspan=\"".toList = "<tr>".toList ++ ("<".toList ++ ("td".toList ++
    " align=\"text\" border=\"0\" colspan=\"".toList)) := rfl
  have e2 : "\">".toList = "\"".toList ++ ['>'] := rfl
  have e3 : "</td></tr>".toList = '<' :: "/td></tr>".toList := rfl
  have e4 : ">]\n".toList = ">]".toList ++ ['\n'] := rfl
  simp only [encodeDot_eq, e1, e2, e3, e4, List.append_assoc, List.cons_append, List.nil_append]

theorem node_reads {G : GView E} {S : DotStyles E} (hS : S.Clean) (n : Nat) :
    ∃ L, readLine (nodeLine G S n (S.node n).label (S.node n).attrs) = some L ∧ Says G S (.node n) L := by
  have ha := hS.attrs n
  have hl := (hS.label n).1
  obtain ⟨l1, e1⟩ := portCells_text G S n .incoming (max (portCells G S n .outgoing).length 1)
  obtain ⟨l2, e2⟩ := portCells_text G S n .outgoing (max (portCells G S n .incoming).length 1)
  generalize hat : (S.node n).attrs = attrs at *
  generalize hlb : (S.node n).label = label at *
  refine ⟨.node n attrs ([.other "table border=\"1\"".toList] ++
    rowTags (lookCells S .incoming (max (portCells G S n .outgoing).length 1) (G.ports n .incoming).zipIdx) ++
    rowTags [⟨none, max (portCells G S n .incoming).length 1 * max (portCells G S n .outgoing).length 1, true, label⟩] ++
    rowTags (lookCells S .outgoing (max (portCells G S n .incoming).length 1) (G.ports n .outgoing).zipIdx) ++
    [.other "/table".toList]), ?_, ?_⟩
  · unfold nodeLine
    generalize hin : max (portCells G S n .incoming).length 1 = a at *
    generalize hout : max (portCells G S n .outgoing).length 1 = b at *
    simp only [hin, hout]
    unfold readLine
    rw [show "hier".toList = 'h' :: "ier".toList from rfl, after_id _ _ (by decide)]
    simp only
    rw [show " [shape=plain ".toList = ' ' :: "[shape=plain ".toList from rfl, List.cons_append, number_eq _ _ (by decide), Option.bind_some]
    generalize hR : "<table border=\"1\">".toList ++ _ = R
    have hsuf : ">]".toList.isSuffixOf R = true := by
      rw [List.isSuffixOf_iff_suffix, ← hR]
      refine ⟨"<table border=\"1\">".toList ++ (portsRow (portCells G S n .incoming) b ++ ("<tr>".toList ++ ("<".toList ++ ("td".toList ++
        ((" align=\"text\" border=\"0\" colspan=\"".toList ++ idText (a * b) ++ "\"".toList) ++ '>' :: (label ++ '<' :: ("/td></tr>".toList ++
        (portsRow (portCells G S n .outgoing) a ++ "</table>".toList)))))))), ?_⟩
      simp only [List.append_assoc, List.cons_append]
    have hread : readTags R = [.other "table border=\"1\"".toList] ++ rowTags (lookCells S .incoming b (G.ports n .incoming).zipIdx) ++
        rowTags [⟨none, a * b, true, label⟩] ++ rowTags (lookCells S .outgoing a (G.ports n .outgoing).zipIdx) ++ [.other "/table".toList] := by
      rw [← hR]
      show readTags ('<' :: ("table border=\"1\"".toList ++ '>' :: (portsRow (portCells G S n .incoming) b ++ _))) = _
      rw [readTags_other _ (by decide) (by decide) (by decide), readTags_row hS]
      show _ :: (_ ++ readTags ('<' :: ("tr".toList ++ '>' :: ('<' :: ("td".toList ++ _))))) = _
      rw [readTags_other _ (by decide) (by decide) (by decide)]
      have c : ∀ c : Char, c.isDigit = false → c ∉ " align=\"text\" border=\"0\" colspan=\"".toList → c ∉ "\"".toList →
          c ∉ " align=\"text\" border=\"0\" colspan=\"".toList ++ idText (a * b) ++ "\"".toList := by
        intro c h1 h2 h3
        simp only [List.mem_append]
        rintro ((h | h) | h)
        · exact h2 h
        · exact id_not h1 h
        · exact h3 h
      rw [readTags_cell _ (c _ (by decide) (by decide) (by decide)) (c _ (by decide) (by decide) (by decide)) hl (readCell_label _ label)]
      show _ :: (_ ++ _ :: _ :: readTags ('<' :: ("/td".toList ++ '>' :: ('<' :: ("/tr".toList ++ '>' :: (portsRow (portCells G S n .outgoing) a ++ _)))))) = _
      rw [readTags_other _ (by decide) (by decide) (by decide), readTags_other _ (by decide) (by decide) (by decide), readTags_row hS]
      show _ :: (_ ++ _ :: _ :: _ :: _ :: (_ ++ readTags ('<' :: ("/table".toList ++ '>' :: ">]".toList)))) = _
      rw [readTags_other _ (by decide) (by decide) (by decide)]
      simp only [rowTags, List.append_assoc]
      rfl
    have q : ∀ o : Option Text, (∀ v, o = some v → o = attrs.color ∨ o = attrs.fill ∨ o = attrs.stroke ∨ o = attrs.strokeWidth) →
        ∀ v, o = some v → '"' ∉ v := by
      intro o ho v hv
      refine (ha v ?_).1
      rcases ho v hv with h | h | h | h <;> rw [hv] at h
      · exact .inl h.symm
      · exact .inr (.inl h.symm)
      · exact .inr (.inr (.inl h.symm))
      · exact .inr (.inr (.inr h.symm))
    unfold readNode
    rw [← List.cons_append, show ' ' :: "[shape=plain ".toList = " [shape=plain ".toList from rfl, after_append, Option.bind_some]
    have n1 : after ("penwidth".toList ++ "=\"".toList) ("label=<".toList ++ R) = none := after_ne _ (by decide) (by decide)
    have n2 : after ("color".toList ++ "=\"".toList) (attrText "penwidth".toList attrs.strokeWidth ++ ("label=<".toList ++ R)) = none :=
      after_attr _ (by decide) (by decide) (after_ne _ (by decide) (by decide))
    have n3 : after ("fillcolor".toList ++ "=\"".toList) (attrText "color".toList attrs.stroke ++ (attrText "penwidth".toList attrs.strokeWidth ++
        ("label=<".toList ++ R))) = none :=
      after_attr _ (by decide) (by decide) (after_attr _ (by decide) (by decide) (after_ne _ (by decide) (by decide)))
    have n4 : after ("fontcolor".toList ++ "=\"".toList) (attrText "fillcolor".toList attrs.fill ++ (attrText "color".toList attrs.stroke ++
        (attrText "penwidth".toList attrs.strokeWidth ++ ("label=<".toList ++ R)))) = none :=
      after_attr _ (by decide) (by decide) (after_attr _ (by decide) (by decide) (after_attr _ (by decide) (by decide)
        (after_ne _ (by decide) (by decide))))
    simp only [attr_eq _ _ _ (q attrs.color fun _ _ => .inl rfl) n4, attr_eq _ _ _ (q attrs.fill fun _ _ => .inr (.inl rfl)) n3,
      attr_eq _ _ _ (q attrs.stroke fun _ _ => .inr (.inr (.inl rfl))) n2,
      attr_eq _ _ _ (q attrs.strokeWidth fun _ _ => .inr (.inr (.inr rfl))) n1, after_append, Option.bind_some, hsuf, if_true, hread]
    rfl
  · refine ⟨rfl, hat.symm, _, _, _, by rw [hlb], ?_, ?_, ?_, ?_, ?_⟩
    · rw [← l2]; exact lookCells_shows ..
    · rw [← l1]; exact lookCells_shows ..
    · intro h
      rw [span_sum (lookCells_shows G S n .incoming _).span, ← l1]
      have : (portCells G S n .incoming).length ≠ 0 := by rw [l1]; simpa using h
      rw [Nat.max_eq_left (a := (portCells G S n .incoming).length) (by omega)]
    · intro h
      rw [span_sum (lookCells_shows G S n .outgoing _).span, ← l2]
      have : (portCells G S n .outgoing).length ≠ 0 := by rw [l2]; simpa using h
      rw [Nat.max_eq_left (a := (portCells G S n .outgoing).length) (by omega), Nat.mul_comm]
    · intro h1 h2
      rw [h1] at l1
      rw [h2] at l2
      rw [l1, l2]
      rfl

theorem portsRow_clean {S : DotStyles E} (hS : S.Clean) (G : GView E) (n : Nat) (d : Direction) (w : Nat) :
    '\n' ∉ portsRow (portCells G S n d) w := by
  rw [(portCells_text G S n d w).2]
  split
  · simp
  · simp only [List.mem_append]
    rintro ((h | h) | h)
    · revert h; decide
    · unfold cellsText at h
      obtain ⟨c, hc, h⟩ := List.mem_flatMap.1 h
      obtain ⟨x, -, lb, b, h1, h2, h3, h4⟩ := lookCells_mem hc
      simp only [List.mem_append, List.mem_cons] at h
      rcases h with h | h | h | h | h | h | h
      · revert h; decide
      · revert h; decide
      · exact cellAttrs_clean _ _ _ _ (by decide) (by decide) h
      · revert h; decide
      · rw [h4] at h
        exact makeLabel_clean _ _ (hS.port _ _ _ _ h1).2 (by decide) (by decide) h
      · revert h; decide
      · revert h; decide
    · revert h; decide

theorem attrText_clean {c : Char} {name : Text} {o : Option Text} (h1 : ∀ v, o = some v → c ∉ v) (h2 : c ∉ name)
    (h3 : c ∉ "=\"".toList) (h4 : c ∉ "\" ".toList) : c ∉ attrText name o := by
  cases o with
  | none => simp [attrText]
  | some v =>
    simp only [attrText, List.mem_append]
    rintro (((h | h) | h) | h)
    · exact h2 h
    · exact h3 h
    · exact h1 v rfl h
    · exact h4 h

theorem node_clean {G : GView E} {S : DotStyles E} (hS : S.Clean) (n : Nat) :
    '\n' ∉ nodeLine G S n (S.node n).label (S.node n).attrs := by
  have ha := hS.attrs n
  unfold nodeLine
  simp only [List.mem_append, List.mem_cons]
  rintro (h | h | h | h | h | h | h | h | h | h | h | h | ((h | h) | h) | h | h | h | h | h | h | h)
  · exact id_clean _ h
  · revert h; decide
  · exact attrText_clean (fun v hv => (ha v (.inl hv)).2) (by decide) (by decide) (by decide) h
  · exact attrText_clean (fun v hv => (ha v (.inr (.inl hv))).2) (by decide) (by decide) (by decide) h
  · exact attrText_clean (fun v hv => (ha v (.inr (.inr (.inl hv)))).2) (by decide) (by decide) (by decide) h
  · exact attrText_clean (fun v hv => (ha v (.inr (.inr (.inr hv)))).2) (by decide) (by decide) (by decide) h
  · revert h; decide
  · revert h; decide
  · exact portsRow_clean hS _ _ _ _ h
  · revert h; decide
  · revert h; decide
  · revert h; decide
  · revert h; decide
  · exact id_clean _ h
  · revert h; decide
  · revert h; decide
  · exact (hS.label n).2 h
  · revert h; decide
  · revert h; decide
  · exact portsRow_clean hS _ _ _ _ h
  · revert h; decide
  · revert h; decide

/-! ## The lines of edges and of the hierarchy -/

/-- The line of an edge, without the line break. -/
def edgeLine (a i b j : Nat) (style : Text) : Text :=
  idText a ++ (":out".toList ++ (idText i ++ (" -> ".toList ++ (idText b ++ (":in".toList ++ (idText j ++ (" [style=\"".toList ++
    (style ++ '"' :: "]".toList))))))))

theorem edge_reads (a i b j : Nat) {s : Text} (hs : '"' ∉ s) : readLine (edgeLine a i b j s) = some (.edge a i b j s) := by
  unfold readLine edgeLine
  rw [show "hier".toList = 'h' :: "ier".toList from rfl, after_id _ _ (by decide)]
  simp only
  rw [show ":out".toList = ':' :: "out".toList from rfl, List.cons_append, number_eq _ _ (by decide), Option.bind_some]
  simp only
  have e : readNode a (':' :: ("out".toList ++ (idText i ++ (" -> ".toList ++ (idText b ++ (":in".toList ++ (idText j ++ (" [style=\"".toList ++
    (s ++ '"' :: "]".toList))))))))) = none := by
    unfold readNode
    rw [show ∀ t : Text, ':' :: t = [':'] ++ t from fun _ => rfl, after_ne _ (by decide) (by decide)]
    rfl
  rw [e, Option.none_or]
  unfold readEdge
  rw [← List.cons_append, show ':' :: "out".toList = ":out".toList from rfl, after_append, Option.bind_some,
    show " -> ".toList = ' ' :: "-> ".toList from rfl, List.cons_append, number_eq _ _ (by decide), Option.bind_some]
  simp only
  rw [← List.cons_append, show ' ' :: "-> ".toList = " -> ".toList from rfl, after_append, Option.bind_some,
    show ":in".toList = ':' :: "in".toList from rfl, List.cons_append, number_eq _ _ (by decide), Option.bind_some]
  simp only
  rw [← List.cons_append, show ':' :: "in".toList = ":in".toList from rfl, after_append, Option.bind_some,
    show " [style=\"".toList = ' ' :: "[style=\"".toList from rfl, List.cons_append, number_eq _ _ (by decide), Option.bind_some]
  simp only
  rw [← List.cons_append, show ' ' :: "[style=\"".toList = " [style=\"".toList from rfl, after_append, Option.bind_some,
    past_eq _ hs, upto_eq _ hs, if_pos rfl]

/-- The line of a node in the hierarchy. -/
def treeLine (n : Nat) : Text := "hier".toList ++ (idText n ++ (" [shape=plain label=\"".toList ++ (idText n ++ '"' :: "]".toList)))

theorem tree_reads (n : Nat) : readLine (treeLine n) = some (.tree n (idText n)) := by
  unfold readLine treeLine
  rw [after_append]
  simp only
  rw [show " [shape=plain label=\"".toList = ' ' :: "[shape=plain label=\"".toList from rfl, List.cons_append, number_eq _ _ (by decide),
    Option.bind_some]
  simp only
  unfold readTree
  have : '"' ∉ idText n := id_not (by decide)
  rw [← List.cons_append, show ' ' :: "[shape=plain label=\"".toList = " [shape=plain label=\"".toList from rfl, after_append, Option.bind_some,
    past_eq _ this, upto_eq _ this, if_pos rfl]
  rfl

/-- The line of an edge in the hierarchy. -/
def childLine (p c : Nat) : Text := "hier".toList ++ (idText p ++ (" -> hier".toList ++ (idText c ++ ("  [style = \"".toList ++
  ("dashed".toList ++ '"' :: "] ".toList)))))

theorem child_reads (p c : Nat) : readLine (childLine p c) = some (.child p c "dashed".toList) := by
  unfold readLine childLine
  rw [after_append]
  simp only
  rw [show " -> hier".toList = ' ' :: "-> hier".toList from rfl, List.cons_append, number_eq _ _ (by decide), Option.bind_some]
  simp only
  unfold readTree
  rw [← List.cons_append, show ' ' :: "-> hier".toList = " -> hier".toList from rfl, after_ne _ (by decide) (by decide), after_append,
    Option.bind_some, show "  [style = \"".toList = ' ' :: " [style = \"".toList from rfl, List.cons_append, number_eq _ _ (by decide),
    Option.bind_some, Option.bind_none, Option.none_or]
  simp only
  rw [← List.cons_append, show ' ' :: " [style = \"".toList = "  [style = \"".toList from rfl, after_append, Option.bind_some,
    past_eq _ (by decide), upto_eq _ (by decide), if_pos rfl]

/-! ## All lines -/

/-- The lines say what should be drawn, and end at line breaks. -/
def Reads (G : GView E) (S : DotStyles E) (items : List (Item E)) (lines : List Text) : Prop :=
  (∀ l ∈ lines, '\n' ∉ l) ∧ List.Forall₂ (fun i l => ∃ L, readLine l = some L ∧ Says G S i L) items lines

theorem Reads.nil {G : GView E} {S : DotStyles E} : Reads G S [] [] := ⟨by simp, .nil⟩

theorem Reads.cons {G : GView E} {S : DotStyles E} {i is l ls} (h1 : '\n' ∉ l) (h2 : ∃ L, readLine l = some L ∧ Says G S i L)
    (h : Reads G S is ls) : Reads G S (i :: is) (l :: ls) :=
  ⟨by simpa [h1] using h.1, .cons h2 h.2⟩

theorem Reads.append {G : GView E} {S : DotStyles E} {is is' ls ls'} (h : Reads G S is ls) (h' : Reads G S is' ls') :
    Reads G S (is ++ is') (ls ++ ls') := by
  refine ⟨fun l hl => ?_, List.rel_append h.2 h'.2⟩
  rcases List.mem_append.1 hl with hl | hl
  · exact h.1 l hl
  · exact h'.1 l hl

/-- The text with the given lines. -/
def unlines (ls : List Text) : Text := ls.flatMap (· ++ ['\n'])

theorem unlines_append (a b : List Text) : unlines (a ++ b) = unlines a ++ unlines b := List.flatMap_append

theorem split_unlines {ls : List Text} (h : ∀ l ∈ ls, '\n' ∉ l) (t : Text) : splitLines (unlines ls ++ t) = ls ++ splitLines t := by
  induction ls with
  | nil => rfl
  | cons l ls ih =>
    have : unlines (l :: ls) ++ t = l ++ '\n' :: (unlines ls ++ t) := by simp [unlines]
    rw [this, splitLines_append _ _ (h l (by simp)), ih fun l hl => h l (by simp [hl])]
    rfl

theorem link_line {G : GView E} {S : DotStyles E} (ok : G.Ok) (off : OffsetsOk G) (hS : S.Clean) {n : Nat} {l : E × E}
    (hl : l ∈ G.links n .outgoing) : ∃ s, edgeText G S n l = some (s ++ ['\n']) ∧ '\n' ∉ s ∧
      ∃ L, readLine s = some L ∧ Says G S (.link l.1 l.2) L := by
  obtain ⟨h1, h2, h3⟩ := ok.mem_links.1 hl
  obtain ⟨a, d, b, h4, h5, -, h6, h7, -⟩ := ok.shows_dir _ _ h1
  rw [h3] at h5
  cases h5
  obtain ⟨i, h8, h9⟩ := off _ _ _ h2 h3
  obtain ⟨j, h10, h11⟩ := off _ _ _ h6 h7
  have h6' : G.portNode (G.toPort l.2) = some b := h6
  obtain ⟨s1, s2⟩ := hS.edge l.1 l.2
  refine ⟨edgeLine n i b j (S.edge l.1 l.2).asDot, ?_, ?_, _, edge_reads n i b j s1, h2, h8, h6, h10, rfl⟩
  · simp only [edgeText, h8, h6', h10]
    unfold edgeLine
    have e : "\"]\n".toList = '"' :: ("]".toList ++ ['\n']) := rfl
    rw [e]
    generalize ":out".toList = c1
    generalize " -> ".toList = c2
    generalize ":in".toList = c3
    generalize " [style=\"".toList = c4
    generalize "]".toList = c5
    simp
  · unfold edgeLine
    simp only [List.mem_append, List.mem_cons]
    rintro (h | h | h | h | h | h | h | h | h | h | h)
    · exact id_clean _ h
    · revert h; decide
    · exact id_clean _ h
    · revert h; decide
    · exact id_clean _ h
    · revert h; decide
    · exact id_clean _ h
    · revert h; decide
    · exact s2 h
    · revert h; decide
    · revert h; decide

theorem links_lines {G : GView E} {S : DotStyles E} (ok : G.Ok) (off : OffsetsOk G) (hS : S.Clean) {n : Nat} :
    ∀ ls : List (E × E), (∀ l ∈ ls, l ∈ G.links n .outgoing) →
      ∃ es lines, ls.mapM (edgeText G S n) = some es ∧ es.flatten = unlines lines ∧
        Reads G S (ls.map fun l => .link l.1 l.2) lines := by
  intro ls
  induction ls with
  | nil => exact fun _ => ⟨[], [], rfl, rfl, .nil⟩
  | cons l ls ih =>
    intro h
    obtain ⟨es, lines, h1, h2, h3⟩ := ih fun l hl => h l (by simp [hl])
    obtain ⟨s, h4, h5, h6⟩ := link_line ok off hS (h l (by simp))
    refine ⟨_ :: es, s :: lines, by simp [List.mapM_cons, h1, h4]; rfl, ?_, .cons h5 h6 h3⟩
    rw [List.flatten_cons, h2]
    rfl

theorem block_lines {G : GView E} {S : DotStyles E} (ok : G.Ok) (off : OffsetsOk G) (hS : S.Clean) (n : Nat) :
    ∃ lines, nodeBlock G S n = some (unlines lines) ∧
      Reads G S (if (S.node n).shown then .node n :: (G.links n .outgoing).map fun l => .link l.1 l.2 else []) lines := by
  obtain ⟨es, lines, h1, h2, h3⟩ := links_lines ok off hS (n := n) (G.links n .outgoing) fun _ h => h
  have hc := node_clean (G := G) hS n
  have hr := node_reads (G := G) hS n
  unfold nodeBlock
  rw [← ok.links_eq, h1]
  cases hn : S.node n with
  | hidden => exact ⟨[], rfl, .nil⟩
  | box label =>
    rw [hn] at hc hr
    refine ⟨_ :: lines, ?_, .cons hc hr h3⟩
    simp only [Option.map_some, nodeText_line, h2]
    rfl
  | boxed label attrs =>
    rw [hn] at hc hr
    refine ⟨_ :: lines, ?_, .cons hc hr h3⟩
    simp only [Option.map_some, nodeText_line, h2]
    rfl

theorem blocks_lines {G : GView E} {S : DotStyles E} (ok : G.Ok) (off : OffsetsOk G) (hS : S.Clean) (ns : List Nat) :
    ∃ bs lines, ns.mapM (nodeBlock G S) = some bs ∧ bs.flatten = unlines lines ∧
      Reads G S ((ns.filter fun n => (S.node n).shown).flatMap fun n => .node n :: (G.links n .outgoing).map fun l => .link l.1 l.2) lines := by
  induction ns with
  | nil => exact ⟨[], [], rfl, rfl, .nil⟩
  | cons n ns ih =>
    obtain ⟨bs, lines, h1, h2, h3⟩ := ih
    obtain ⟨ls, h4, h5⟩ := block_lines ok off hS n
    refine ⟨unlines ls :: bs, ls ++ lines, by simp [List.mapM_cons, h1, h4], by rw [List.flatten_cons, h2, unlines_append], ?_⟩
    have := h5.append h3
    rw [List.filter_cons]
    split at this
    · rename_i h; rw [if_pos h, List.flatMap_cons]; exact this
    · rename_i h; rw [if_neg h]; exact this

theorem tree_lines (G : GView E) (S : DotStyles E) (h : Hierarchy) (ns : List Nat) :
    ∃ lines, ns.flatMap (hierBlock G h) = unlines lines ∧
      Reads G S (ns.flatMap fun n => .tree n :: ((h.kids n).filter G.containsNode).map (.child n)) lines := by
  induction ns with
  | nil => exact ⟨[], rfl, .nil⟩
  | cons n ns ih =>
    obtain ⟨lines, h1, h2⟩ := ih
    refine ⟨(treeLine n :: ((h.kids n).filter G.containsNode).map (childLine n)) ++ lines, ?_, ?_⟩
    · rw [List.flatMap_cons, h1, unlines_append]
      congr 1
      unfold hierBlock unlines
      rw [List.flatMap_cons, List.flatMap_map]
      congr 1
      · unfold treeLine
        have e : "\"]\n".toList = '"' :: ("]".toList ++ ['\n']) := rfl
        rw [e]
        generalize "hier".toList = c1
        generalize " [shape=plain label=\"".toList = c2
        generalize "]".toList = c5
        simp
      · congr 1
        funext c
        unfold childLine
        have e : "  [style = \"dashed\"] \n".toList = "  [style = \"".toList ++ ("dashed".toList ++ '"' :: ("] ".toList ++ ['\n'])) := rfl
        have e2 : " -> hier".toList = " -> ".toList ++ "hier".toList := rfl
        rw [e, e2]
        generalize "hier".toList = c1
        generalize "  [style = \"".toList = c2
        generalize " -> ".toList = c3
        generalize "dashed".toList = c4
        generalize "] ".toList = c5
        simp
    · rw [List.flatMap_cons]
      refine Reads.append ?_ h2
      refine .cons ?_ ⟨_, tree_reads n, rfl, rfl⟩ ?_
      · unfold treeLine
        simp only [List.mem_append, List.mem_cons]
        rintro (h | h | h | h | h | h)
        · revert h; decide
        · exact id_clean _ h
        · revert h; decide
        · exact id_clean _ h
        · revert h; decide
        · revert h; decide
      · generalize (h.kids n).filter G.containsNode = ks
        induction ks with
        | nil => exact .nil
        | cons c ks ih =>
          refine .cons ?_ ⟨_, child_reads n c, rfl, rfl, rfl⟩ ih
          unfold childLine
          simp only [List.mem_append, List.mem_cons]
          rintro (h | h | h | h | h | h | h | h)
          · revert h; decide
          · exact id_clean _ h
          · revert h; decide
          · exact id_clean _ h
          · revert h; decide
          · revert h; decide
          · revert h; decide
          · revert h; decide

/-- **C65** Reading the dot text gives back what was to be drawn. The text of a view never panics. Its first line opens
the graph and its last line closes it. In between there is one line for each node that is not hidden, each followed by
one line for each of its outgoing links, and then the lines of the hierarchy. Each line can be read without
knowledge of the graph. The line of a node names the node, its attributes, its label and its shown ports by their
offsets with their labels, and all rows of its table have the same width. The line of a link names the positions of both ports and its
style. Partial: the texts of the user must contain no markup, since they are not escaped. -/
theorem C65_text_partial {G : GView E} {S : DotStyles E} (ok : G.Ok) (off : OffsetsOk G) (hS : S.Clean) (forest : Option Hierarchy) :
    ∃ text lines, dotText G S forest = some text ∧ splitLines text = "digraph {".toList :: lines ++ ["}".toList, []] ∧
      List.Forall₂ (fun i l => ∃ L, readLine l = some L ∧ Says G S i L) (items G S forest) lines := by
  obtain ⟨bs, l1, h1, h2, h3⟩ := blocks_lines ok off hS G.nodes
  obtain ⟨l2, h4, h5⟩ : ∃ lines, (match forest with
        | none => []
        | some h => G.nodes.flatMap (hierBlock G h)) = unlines lines ∧ Reads G S (match forest with
        | none => []
        | some h => G.nodes.flatMap fun n => .tree n :: ((h.kids n).filter G.containsNode).map (.child n)) lines := by
    cases forest with
    | none => exact ⟨[], rfl, .nil⟩
    | some h => exact tree_lines G S h G.nodes
  have h6 := h3.append h5
  refine ⟨unlines (["digraph {".toList] ++ ((l1 ++ l2) ++ ["}".toList])) ++ [], l1 ++ l2, ?_, ?_, h6.2⟩
  · unfold dotText
    rw [h1]
    simp only [unlines_append]
    rw [← h4, ← h2, List.append_nil]
    simp only [List.append_assoc]
    rfl
  · rw [split_unlines]
    · simp [splitLines]
    · intro l hl
      simp only [List.mem_append, List.mem_singleton] at hl
      rcases hl with rfl | (hl | hl) | rfl
      · decide
      · exact h3.1 l hl
      · exact h5.1 l hl
      · decide

/-! ## The text determines the graph -/

/-- The cell of a tag. -/
def Tag.cell? : Tag → Option Cell
  | .cell c => some c
  | .other _ => none

theorem rowTags_cells (row : List Cell) : (rowTags row).filterMap Tag.cell? = row := by
  unfold rowTags
  split
  · rename_i h; rw [h]; rfl
  · clear * -
    simp only [List.filterMap_append, List.filterMap_flatMap]
    have : (row.flatMap fun c => List.filterMap Tag.cell? [.cell c, .other "/td".toList]) = row := by
      induction row with
      | nil => rfl
      | cons c row ih => rw [List.flatMap_cons, ih]; rfl
    rw [this]
    show [] ++ row ++ [] = row
    simp

/-- The ports of a direction, by the cells. -/
def sideOf (d : Direction) (tags : List Tag) : List Cell :=
  (tags.filterMap Tag.cell?).filter fun c => (c.port.map (·.1)) == some d

theorem sideOf_eq {G : GView E} {S : DotStyles E} {n : Nat} {attrs : Attrs} {tags : List Tag} (h : Says G S (.node n) (.node n attrs tags)) (d : Direction) :
    ∃ w, ShowsRow G S n d w (sideOf d tags) := by
  obtain ⟨-, -, ins, w, outs, rfl, h1, h2, -⟩ := h
  have e : (([.other "table border=\"1\"".toList] ++ rowTags ins ++ rowTags [⟨none, w, true, (S.node n).label⟩] ++ rowTags outs ++
      [.other "/table".toList]) : List Tag).filterMap Tag.cell? = ins ++ [⟨none, w, true, (S.node n).label⟩] ++ outs := by
    simp only [List.filterMap_append, rowTags_cells]
    show [] ++ _ ++ _ ++ _ ++ [] = _
    rw [List.nil_append, List.append_nil]
  have hin : ∀ d', ins.filter (fun c => (c.port.map (·.1)) == some d') = if d' = .incoming then ins else [] := by
    intro d'
    split
    · rename_i h
      rw [List.filter_eq_self]
      intro c hc
      obtain ⟨k, _, _, _, h3, -⟩ := h1.named c hc
      simp [h3, h]
    · rename_i h
      rw [List.filter_eq_nil_iff]
      intro c hc
      obtain ⟨k, _, _, _, h3, -⟩ := h1.named c hc
      simp [h3, Ne.symm h]
  have hout : ∀ d', outs.filter (fun c => (c.port.map (·.1)) == some d') = if d' = .outgoing then outs else [] := by
    intro d'
    split
    · rename_i h
      rw [List.filter_eq_self]
      intro c hc
      obtain ⟨k, _, _, _, h3, -⟩ := h2.named c hc
      simp [h3, h]
    · rename_i h
      rw [List.filter_eq_nil_iff]
      intro c hc
      obtain ⟨k, _, _, _, h3, -⟩ := h2.named c hc
      simp [h3, Ne.symm h]
  have : sideOf d ([.other "table border=\"1\"".toList] ++ rowTags ins ++ rowTags [⟨none, w, true, (S.node n).label⟩] ++ rowTags outs ++
      [.other "/table".toList]) = (if d = .incoming then ins else []) ++ (if d = .outgoing then outs else []) := by
    unfold sideOf
    rw [e, List.filter_append, List.filter_append, hin, hout]
    simp
  rw [this]
  cases d
  · exact ⟨_, by simpa using h1⟩
  · exact ⟨_, by simpa using h2⟩

theorem row_ports {G : GView E} {S : DotStyles E} (hF : S.Full) {n : Nat} {d : Direction} {w : Nat} {row : List Cell} (h : ShowsRow G S n d w row) (k : Nat) :
    k < (G.ports n d).length ↔ ∃ c ∈ row, c.port = some (d, k) := by
  constructor
  · intro hk
    refine h.all k _ (List.getElem?_eq_getElem hk) ?_
    have := hF.port (G.ports n d)[k]
    cases hs : S.port (G.ports n d)[k] with
    | hidden => exact (this hs).elim
    | plain => simp [PortStyle.look]
    | boxed => simp [PortStyle.look]
  · rintro ⟨c, hc, hk⟩
    obtain ⟨k', p, _, _, h1, h2, -⟩ := h.named c hc
    rw [hk] at h1
    cases h1
    exact (List.getElem?_eq_some_iff.1 h2).1

variable {E' : Type}

/-- One half: everything in the first graph is in the second. -/
theorem text_le {G : GView E} {G' : GView E'} {S : DotStyles E} {S' : DotStyles E'} (ok : G.Ok) (ok' : G'.Ok)
    (off : OffsetsOk G) (hF : S.Full) (hF' : S'.Full) {lines : List Text}
    (h : List.Forall₂ (fun i l => ∃ L, readLine l = some L ∧ Says G S i L) (items G S none) lines)
    (h' : List.Forall₂ (fun i l => ∃ L, readLine l = some L ∧ Says G' S' i L) (items G' S' none) lines) :
    (∀ n, G.containsNode n = true → G'.containsNode n = true ∧ (S.node n).attrs = (S'.node n).attrs ∧ (S.node n).label = (S'.node n).label ∧
      ∀ d, (G.ports n d).length = (G'.ports n d).length) ∧
    ∀ a i b j, Joined G a i b j → Joined G' a i b j := by
  have hsh : ∀ n, (S.node n).shown = true := fun n => by
    have := hF.node n
    cases hs : S.node n with
    | hidden => exact (this hs).elim
    | box => rfl
    | boxed => rfl
  have both : ∀ {i : Item E} {ls : List Text} {l1 : List (Item E)} {l2 : List (Item E')},
      List.Forall₂ (fun i l => ∃ L, readLine l = some L ∧ Says G S i L) l1 ls →
      List.Forall₂ (fun i l => ∃ L, readLine l = some L ∧ Says G' S' i L) l2 ls → i ∈ l1 →
      ∃ i' L, i' ∈ l2 ∧ Says G S i L ∧ Says G' S' i' L := by
    intro i ls
    induction ls with
    | nil => rintro l1 l2 h1 h2 hi; cases h1; simp at hi
    | cons l ls ih =>
      rintro l1 l2 (_ | ⟨h1, t1⟩) (_ | ⟨h2, t2⟩) hi
      rcases List.mem_cons.1 hi with rfl | hi
      · obtain ⟨L, r1, s1⟩ := h1
        obtain ⟨L', r2, s2⟩ := h2
        rw [r1] at r2; cases r2
        exact ⟨_, L, List.mem_cons_self .., s1, s2⟩
      · obtain ⟨i', L, h3, h4⟩ := ih t1 t2 hi
        exact ⟨i', L, List.mem_cons_of_mem _ h3, h4⟩
  constructor
  · intro n hn
    have hi : Item.node n ∈ items G S none := by
      simp only [items, List.append_nil, List.mem_flatMap, List.mem_filter]
      exact ⟨n, ⟨(ok.mem_nodes n).2 hn, hsh n⟩, by simp⟩
    obtain ⟨i', L, h1, h2, h3⟩ := both h h' hi
    cases L with
    | node m attrs tags =>
      cases i' with
      | node n' =>
        have e1 : m = n := h2.1
        have e2 : m = n' := h3.1
        subst e1
        subst e2
        simp only [items, List.append_nil, List.mem_flatMap, List.mem_filter] at h1
        obtain ⟨n'', ⟨h4, -⟩, h5⟩ := h1
        have : n'' = m := by simpa [eq_comm] using h5
        subst this
        refine ⟨(ok'.mem_nodes _).1 h4, by rw [← h2.2.1, ← h3.2.1], ?_, ?_⟩
        · obtain ⟨-, -, ins, w, outs, rfl, r1, r2, -⟩ := h2
          obtain ⟨-, -, ins', w', outs', e, r1', r2', -⟩ := h3
          have e := congrArg (List.filterMap Tag.cell?) e
          simp only [List.filterMap_append, rowTags_cells] at e
          have hf : ∀ {E : Type} {G : GView E} {S : DotStyles E} {n d w row}, ShowsRow G S n d w row → row.filter (fun c => c.port.isNone) = [] := by
            intro E G S n d w row hr
            rw [List.filter_eq_nil_iff]
            intro c hc
            obtain ⟨k, _, _, _, h3, -⟩ := hr.named c hc
            simp [h3]
          have e := congrArg (List.filter fun c => c.port.isNone) e
          simp only [List.filter_append, hf r1, hf r2, hf r1', hf r2'] at e
          simp [Tag.cell?] at e
          exact e.2
        · intro d
          obtain ⟨w, r⟩ := sideOf_eq h2 d
          obtain ⟨w', r'⟩ := sideOf_eq h3 d
          have : ∀ k, k < (G.ports n'' d).length ↔ k < (G'.ports n'' d).length := fun k =>
            (row_ports hF r k).trans (row_ports hF' r' k).symm
          have a1 := this (G.ports n'' d).length
          have a2 := this (G'.ports n'' d).length
          omega
      | link e f => exact h3.elim
      | tree n => exact h3.elim
      | child p c => exact h3.elim
    | edge a i b j s => exact h2.elim
    | tree a l => exact h2.elim
    | child p c s => exact h2.elim
  · rintro a i b j ⟨e, f, h1, h2, h3, h4, h5⟩
    have hi : Item.link e f ∈ items G S none := by
      simp only [items, List.append_nil, List.mem_flatMap, List.mem_filter]
      obtain ⟨n, d, m, h6, h7, h8, h9, h10, -⟩ := ok.shows_dir _ _ h1
      have : some n = some a := h6.symm.trans h2
      cases this
      have hd : d = .outgoing := by
        obtain ⟨k, h11, -⟩ := off _ _ _ h6 h7
        rw [h3] at h11
        cases h11
        rfl
      subst hd
      exact ⟨a, ⟨(ok.mem_nodes a).2 h8, hsh a⟩, List.mem_cons_of_mem _ (List.mem_map.2 ⟨(e, f), ok.mem_links.2 ⟨h1, h2, h7⟩, rfl⟩)⟩
    obtain ⟨i', L, h6, h7, h8⟩ := both h h' hi
    cases L with
    | edge a' i'' b' j' s =>
      cases i' with
      | link e' f' =>
        obtain ⟨q1, q2, q3, q4, -⟩ := h7
        obtain ⟨w1, w2, w3, w4, -⟩ := h8
        have e1 : some a' = some a := q1.symm.trans h2
        have e2 : some b' = some b := q3.symm.trans h4
        rw [h3] at q2
        rw [h5] at q4
        cases e1; cases e2; cases q2; cases q4
        refine ⟨e', f', ?_, w1, w2, w3, w4⟩
        simp only [items, List.append_nil, List.mem_flatMap, List.mem_filter] at h6
        obtain ⟨n'', -, h5⟩ := h6
        simp only [List.mem_cons, reduceCtorEq, List.mem_map, false_or] at h5
        obtain ⟨⟨e1, f1⟩, h6, h7⟩ := h5
        cases h7
        exact (ok'.mem_links.1 h6).1
      | node => exact h8.elim
      | tree n => exact h8.elim
      | child p c => exact h8.elim
    | node a i b => exact h7.elim
    | tree a l => exact h7.elim
    | child p c s => exact h7.elim

/-- **C65** The text determines the graph: two views, of any kinds and with any styles that hide nothing and contain no
markup, that have the same text have the same nodes with the same labels and numbers of ports, and links between the same positions. -/
theorem C65_injective {G : GView E} {G' : GView E'} {S : DotStyles E} {S' : DotStyles E'} (ok : G.Ok) (ok' : G'.Ok)
    (off : OffsetsOk G) (off' : OffsetsOk G') (hS : S.Clean) (hS' : S'.Clean) (hF : S.Full) (hF' : S'.Full)
    (h : dotText G S none = dotText G' S' none) :
    (∀ n, G.containsNode n = true ↔ G'.containsNode n = true) ∧
    (∀ n, G.containsNode n = true → (S.node n).attrs = (S'.node n).attrs ∧ (S.node n).label = (S'.node n).label ∧
      ∀ d, (G.ports n d).length = (G'.ports n d).length) ∧
    ∀ a i b j, Joined G a i b j ↔ Joined G' a i b j := by
  obtain ⟨t, l, h1, h2, h3⟩ := C65_text_partial ok off hS none
  obtain ⟨t', l', h1', h2', h3'⟩ := C65_text_partial ok' off' hS' none
  rw [h1, h1'] at h
  cases h
  rw [h2] at h2'
  have : l = l' := by simpa using h2'
  subst this
  obtain ⟨a1, a2⟩ := text_le ok ok' off hF hF' h3 h3'
  obtain ⟨b1, b2⟩ := text_le ok' ok off' hF' hF h3' h3
  exact ⟨fun n => ⟨fun h => (a1 n h).1, fun h => (b1 n h).1⟩, fun n h => (a1 n h).2, fun a i b j => ⟨a2 a i b j, b2 a i b j⟩⟩

/-! ## Weights and the default styles -/

theorem row_unique {G : GView E} {S : DotStyles E} {ports : Nat → Text} (hp : ∀ p, S.port p = .boxed (ports p) true) {n : Nat} {d : Direction}
    {w : Nat} {row : List Cell} (h : ShowsRow G S n d w row) : row = weightRow G ports n d w := by
  have h2 : ShowsRow G S n d w (weightRow G ports n d w) := by
    have e : weightRow G ports n d w = lookCells S d w (G.ports n d).zipIdx := by
      unfold weightRow lookCells
      rw [← List.filterMap_eq_map']
      congr 1
      funext x
      simp [hp, PortStyle.look, makeLabel_eq]
    rw [e]
    exact lookCells_shows ..
  have key : ∀ {row}, ShowsRow G S n d w row → row.Pairwise (fun a b => (a.port.map (·.2)).getD 0 < (b.port.map (·.2)).getD 0) := by
    intro row h
    refine h.sorted.imp_of_mem ?_
    intro a b ha hb hab
    obtain ⟨k, _, _, _, h1, -⟩ := h.named a ha
    obtain ⟨k', _, _, _, h1', -⟩ := h.named b hb
    simpa [h1, h1'] using hab k k' h1 h1'
  have nodup : ∀ {row}, ShowsRow G S n d w row → row.Nodup := by
    intro row h
    refine (key h).imp ?_
    rintro a b hab rfl
    omega
  have cell : ∀ {row row'}, ShowsRow G S n d w row → ShowsRow G S n d w row' → ∀ c ∈ row, c ∈ row' := by
    intro row row' h h' c hc
    obtain ⟨k, p, l, b, h1, h2, h3, h4⟩ := h.named c hc
    obtain ⟨c', hc', h5⟩ := h'.all k p h2 (by rw [h3]; simp)
    obtain ⟨k', p', l', b', h1', h2', h3', h4'⟩ := h'.named c' hc'
    rw [h5] at h1'
    cases h1'
    rw [h2] at h2'
    cases h2'
    rw [h3] at h3'
    have e1 := h.span c hc
    have e2 := h'.span c' hc'
    obtain ⟨p1, s1, q1, l1⟩ := c
    obtain ⟨p2, s2, q2, l2⟩ := c'
    simp only at *
    cases h3'
    subst h1 h5 e1 e2 h4 h4'
    exact hc'
  refine List.Perm.eq_of_pairwise (le := fun a b : Cell => (a.port.map (·.2)).getD 0 < (b.port.map (·.2)).getD 0) ?_ (key h) (key h2)
    ((List.perm_ext_iff_of_nodup (nodup h) (nodup h2)).2 fun c => ⟨cell h h2 c, cell h2 h c⟩)
  intro a b _ _ h1 h2
  omega

/-- **C65** With weights every node is shown with its weight and all its ports, and every port with its offset and its
weight. Partial: the weights must contain no tags and line breaks, and the edge styles no quotes and line breaks. -/
theorem C65_weights_partial {G : GView E} {S : DotStyles E} {nodes ports : Nat → Text} (ok : G.Ok) (off : OffsetsOk G)
    (hn : ∀ n, '<' ∉ nodes n ∧ '\n' ∉ nodes n) (hp : ∀ p, '<' ∉ ports p ∧ '\n' ∉ ports p)
    (he : ∀ e f, '"' ∉ (S.edge e f).asDot ∧ '\n' ∉ (S.edge e f).asDot) (forest : Option Hierarchy) :
    ∃ text lines, dotText G (S.withWeights nodes ports) forest = some text ∧
      splitLines text = "digraph {".toList :: lines ++ ["}".toList, []] ∧
      List.Forall₂ (fun i l => ∃ L, readLine l = some L ∧ weightSays G nodes ports (fun e f => (S.edge e f).asDot) i L) (allItems G forest) lines := by
  obtain ⟨text, lines, h1, h2, h3⟩ := C65_text_partial (S := S.withWeights nodes ports) ok off
    ⟨hn, fun p l b c h => by cases h; exact hp p, (fun n v h => by rcases h with h | h | h | h <;> cases h), he⟩ forest
  refine ⟨text, lines, h1, h2, ?_⟩
  have e : items G (S.withWeights nodes ports) forest = allItems G forest := by
    unfold items allItems
    have : (G.nodes.filter fun n => ((S.withWeights nodes ports).node n).shown) = G.nodes := List.filter_eq_self.2 fun _ _ => rfl
    rw [this]
  rw [e] at h3
  refine h3.imp ?_
  rintro i l ⟨L, hL, hs⟩
  refine ⟨L, hL, ?_⟩
  cases i with
  | node n =>
    cases L with
    | node m attrs tags =>
      obtain ⟨rfl, rfl, ins, w, outs, rfl, r1, r2, s1, s2, s3⟩ := hs
      have e1 := row_unique (ports := ports) (fun _ => rfl) r1
      have e2 := row_unique (ports := ports) (fun _ => rfl) r2
      have l1 : ins.length = (G.ports m .incoming).length := by rw [e1]; simp [weightRow]
      have l2 : outs.length = (G.ports m .outgoing).length := by rw [e2]; simp [weightRow]
      have hw : w = max (G.ports m .incoming).length 1 * max (G.ports m .outgoing).length 1 := by
        rw [← l1, ← l2]
        by_cases h1 : ins = []
        · by_cases h2 : outs = []
          · rw [s3 h1 h2, h1, h2]; rfl
          · have : outs.length ≠ 0 := by simpa using h2
            rw [← s2 h2, span_sum r2.span, Nat.mul_comm, Nat.max_eq_left (a := outs.length) (by omega)]
        · have : ins.length ≠ 0 := by simpa using h1
          rw [← s1 h1, span_sum r1.span, Nat.max_eq_left (a := ins.length) (by omega)]
      show Line.node .. = weightLine ..
      unfold weightLine
      rw [l1] at e2
      rw [l2] at e1
      rw [e1, e2, hw]
      rfl
    | _ => exact hs.elim
  | link e f =>
    cases L with
    | edge a i b j s =>
      obtain ⟨q1, q2, q3, q4, rfl⟩ := hs
      exact ⟨a, i, b, j, rfl, q1, q2, q3, q4⟩
    | _ => exact hs.elim
  | tree n =>
    cases L with
    | tree m l => obtain ⟨rfl, rfl⟩ := hs; rfl
    | _ => exact hs.elim
  | child p c =>
    cases L with
    | child m l => obtain ⟨rfl, rfl, rfl⟩ := hs; rfl
    | _ => exact hs.elim

/-- **C65** With the default styles every node is shown with its index and all its ports, and every port with its offset: then
nothing is missing. -/
theorem C65_default {G : GView E} (ok : G.Ok) (off : OffsetsOk G) (forest : Option Hierarchy) :
    ∃ text lines, dotText G .default forest = some text ∧ splitLines text = "digraph {".toList :: lines ++ ["}".toList, []] ∧
      List.Forall₂ (fun i l => ∃ L, readLine l = some L ∧ weightSays G idText (fun _ => []) (fun _ _ => []) i L) (allItems G forest) lines :=
  C65_weights_partial (S := .default) ok off (fun _ => ⟨id_not (by decide), id_not (by decide)⟩) (fun _ => ⟨by simp, by simp⟩)
    (fun _ _ => ⟨by simp [DotStyles.default, EdgeStyle.asDot], by simp [DotStyles.default, EdgeStyle.asDot]⟩) forest

/-! ## Examples and the missing part -/

/-- Two nodes; the outgoing ports of node 0 are 0 and 1, the incoming ports of node 1 are 2 and 3; one link. -/
def pairOps (second : Bool) : List PG.Op :=
  [.addNode 0 2, .addNode 2 0, .linkPorts 0 2] ++ if second then [.linkPorts 1 3] else []

/-- The graph, with or without a second link. -/
def pairG (second : Bool) : PG := (PG.run 32767 PG.empty (pairOps second)).getD PG.empty

theorem pairG_reach (b : Bool) : PG.Reach 32767 (pairG b) := by
  cases b
  · exact checkedRun_reach .init (ops := pairOps false) (by decide +kernel)
  · exact checkedRun_reach .init (ops := pairOps true) (by decide +kernel)

theorem pair_ok (b : Bool) : (ofPG (pairG b) 0 0).Ok ∧ OffsetsOk (ofPG (pairG b) 0 0) :=
  ⟨ofPG_ok ((pairG_reach b).inv (by decide)) 0 0, offsets_pg ((pairG_reach b).inv (by decide)) 0 0⟩

/-- The default styles with dotted edges. -/
def mixedEdges : DotStyles Nat := { (DotStyles.default : DotStyles Nat) with edge := fun _ _ => .labelled "l".toList .dotted }

example : dotText (ofPG (pairG false) 0 0) .default none = some (("digraph {\n" ++
  "0 [shape=plain label=<<table border=\"1\"><tr><td align=\"text\" border=\"0\" colspan=\"2\">0</td></tr><tr>" ++
  "<td port=\"out0\" align=\"text\" colspan=\"1\" cellpadding=\"1\" >0</td>" ++
  "<td port=\"out1\" align=\"text\" colspan=\"1\" cellpadding=\"1\" >1</td></tr></table>>]\n" ++
  "0:out0 -> 1:in0 [style=\"\"]\n" ++
  "1 [shape=plain label=<<table border=\"1\"><tr>" ++
  "<td port=\"in0\" align=\"text\" colspan=\"1\" cellpadding=\"1\" >0</td>" ++
  "<td port=\"in1\" align=\"text\" colspan=\"1\" cellpadding=\"1\" >1</td></tr>" ++
  "<tr><td align=\"text\" border=\"0\" colspan=\"2\">1</td></tr></table>>]\n}\n").toList) := by decide +kernel

/-- Weights for all nodes and ports. -/
example : ∃ text lines, dotText (ofPG (pairG true) 0 0) (mixedEdges.withWeights (fun n => "node ".toList ++ idText n) fun p => idText (p * p)) none =
      some text ∧ splitLines text = "digraph {".toList :: lines ++ ["}".toList, []] ∧
      List.Forall₂ (fun i l => ∃ L, readLine l = some L ∧ weightSays (ofPG (pairG true) 0 0) (fun n => "node ".toList ++ idText n)
        (fun p => idText (p * p)) (fun _ _ => "dotted".toList) i L) (allItems (ofPG (pairG true) 0 0) none) lines := by
  have hc : ∀ (c : Char) (n : Nat), c.isDigit = false → c ∉ "node ".toList → c ∉ "node ".toList ++ idText n := by
    intro c n h1 h2 h
    rcases List.mem_append.1 h with h | h
    · exact h2 h
    · exact id_not h1 h
  exact C65_weights_partial (S := mixedEdges) (pair_ok true).1 (pair_ok true).2
    (fun n => ⟨hc _ n (by decide) (by decide), hc _ n (by decide) (by decide)⟩)
    (fun p => ⟨id_not (by decide), id_not (by decide)⟩)
    (fun _ _ => (by decide : '"' ∉ "dotted".toList ∧ '\n' ∉ "dotted".toList)) none

/-- Styles with all kinds of nodes, ports and edges. -/
def mixedS : DotStyles Nat where
  node n := match n with
    | 0 => .boxed "a \"b\" > c".toList ⟨some "#f00".toList, none, some "#0f0".toList, some "2px".toList⟩
    | 1 => .box "m".toList
    | _ => .hidden
  port p := match p with
    | 0 => .plain "x".toList true
    | 1 => .hidden
    | 2 => .plain "y".toList false
    | _ => .boxed [] true
  edge _ _ := .labelled "l".toList .dotted

theorem mixedS_clean : mixedS.Clean := by
  refine ⟨?_, ?_, ?_, ?_⟩
  · intro n
    match n with
    | 0 => decide
    | 1 => decide
    | n + 2 => simp [mixedS, NodeStyle.label]
  · intro p l b c h
    match p with
    | 0 => cases h; decide
    | 1 => cases h
    | 2 => cases h; decide
    | p + 3 => cases h; decide
  · intro n v h
    match n with
    | 0 => rcases h with h | h | h | h <;> cases h <;> decide
    | 1 => rcases h with h | h | h | h <;> cases h
    | n + 2 => rcases h with h | h | h | h <;> cases h
  · intro e f; exact (by decide : '"' ∉ "dotted".toList ∧ '\n' ∉ "dotted".toList)

example : dotText (ofPG (pairG true) 0 0) mixedS (some Hier.exH) = some (("digraph {\n" ++
  "0 [shape=plain fontcolor=\"#f00\" color=\"#0f0\" penwidth=\"2px\" label=<<table border=\"1\">" ++
  "<tr><td align=\"text\" border=\"0\" colspan=\"1\">a \"b\" > c</td></tr><tr>" ++
  "<td port=\"out0\" align=\"text\" colspan=\"1\" cellpadding=\"1\" border=\"0\">0: x</td></tr></table>>]\n" ++
  "0:out0 -> 1:in0 [style=\"dotted\"]\n0:out1 -> 1:in1 [style=\"dotted\"]\n" ++
  "1 [shape=plain label=<<table border=\"1\"><tr>" ++
  "<td port=\"in0\" align=\"text\" colspan=\"1\" cellpadding=\"1\" border=\"0\">y</td>" ++
  "<td port=\"in1\" align=\"text\" colspan=\"1\" cellpadding=\"1\" >1</td></tr>" ++
  "<tr><td align=\"text\" border=\"0\" colspan=\"2\">m</td></tr></table>>]\n" ++
  "hier0 [shape=plain label=\"0\"]\nhier0 -> hier1  [style = \"dashed\"] \nhier1 [shape=plain label=\"1\"]\n}\n").toList) := by decide +kernel

/-- The styles of an edge that the code does not escape. -/
def breakS : DotStyles Nat := { (DotStyles.default : DotStyles Nat) with edge := fun _ _ => .custom "\"]\n0:out1 -> 1:in1 [style=\"".toList }

/-- **C65** The condition on edge styles is needed: a style with a quote and a line break makes the text the same as that of a graph
with another link. -/
theorem C65_witness_edge_style : dotText (ofPG (pairG false) 0 0) breakS none = dotText (ofPG (pairG true) 0 0) .default none ∧
    (dotText (ofPG (pairG false) 0 0) breakS none).isSome ∧ breakS.Full ∧
    Joined (ofPG (pairG true) 0 0) 0 1 1 1 ∧ ¬ Joined (ofPG (pairG false) 0 0) 0 1 1 1 := by
  refine ⟨by decide +kernel, by decide +kernel, ⟨by simp [breakS, DotStyles.default], by simp [breakS, DotStyles.default]⟩,
    ⟨1, 3, ?_, ?_, ?_, ?_, ?_⟩, ?_⟩
  · show (1, 3) ∈ _
    decide +kernel
  · show _ = _
    decide +kernel
  · decide +kernel
  · show _ = _
    decide +kernel
  · decide +kernel
  · rintro ⟨e, f, h1, h2, h3, -⟩
    have ok := (pair_ok false).1
    have h4 : e ∈ (ofPG (pairG false) 0 0).ports 0 .outgoing ∨ e ∈ (ofPG (pairG false) 0 0).ports 0 .incoming := by
      obtain ⟨n, d, -, -, h5, -⟩ := ok.shows_dir _ _ h1
      cases d
      · exact .inr ((ok.mem_ports _ _ _).2 ⟨h2, h5⟩)
      · exact .inl ((ok.mem_ports _ _ _).2 ⟨h2, h5⟩)
    have e1 : (ofPG (pairG false) 0 0).ports 0 .outgoing = [0, 1] := by decide +kernel
    have e2 : (ofPG (pairG false) 0 0).ports 0 .incoming = [] := by decide +kernel
    rw [e1, e2] at h4
    simp at h4
    rcases h4 with rfl | rfl
    · revert h3; decide +kernel
    · have : (ofPG (pairG false) 0 0).portLinks 1 = [] := by decide +kernel
      have h1 : (1, f) ∈ (ofPG (pairG false) 0 0).portLinks 1 := h1
      rw [this] at h1
      simp at h1

/-- The tags of the line of a node. -/
def tagsOf (t : Text) : List Tag :=
  match readLine t with
  | some (.node _ _ tags) => tags
  | _ => []

/-- **C65** The condition on labels is needed: a label with tags shows a port that the node does not have. -/
theorem C65_witness_label : let S : DotStyles Nat := { (DotStyles.default : DotStyles Nat) with node := fun n => .box ("x</td><td port=\"in7\" colspan=\"1\">".toList ++ idText n) }
    ∃ text, dotText (ofPG (pairG false) 0 0) S none = some text ∧
      .cell ⟨some (.incoming, 7), 1, false, "0".toList⟩ ∈ tagsOf ((splitLines text).getD 1 []) ∧
      ((ofPG (pairG false) 0 0).ports 0 .incoming).length = 0 := by
  intro S
  have : (dotText (ofPG (pairG false) 0 0) S none).isSome = true ∧
      .cell ⟨some (.incoming, 7), 1, false, "0".toList⟩ ∈ tagsOf ((splitLines ((dotText (ofPG (pairG false) 0 0) S none).getD [])).getD 1 []) ∧
      ((ofPG (pairG false) 0 0).ports 0 .incoming).length = 0 := by
    decide +kernel
  obtain ⟨h1, h2, h3⟩ := this
  obtain ⟨t, ht⟩ := Option.isSome_iff_exists.1 h1
  rw [ht] at h2
  exact ⟨t, ht, h2, h3⟩

end Verif.Render

#print axioms Verif.Render.C65_text_partial
#print axioms Verif.Render.C65_weights_partial
#print axioms Verif.Render.C65_default
#print axioms Verif.Render.C65_injective
#print axioms Verif.Render.C65_witness_edge_style
#print axioms Verif.Render.C65_witness_label
