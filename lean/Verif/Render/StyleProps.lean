import Verif.Render.StyleSpec
import Verif.Render.Props

/-!
# C51: labels and styles
-/

namespace Verif.Render

open Verif.View Verif.Hier

variable {E : Type}

theorem encode_eq (label : Text) : replaceChar '\n' "<br>".toList (replaceChar '"' "#quot;".toList label) =
    label.flatMap fun c => if c = '"' then "#quot;".toList else if c = '\n' then "<br>".toList else [c] := by
  induction label with
  | nil => rfl
  | cons c l ih =>
    have h : ∀ a b : Text, replaceChar '\n' "<br>".toList (a ++ b) =
        replaceChar '\n' "<br>".toList a ++ replaceChar '\n' "<br>".toList b := fun a b => List.flatMap_append
    have h2 : replaceChar '"' "#quot;".toList (c :: l) = (if c = '"' then "#quot;".toList else [c]) ++
      replaceChar '"' "#quot;".toList l := rfl
    rw [h2, h, ih, List.flatMap_cons]
    congr 1
    by_cases h1 : c = '"'
    · rw [if_pos h1, if_pos h1]; decide
    · rw [if_neg h1, if_neg h1]
      simp [replaceChar]

theorem encode_clean (label : Text) : ∀ c ∈ replaceChar '\n' "<br>".toList (replaceChar '"' "#quot;".toList label),
    c ≠ '"' ∧ c ≠ '\n' := by
  rw [encode_eq]
  intro c hc
  obtain ⟨x, -, hx⟩ := List.mem_flatMap.1 hc
  clear hc
  split at hx
  · revert c; decide
  · split at hx
    · revert c; decide
    · simp only [List.mem_singleton] at hx
      rw [hx]
      exact ⟨by assumption, by assumption⟩

theorem encode_ne (id : Text) {label : Text} (h : label ≠ []) : encodeLabel id label =
    '"' :: replaceChar '\n' "<br>".toList (replaceChar '"' "#quot;".toList label) ++ ['"'] := by
  unfold encodeLabel
  rw [if_neg]
  simpa using h

/-- **C51** A label that is not empty is written as one pair of quotes with no quote and no line break in
between; an empty label is replaced by the id. -/
theorem C51_encode_label (id label : Text) :
    (label = [] → encodeLabel id label = id) ∧
    (label ≠ [] → ∃ s, encodeLabel id label = '"' :: s ++ ['"'] ∧ '"' ∉ s ∧ '\n' ∉ s) := by
  refine ⟨fun h => by subst h; rfl, fun h => ?_⟩
  refine ⟨_, encode_ne id h, ?_, ?_⟩
  · exact fun hc => (encode_clean label _ hc).1 rfl
  · exact fun hc => (encode_clean label _ hc).2 rfl

/-- **C51** If the label has no `#` and no `<`, then mermaid shows the label, and nothing else can be read from
the text. Partial: the function says that other special characters are left to the user. -/
theorem C51_label_shown_partial (id label : Text) (hne : label ≠ []) (h1 : '#' ∉ label) (h2 : '<' ∉ label) :
    ∃ s, encodeLabel id label = '"' :: s ++ ['"'] ∧ ∀ l, Shown s l ↔ l = label := by
  refine ⟨_, encode_ne id hne, ?_⟩
  rw [encode_eq]
  clear hne
  induction label with
  | nil =>
    intro l
    constructor
    · intro h; cases h; rfl
    · rintro rfl; exact .nil
  | cons c t ih =>
    have hc1 : c ≠ '#' := fun h => h1 (by simp [h])
    have hc2 : c ≠ '<' := fun h => h2 (by simp [h])
    have ih := ih (fun h => h1 (List.mem_cons_of_mem _ h)) (fun h => h2 (List.mem_cons_of_mem _ h))
    intro l
    rw [List.flatMap_cons]
    by_cases h3 : c = '"'
    · subst h3
      rw [if_pos rfl]
      constructor
      · intro h
        cases h with
        | quot h => rw [(ih _).1 h]
        | char h => exact (h rfl).elim
      · rintro rfl
        exact .quot ((ih _).2 rfl)
    · rw [if_neg h3]
      by_cases h4 : c = '\n'
      · subst h4
        rw [if_pos rfl]
        constructor
        · intro h
          cases h with
          | br h => rw [(ih _).1 h]
          | char _ h => exact (h rfl).elim
        · rintro rfl
          exact .br ((ih _).2 rfl)
      · rw [if_neg h4, List.singleton_append]
        generalize List.flatMap (fun c => if c = '"' then "#quot;".toList else if c = '\n' then "<br>".toList else [c]) t = r at *
        constructor
        · intro h
          cases h with
          | quot h => exact (hc1 rfl).elim
          | br h => exact (hc2 rfl).elim
          | char _ _ _ _ h => rw [(ih _).1 h]
        · rintro rfl
          exact .char hc1 hc2 h3 h4 ((ih _).2 rfl)

example : encodeLabel "7".toList "a \"b\"\nc".toList = "\"a #quot;b#quot;<br>c\"".toList := by decide

/-- The condition is needed: a quote and the text `#quot;` are written the same way. -/
theorem C51_witness_collision : encodeLabel [] "\"".toList = encodeLabel [] "#quot;".toList := by decide

/-! ## Edge styles -/

theorem strip_not_labelled (e : EdgeStyle) : ∀ l e', e.stripLabel ≠ .labelled l e' := by
  induction e with
  | labelled l e ih => exact ih
  | _ => intro l e' h; cases h

/-- **C51** `strip_label` removes all labels; `with_label` changes only the label, and a second label replaces
the first; the dot style does not depend on labels; and `as_mermaid_str` never reaches `unreachable!`. -/
theorem C51_edge_style (e : EdgeStyle) (l l' : Text) :
    e.stripLabel.label = none ∧ (e.label = none → e.stripLabel = e) ∧
    (e.withLabel l).label = some l ∧ (e.withLabel l).stripLabel = e.stripLabel ∧
    (e.withLabel l).withLabel l' = e.withLabel l' ∧
    e.asDot = e.stripLabel.asDot ∧ e.asMermaid.isSome = true := by
  refine ⟨?_, ?_, ?_, ?_, ?_, ?_, ?_⟩
  · have := strip_not_labelled e
    cases h : e.stripLabel with
    | labelled a b => exact (this a b h).elim
    | _ => rfl
  · intro h; cases e <;> first | rfl | cases h
  · cases e <;> rfl
  · cases e <;> rfl
  · cases e <;> rfl
  · induction e with
    | labelled l e ih => exact ih
    | _ => rfl
  · cases e with
    | labelled l e =>
      simp only [EdgeStyle.asMermaid]
      have := strip_not_labelled e
      cases h : e.stripLabel with
      | labelled a b => exact (this a b h).elim
      | _ => rfl
    | _ => rfl

/-- **C51** A labelled line that is not custom carries its outermost label in quotes, without quotes and line
breaks inside, between the two halves of the line. -/
theorem C51_edge_label (l : Text) (e : EdgeStyle) (hl : l ≠ []) (hc : ∀ s, e.stripLabel ≠ .custom s) :
    ∃ s a b, (EdgeStyle.labelled l e).asMermaid = some (a ++ ('"' :: s ++ ['"']) ++ b) ∧ '"' ∉ s ∧ '\n' ∉ s ∧
      ((a, b) = ("--".toList, "-->".toList) ∧ e.stripLabel = .solid ∨
        (a, b) = ("-.".toList, ".->".toList) ∧ (e.stripLabel = .dotted ∨ e.stripLabel = .dashed)) := by
  obtain ⟨s, h1, h2, h3⟩ := (C51_encode_label [] l).2 hl
  have := strip_not_labelled e
  simp only [EdgeStyle.asMermaid, h1]
  cases h : e.stripLabel with
  | labelled a b => exact (this a b h).elim
  | custom c => exact (hc c h).elim
  | solid => exact ⟨s, _, _, rfl, h2, h3, .inl ⟨rfl, rfl⟩⟩
  | dotted => exact ⟨s, _, _, rfl, h2, h3, .inr ⟨rfl, .inl rfl⟩⟩
  | dashed => exact ⟨s, _, _, rfl, h2, h3, .inr ⟨rfl, .inr rfl⟩⟩

example := C51_edge_label "x\ny".toList (.labelled "old".toList .dashed) (by decide) (by intro s h; cases h)

/-- **C51** With or without labels, a line that is not custom is an arrow, and it is drawn dotted exactly if its style is
dotted or dashed. -/
theorem C51_arrow (e : EdgeStyle) (hc : ∀ s, e.stripLabel ≠ .custom s) :
    ∃ t, e.asMermaid = some t ∧ ['-'] <+: t ∧ "->".toList <:+ t ∧
      ("-.".toList <+: t ↔ e.stripLabel = .dotted ∨ e.stripLabel = .dashed) := by
  have := strip_not_labelled e
  cases e with
  | solid => exact ⟨_, rfl, by decide, by decide, by decide⟩
  | dotted => exact ⟨_, rfl, by decide, by decide, by decide⟩
  | dashed => exact ⟨_, rfl, by decide, by decide, by decide⟩
  | custom s => exact (hc s rfl).elim
  | labelled l e =>
    simp only [EdgeStyle.stripLabel] at hc this ⊢
    simp only [EdgeStyle.asMermaid]
    cases h : e.stripLabel with
    | labelled a b => exact (this a b h).elim
    | custom c => exact (hc c h).elim
    | solid =>
      refine ⟨_, rfl, ⟨'-' :: encodeLabel [] l ++ "-->".toList, rfl⟩, ⟨"--".toList ++ encodeLabel [] l ++ ['-'], by simp⟩, ?_⟩
      constructor
      · rintro ⟨t, ht⟩; simp at ht
      · rintro (h | h) <;> cases h
    | dotted =>
      exact ⟨_, rfl, ⟨'.' :: encodeLabel [] l ++ ".->".toList, rfl⟩, ⟨"-.".toList ++ encodeLabel [] l ++ ['.'], by simp⟩,
        fun _ => .inl rfl, fun _ => ⟨encodeLabel [] l ++ ".->".toList, rfl⟩⟩
    | dashed =>
      exact ⟨_, rfl, ⟨'.' :: encodeLabel [] l ++ ".->".toList, rfl⟩, ⟨"-.".toList ++ encodeLabel [] l ++ ['.'], by simp⟩,
        fun _ => .inr rfl, fun _ => ⟨encodeLabel [] l ++ ".->".toList, rfl⟩⟩

example : (EdgeStyle.labelled "x\ny".toList (.labelled "old".toList .dashed)).asMermaid = some "-.\"x<br>y\".->".toList := by
  decide

/-- A custom style loses its label. -/
theorem C51_witness_custom (l s : Text) : ((EdgeStyle.custom s).withLabel l).asMermaid = some s := rfl

/-! ## The text -/

theorem splitLines_append (l t : Text) (h : '\n' ∉ l) : splitLines (l ++ '\n' :: t) = l :: splitLines t := by
  induction l with
  | nil => simp [splitLines]
  | cons c l ih =>
    have hc : c ≠ '\n' := fun h' => h (by simp [h'])
    rw [List.cons_append, splitLines, if_neg hc, ih fun h' => h (List.mem_cons_of_mem _ h')]

/-- The text of lines. -/
def joinLines (ls : List (Nat × Text)) : Text :=
  ls.flatMap fun x => (List.replicate x.1 "    ".toList).flatten ++ x.2 ++ ['\n']

theorem no_break_indent (k : Nat) : '\n' ∉ (List.replicate k "    ".toList).flatten := by
  intro h
  obtain ⟨l, h1, h2⟩ := List.mem_flatten.1 h
  rw [List.eq_of_mem_replicate h1] at h2
  revert h2; decide

theorem split_join (ls : List (Nat × Text)) (h : ∀ x ∈ ls, '\n' ∉ x.2) :
    splitLines (joinLines ls) = ls.map (fun x => (List.replicate x.1 "    ".toList).flatten ++ x.2) ++ [[]] := by
  induction ls with
  | nil => rfl
  | cons x ls ih =>
    have : joinLines (x :: ls) = ((List.replicate x.1 "    ".toList).flatten ++ x.2) ++ '\n' :: joinLines ls := by
      simp [joinLines]
    rw [this, splitLines_append, ih fun y hy => h y (List.mem_cons_of_mem _ hy)]
    · rfl
    · intro hc
      rcases List.mem_append.1 hc with hc | hc
      · exact no_break_indent _ hc
      · exact h x (by simp) hc

theorem id_clean (n : Nat) : '\n' ∉ idText n := by
  intro h
  have := Nat.isDigit_of_mem_toDigits (by omega) (by omega) h
  revert this; decide

theorem label_clean (n : Nat) (l : Text) : '\n' ∉ encodeLabel (idText n) l := by
  by_cases h : l = []
  · rw [(C51_encode_label _ l).1 h]; exact id_clean n
  · obtain ⟨s, h1, -, h2⟩ := (C51_encode_label (idText n) l).2 h
    rw [h1]
    simp [h2]

theorem edge_clean {e : EdgeStyle} (h : ∀ s, e.stripLabel = .custom s → '\n' ∉ s) : '\n' ∉ e.asMermaid.getD [] := by
  have hl : ∀ l, '\n' ∉ encodeLabel [] l := by
    intro l
    by_cases h : l = []
    · rw [(C51_encode_label _ l).1 h]; simp
    · obtain ⟨s, h1, -, h2⟩ := (C51_encode_label [] l).2 h
      rw [h1]
      simp [h2]
  cases e with
  | solid => decide
  | dotted => decide
  | dashed => decide
  | custom s => exact h s rfl
  | labelled l e =>
    have h' : ∀ s, e.stripLabel = .custom s → '\n' ∉ s := h
    simp only [EdgeStyle.asMermaid]
    have := strip_not_labelled e
    cases hs : e.stripLabel with
    | labelled a b => exact (this a b hs).elim
    | custom c => exact h' c hs
    | solid => simp [hl l]
    | dotted => simp [hl l]
    | dashed => simp [hl l]

theorem lines_clean {S : Styles E} (hS : S.NoBreaks) (s : Stmt E) : ∀ x ∈ stmtLines S s, '\n' ∉ x.2 := by
  have hb : ∀ n l, '\n' ∉ inBox n l := by
    intro n l
    simp [inBox, label_clean n l]
  have ha : ∀ n, ∀ x ∈ attrLine n (S.node n).attrs, '\n' ∉ x := by
    intro n x hx
    unfold attrLine at hx
    split at hx
    · cases hx
    · simp only [List.mem_singleton] at hx
      rw [hx]
      simp [id_clean n, hS.node n]
  cases s with
  | leaf n =>
    have ha := ha n
    simp only [stmtLines]
    cases hn : S.node n with
    | hidden => simp [id_clean n]
    | box l => simp [id_clean n, hb n l]
    | boxed l a =>
      rw [hn] at ha
      simp only [List.forall_mem_cons, List.forall_mem_map]
      exact ⟨by simp [id_clean n, hb n l], ha⟩
  | start n =>
    have ha := ha n
    simp only [stmtLines]
    cases hn : S.node n with
    | hidden => simp [id_clean n]
    | box l => simp [id_clean n, hb n l]
    | boxed l a =>
      rw [hn] at ha
      simp only [List.forall_mem_cons, List.forall_mem_map]
      exact ⟨by simp [id_clean n, hb n l], by decide, ha⟩
  | stop => simp [stmtLines]
  | link a =>
    have := edge_clean (hS.edge a.src a.tgt)
    simp [stmtLines, id_clean, this]

theorem linesAt_clean {S : Styles E} (hS : S.NoBreaks) : ∀ (out : List (Stmt E)) (k : Nat), ∀ x ∈ linesAt S k out, '\n' ∉ x.2 := by
  intro out
  induction out with
  | nil => intro k x hx; cases hx
  | cons s out ih =>
    intro k x hx
    simp only [linesAt] at hx
    rcases List.mem_append.1 hx with hx | hx
    · obtain ⟨y, hy, rfl⟩ := List.mem_map.1 hx
      exact lines_clean hS s y hy
    · exact ih _ x hx

theorem pushLine_eq (b : Builder) (s : Text) : b.pushLine s = ⟨b.output ++ joinLines [(b.indent, s)], b.indent⟩ := by
  simp [Builder.pushLine, joinLines]

theorem join_append (a b : List (Nat × Text)) : joinLines (a ++ b) = joinLines a ++ joinLines b := List.flatMap_append

theorem pushAttrs_eq (b : Builder) (n : Nat) (a : Attrs) :
    b.pushAttrs n a = ⟨b.output ++ joinLines ((attrLine n a).map (b.indent, ·)), b.indent⟩ := by
  unfold Builder.pushAttrs attrLine
  split
  · simp [joinLines]
  · rw [pushLine_eq]; rfl

/-- The statements write their lines. -/
theorem write_ok (S : Styles E) : ∀ (out : List (Stmt E)) (t : Text) (b b' : List Nat), blocks out (some b) = some b' →
    Builder.write S out ⟨t, 1 + b.length⟩ = some ⟨t ++ joinLines (linesAt S (1 + b.length) out), 1 + b'.length⟩ := by
  intro out
  induction out with
  | nil => intro t b b' h; cases h; simp [Builder.write, linesAt, joinLines]
  | cons s out ih =>
    intro t b b' h
    cases s with
    | leaf n =>
      have h' : blocks out (some b) = some b' := h
      have e : (⟨t, 1 + b.length⟩ : Builder).addLeaf S n =
          ⟨t ++ joinLines ((stmtLines S (.leaf n)).map fun x => (1 + b.length + x.1, x.2)), 1 + b.length⟩ := by
        simp only [Builder.addLeaf, stmtLines]
        cases S.node n with
        | hidden => simp [pushLine_eq, joinLines]
        | box l => simp [pushLine_eq, joinLines, inBox]
        | boxed l a => simp [pushLine_eq, pushAttrs_eq, joinLines, inBox, List.flatMap_map]
      simp only [Builder.write, Builder.write1, e, linesAt, join_append]
      rw [ih _ _ _ h', List.append_assoc]
    | start n =>
      have h' : blocks out (some (n :: b)) = some b' := h
      have e : (⟨t, 1 + b.length⟩ : Builder).startSubgraph S n =
          ⟨t ++ joinLines ((stmtLines S (.start n)).map fun x => (1 + b.length + x.1, x.2)), 1 + (n :: b).length⟩ := by
        simp only [Builder.startSubgraph, stmtLines]
        cases S.node n with
        | hidden =>
          simp [pushLine_eq, pushAttrs_eq, NodeStyle.attrs, attrLine, Attrs.isEmpty, joinLines, Nat.add_assoc]
        | box l =>
          simp [pushLine_eq, pushAttrs_eq, NodeStyle.attrs, attrLine, Attrs.isEmpty, joinLines, Nat.add_assoc, inBox]
        | boxed l a =>
          simp [pushLine_eq, pushAttrs_eq, NodeStyle.attrs, joinLines, Nat.add_assoc, inBox, List.flatMap_map]
      simp only [Builder.write, Builder.write1, e, linesAt, join_append]
      rw [ih _ _ _ h', List.append_assoc]
      simp [Nat.add_assoc]
    | stop =>
      cases b with
      | nil =>
        have h' : blocks out none = some b' := h
        have : ∀ out : List (Stmt E), blocks out none = none := by
          intro out
          induction out with
          | nil => rfl
          | cons s out ih => cases s <;> exact ih
        rw [this] at h'
        cases h'
      | cons c b =>
        have h' : blocks out (some b) = some b' := h
        have e : (⟨t, 1 + (c :: b).length⟩ : Builder).endSubgraph =
            some ⟨t ++ joinLines ((stmtLines S (.stop)).map fun x => (1 + b.length + x.1, x.2)), 1 + b.length⟩ := by
          have : 1 + (c :: b).length = (1 + b.length) + 1 := by simp; omega
          rw [this]
          simp only [Builder.endSubgraph, pushLine_eq]
          rfl
        have e2 : 1 + (c :: b).length - 1 = 1 + b.length := by simp; omega
        simp only [Builder.write, Builder.write1, e, linesAt, join_append, e2]
        rw [ih _ _ _ h', List.append_assoc]
    | link a =>
      have h' : blocks out (some b) = some b' := h
      obtain ⟨x, hx⟩ := Option.isSome_iff_exists.1 (C51_edge_style (S.edge a.src a.tgt) [] []).2.2.2.2.2.2
      have e : (⟨t, 1 + b.length⟩ : Builder).addLink S a =
          some ⟨t ++ joinLines ((stmtLines S (.link a)).map fun x => (1 + b.length + x.1, x.2)), 1 + b.length⟩ := by
        simp only [Builder.addLink, hx, pushLine_eq, stmtLines]
        rfl
      simp only [Builder.write, Builder.write1, e, linesAt, join_append]
      rw [ih _ _ _ h', List.append_assoc]

/-- **C51** Whatever the labels are: writing statements with balanced subgraphs does not panic, and the lines of
the text are the header and the lines of the statements, indented by the number of open subgraphs. -/
theorem C51_lines (S : Styles E) (hS : S.NoBreaks) {out : List (Stmt E)} (hb : blocks out (some []) = some []) :
    ∃ t, mermaidText S (some out) = some t ∧ splitLines t = "graph LR".toList ::
      (linesAt S 1 out).map (fun x => (List.replicate x.1 "    ".toList).flatten ++ x.2) ++ [[]] := by
  have h1 := write_ok S out Builder.init.output [] [] hb
  refine ⟨Builder.init.output ++ joinLines (linesAt S 1 out), ?_, ?_⟩
  · have h2 : Builder.write S out Builder.init = some ⟨Builder.init.output ++ joinLines (linesAt S 1 out), 1⟩ := h1
    simp [mermaidText, h2]
  · have h2 : Builder.init.output = "graph LR".toList ++ ['\n'] := by decide
    rw [h2, List.append_assoc, List.singleton_append, splitLines_append _ _ (by decide), split_join _ (linesAt_clean hS out 1)]
    rfl

/-- **C51** So the text for every view and hierarchy as in `C44_mermaid_partial` is produced without a panic, and
its number of lines does not depend on the labels: besides the header and the empty end there is one line for
each leaf, link and `end`, two for each subgraph, and one for each node drawn with attributes. -/
theorem C51_line_count {G : GView E} (ok : G.Ok) {h : Hierarchy} (hr : Hier.Reach h)
    (hc : ∀ n c, G.containsNode n = true → h.parent c = some n → G.containsNode c = true)
    {order : Pending E → Pending E} (ho : ∀ es, (order es).Perm es) {fuel : Nat} (hf : 2 * G.nodes.length ≤ fuel)
    (S : Styles E) (hS : S.NoBreaks) :
    ∃ out t, mermaid G (some h) order fuel = some out ∧ mermaidText S (mermaid G (some h) order fuel) = some t ∧
      (splitLines t).length = 2 + out.length + (out.filter fun s => match s with | .start _ => true | _ => false).length +
        (G.nodes.filter fun n => !(S.node n).attrs.isEmpty).length := by
  obtain ⟨out, h1, h2, -⟩ := C44_mermaid_partial ok hr hc ho hf
  obtain ⟨t, h3, h4⟩ := C51_lines S hS h2.closed
  refine ⟨out, t, h1, by rw [h1]; exact h3, ?_⟩
  have hp : (drawn out).Perm G.nodes := (List.perm_ext_iff_of_nodup h2.nodes_nodup ok.nodes_nodup).2 fun n => by
    rw [h2.mem_nodes, ok.mem_nodes]
  rw [← (hp.filter _).length_eq, h4]
  simp only [List.length_append, List.length_cons, List.length_map, List.length_nil]
  have key : ∀ (out : List (Stmt E)) (k : Nat), (linesAt S k out).length = out.length +
      (out.filter fun s => match s with | .start _ => true | _ => false).length +
      ((drawn out).filter fun n => !(S.node n).attrs.isEmpty).length := by
    intro out
    induction out with
    | nil => intro k; rfl
    | cons s out ih =>
      intro k
      simp only [linesAt, List.length_append, List.length_map, ih]
      cases s with
      | leaf n =>
        have e : drawn (Stmt.leaf n :: out) = n :: drawn out := rfl
        rw [e]
        have : (stmtLines S (Stmt.leaf n : Stmt E)).length = 1 + if (S.node n).attrs.isEmpty then 0 else 1 := by
          simp only [stmtLines]
          cases hn : S.node n with
          | boxed l a => by_cases he : a.isEmpty = true <;> simp [attrLine, NodeStyle.attrs, he]
          | _ => rfl
        rw [this]
        simp only [List.filter_cons, List.length_cons]
        cases (S.node n).attrs.isEmpty <;> simp <;> omega
      | start n =>
        have e : drawn (Stmt.start n :: out) = n :: drawn out := rfl
        rw [e]
        have : (stmtLines S (Stmt.start n : Stmt E)).length = 2 + if (S.node n).attrs.isEmpty then 0 else 1 := by
          simp only [stmtLines]
          cases hn : S.node n with
          | boxed l a => by_cases he : a.isEmpty = true <;> simp [attrLine, NodeStyle.attrs, he]
          | _ => rfl
        rw [this]
        simp only [List.filter_cons, List.length_cons]
        cases (S.node n).attrs.isEmpty <;> simp <;> omega
      | stop =>
        have e : drawn (Stmt.stop :: out) = drawn out := rfl
        rw [e]
        simp [stmtLines]; omega
      | link a =>
        have e : drawn (Stmt.link a :: out) = drawn out := rfl
        rw [e]
        simp [stmtLines]; omega
  rw [key]
  omega

/-- The text for the example, with labels that contain quotes and line breaks. -/
def exStyles : Styles Nat where
  node n := if n = 2 then .boxed "two\n\"2\"".toList ⟨some "#f00".toList, none, none, none⟩ else .boxed [] ⟨none, none, none, none⟩
  edge e _ := if e = 0 then EdgeStyle.dotted.withLabel "a\nb".toList else .solid

theorem exStyles_ok : exStyles.NoBreaks where
  edge e f s h := by
    simp only [exStyles] at h
    split at h <;> cases h
  node n := by
    by_cases h : n = 2
    · subst h; decide
    · simp [exStyles, h, NodeStyle.attrs, Attrs.encode]

example : (mermaidText exStyles (mermaid (ofPG Algo.dagG 0 0) (some exH) id 12)).map String.ofList = some
  "graph LR
    subgraph 0 [0]
        direction LR
        1[1]
        subgraph 2 [\"two<br>#quot;2#quot;\"]
            direction LR
            style 2 color:#f00
            5[5]
            4[4]
        end
        3[3]
        0-.\"a<br>b\".->1
        0-->2
        1-->3
        2-->3
        3-->4
    end
" := by decide +kernel

/-! ## Attributes -/

/-- **C51** The attributes are written only if there are some, and then the text is not empty; the setter is read
back for boxed nodes. -/
theorem C51_attrs (a b : Attrs) (l : Text) : (a.isEmpty = true ↔ a.encode = []) ∧
    ((NodeStyle.boxed l a).withAttrs b).attrs = b := by
  refine ⟨?_, rfl⟩
  obtain ⟨c, f, s, w⟩ := a
  cases c <;> cases f <;> cases s <;> cases w <;> simp [Attrs.isEmpty, Attrs.encode, List.intercalate]

/-- The setter does nothing for the other styles. -/
theorem C51_witness_with_attrs : (NodeStyle.box []).withAttrs ⟨some ['r'], none, none, none⟩ = .box [] := rfl

example := C51_lines exStyles exStyles_ok (out := [.start 0, .leaf 1, .start 2, .leaf 5, .stop, .stop]) (by decide +kernel)

end Verif.Render

#print axioms Verif.Render.C51_encode_label
#print axioms Verif.Render.C51_label_shown_partial
#print axioms Verif.Render.C51_witness_collision
#print axioms Verif.Render.C51_edge_style
#print axioms Verif.Render.C51_edge_label
#print axioms Verif.Render.C51_arrow
#print axioms Verif.Render.C51_witness_custom
#print axioms Verif.Render.C51_lines
#print axioms Verif.Render.C51_line_count
#print axioms Verif.Render.C51_attrs
#print axioms Verif.Render.C51_witness_with_attrs
