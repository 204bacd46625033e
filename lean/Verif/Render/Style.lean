import Verif.Render.Model

/-!
# The text of a mermaid rendering

Model of `src/render.rs` lines 14–232 and of `src/render/mermaid.rs` lines 261–446. A string is the
list of its characters. `none` is a panic: `unreachable!` or the underflow of the indentation.
-/

namespace Verif.Render

variable {E : Type}

abbrev Text := List Char

/-- `NodeIndex::index().to_string()`. -/
def idText (n : Nat) : Text := Nat.toDigits 10 n

/-- `str::replace` of a character. -/
def replaceChar (c : Char) (by' : Text) (s : Text) : Text := s.flatMap fun x => if x = c then by' else [x]

/-- `encode_label`, `src/render/mermaid.rs` lines 422–427. -/
def encodeLabel (id label : Text) : Text :=
  if label.isEmpty then id
  else '"' :: replaceChar '\n' "<br>".toList (replaceChar '"' "#quot;".toList label) ++ ['"']

/-- `PresentationStyle`, `src/render.rs` lines 14–38. -/
structure Attrs where
  color : Option Text
  fill : Option Text
  stroke : Option Text
  strokeWidth : Option Text

/-- `PresentationStyle::is_empty`, lines 52–57. -/
def Attrs.isEmpty (a : Attrs) : Bool := a.color.isNone && a.fill.isNone && a.stroke.isNone && a.strokeWidth.isNone

/-- `encode_presentation_attrs`, `src/render/mermaid.rs` lines 430–445. -/
def Attrs.encode (a : Attrs) : Text :=
  [',' ].intercalate ([a.color.map ("color:".toList ++ ·), a.fill.map ("fill:".toList ++ ·),
    a.stroke.map ("stroke:".toList ++ ·), a.strokeWidth.map ("stroke-width:".toList ++ ·)].filterMap id)

/-- `NodeStyle`, `src/render.rs` lines 65–81. -/
inductive NodeStyle where
  | hidden
  | box (label : Text)
  | boxed (label : Text) (attrs : Attrs)

/-- `NodeStyle::attrs`, lines 112–118. -/
def NodeStyle.attrs : NodeStyle → Attrs
  | .boxed _ a => a
  | _ => ⟨none, none, none, none⟩

/-- `NodeStyle::with_attrs`, lines 104–109. -/
def NodeStyle.withAttrs : NodeStyle → Attrs → NodeStyle
  | .boxed l _, a => .boxed l a
  | s, _ => s

/-- `EdgeStyle`, lines 168–182. -/
inductive EdgeStyle where
  | solid
  | dotted
  | dashed
  | labelled (label : Text) (e : EdgeStyle)
  | custom (s : Text)
deriving DecidableEq

namespace EdgeStyle

/-- `with_label`, lines 188–193. -/
def withLabel : EdgeStyle → Text → EdgeStyle
  | .labelled _ e, l => .labelled l e
  | e, l => .labelled l e

/-- `strip_label`, lines 196–201. -/
def stripLabel : EdgeStyle → EdgeStyle
  | .labelled _ e => e.stripLabel
  | e => e

/-- `as_dot_str`, lines 204–213. -/
def asDot : EdgeStyle → Text
  | .solid => []
  | .dotted => "dotted".toList
  | .dashed => "dashed".toList
  | .custom s => s
  | .labelled _ e => e.asDot

/-- `as_mermaid_str`, lines 216–236. -/
def asMermaid : EdgeStyle → Option Text
  | .solid => some "-->".toList
  | .dotted => some "-.->".toList
  | .dashed => some "-.->".toList
  | .custom s => some s
  | .labelled l e =>
    let l := encodeLabel [] l
    match e.stripLabel with
    | .solid => some ("--".toList ++ l ++ "-->".toList)
    | .dotted => some ("-.".toList ++ l ++ ".->".toList)
    | .dashed => some ("-.".toList ++ l ++ ".->".toList)
    | .custom s => some s
    | .labelled _ _ => none

end EdgeStyle

/-- `MermaidBuilder`, `src/render/mermaid.rs` lines 265–276, without the style functions. -/
structure Builder where
  output : Text
  indent : Nat

/-- The functions of the builder for a choice of styles, lines 272–275. -/
structure Styles (E : Type) where
  node : Nat → NodeStyle
  edge : E → E → EdgeStyle

namespace Builder

/-- `init`, lines 281–291. -/
def init : Builder := ⟨"graph LR\n".toList, 1⟩

/-- `push_line` and `push_strings`, lines 295–319. -/
def pushLine (b : Builder) (s : Text) : Builder :=
  ⟨b.output ++ (List.replicate b.indent "    ".toList).flatten ++ s ++ ['\n'], b.indent⟩

/-- The line with the attributes, lines 337–344 and 377–384. -/
def pushAttrs (b : Builder) (n : Nat) (a : Attrs) : Builder :=
  if a.isEmpty then b else b.pushLine ("style ".toList ++ idText n ++ " ".toList ++ a.encode)

/-- `add_leaf`, lines 322–347. -/
def addLeaf (b : Builder) (S : Styles E) (n : Nat) : Builder :=
  match S.node n with
  | .hidden => b.pushLine (idText n ++ ":::hidden".toList)
  | .box l => b.pushLine (idText n ++ "[".toList ++ encodeLabel (idText n) l ++ "]".toList)
  | .boxed l a => (b.pushLine (idText n ++ "[".toList ++ encodeLabel (idText n) l ++ "]".toList)).pushAttrs n a

/-- `start_subgraph`, lines 353–385. -/
def startSubgraph (b : Builder) (S : Styles E) (n : Nat) : Builder :=
  let b := match S.node n with
    | .hidden => b.pushLine ("subgraph ".toList ++ idText n ++ " [ ]".toList)
    | .boxed l _ => b.pushLine ("subgraph ".toList ++ idText n ++ " [".toList ++ encodeLabel (idText n) l ++ "]".toList)
    | .box l => b.pushLine ("subgraph ".toList ++ idText n ++ " [".toList ++ encodeLabel (idText n) l ++ "]".toList)
  let b : Builder := { b with indent := b.indent + 1 }
  (b.pushLine "direction LR".toList).pushAttrs n (S.node n).attrs

/-- `end_subgraph`, lines 388–391. -/
def endSubgraph (b : Builder) : Option Builder :=
  match b.indent with
  | 0 => none
  | i + 1 => some ((⟨b.output, i⟩ : Builder).pushLine "end".toList)

/-- `add_link`, lines 394–408. -/
def addLink (b : Builder) (S : Styles E) (a : Arrow E) : Option Builder :=
  match (S.edge a.src a.tgt).asMermaid with
  | none => none
  | some s => some (b.pushLine (idText a.srcNode ++ s ++ idText a.tgtNode))

/-- One call. -/
def write1 (b : Builder) (S : Styles E) : Stmt E → Option Builder
  | .leaf n => some (b.addLeaf S n)
  | .start n => some (b.startSubgraph S n)
  | .stop => b.endSubgraph
  | .link a => b.addLink S a

/-- The calls in order. -/
def write (S : Styles E) : List (Stmt E) → Builder → Option Builder
  | [], b => some b
  | s :: ss, b =>
    match b.write1 S s with
    | none => none
    | some b => write S ss b

end Builder

/-- `MermaidFormatter::finish`, lines 95–102, with the text. -/
def mermaidText (S : Styles E) (stmts : Option (List (Stmt E))) : Option Text :=
  stmts.bind fun out => (Builder.write S out Builder.init).map (·.output)

end Verif.Render
