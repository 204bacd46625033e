import Verif.Render.Style
import Verif.Render.Spec

/-!
# What the text of a rendering should be
-/

namespace Verif.Render

variable {E : Type}

/-- The lines of a text. -/
def splitLines : Text → List Text
  | [] => [[]]
  | c :: t =>
    if c = '\n' then [] :: splitLines t
    else
      match splitLines t with
      | [] => [[c]]
      | l :: ls => (c :: l) :: ls

/-- What mermaid shows for the text between quotes: `#quot;` is a quote and `<br>` a new line. -/
inductive Shown : Text → Text → Prop
  | nil : Shown [] []
  | quot {t l} : Shown t l → Shown ('#' :: 'q' :: 'u' :: 'o' :: 't' :: ';' :: t) ('"' :: l)
  | br {t l} : Shown t l → Shown ('<' :: 'b' :: 'r' :: '>' :: t) ('\n' :: l)
  | char {c t l} : c ≠ '#' → c ≠ '<' → c ≠ '"' → c ≠ '\n' → Shown t l → Shown (c :: t) (c :: l)

/-- The outermost label of a style. -/
def EdgeStyle.label : EdgeStyle → Option Text
  | .labelled l _ => some l
  | _ => none

/-- The text in the box of a node: its id if the label is empty, else the label in quotes. -/
def inBox (n : Nat) (l : Text) : Text := "[".toList ++ encodeLabel (idText n) l ++ "]".toList

/-- The line of the attributes, if there are any. -/
def attrLine (n : Nat) (a : Attrs) : List Text := if a.isEmpty then [] else ["style ".toList ++ idText n ++ " ".toList ++ a.encode]

/-- The lines of a statement, each with its depth relative to the place of the statement. -/
def stmtLines (S : Styles E) : Stmt E → List (Nat × Text)
  | .leaf n =>
    (match S.node n with
      | .hidden => [(0, idText n ++ ":::hidden".toList)]
      | .box l => [(0, idText n ++ inBox n l)]
      | .boxed l a => (0, idText n ++ inBox n l) :: (attrLine n a).map (0, ·))
  | .start n =>
    (match S.node n with
      | .hidden => [(0, "subgraph ".toList ++ idText n ++ " [ ]".toList), (1, "direction LR".toList)]
      | .box l => [(0, "subgraph ".toList ++ idText n ++ " ".toList ++ inBox n l), (1, "direction LR".toList)]
      | .boxed l a => (0, "subgraph ".toList ++ idText n ++ " ".toList ++ inBox n l) :: (1, "direction LR".toList) ::
          (attrLine n a).map (1, ·))
  | .stop => [(0, "end".toList)]
  | .link a => [(0, idText a.srcNode ++ ((S.edge a.src a.tgt).asMermaid.getD []) ++ idText a.tgtNode)]

/-- The lines of the statements: the depth is the number of open subgraphs, and `end` stands where its subgraph
began. -/
def linesAt (S : Styles E) : Nat → List (Stmt E) → List (Nat × Text)
  | _, [] => []
  | k, s :: ss =>
    let here := match s with | .stop => k - 1 | _ => k
    let next := match s with | .start _ => k + 1 | .stop => k - 1 | _ => k
    (stmtLines S s).map (fun x => (here + x.1, x.2)) ++ linesAt S next ss

/-- The styles the user gives contain no line breaks, except in labels. -/
structure Styles.NoBreaks (S : Styles E) : Prop where
  edge : ∀ e f s, (S.edge e f).stripLabel = .custom s → '\n' ∉ s
  node : ∀ n, '\n' ∉ (S.node n).attrs.encode

end Verif.Render
