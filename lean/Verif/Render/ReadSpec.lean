import Verif.Render.DotTextSpec

/-!
# Reading mermaid text

A reader for the text of a mermaid graph. It knows nothing of the graph and the styles, only of
lines, numbers and brackets.
-/

namespace Verif.Render

open Verif.View

variable {E E' : Type}

/-- What a line says: a node with the text in its box (none if it is hidden), the begin of a subgraph, its
end, an arrow, or something else (direction and colours). -/
inductive MLine where
  | leaf (n : Nat) (box : Option Text)
  | start (n : Nat) (box : Option Text)
  | stop
  | link (src : Nat) (arrow : Text) (tgt : Nat)
  | note
deriving DecidableEq

/-- An arrow, after the number of its source: the last digits are the target. -/
def readArrow (a : Nat) (t : Text) : Option MLine :=
  (number (t.reverse.takeWhile Char.isDigit).reverse).map fun y => .link a (t.reverse.dropWhile Char.isDigit).reverse y.1

/-- A line that starts with a number. -/
def readPlain (t : Text) : Option MLine :=
  (number t).bind fun x =>
    if x.2 = ":::hidden".toList then some (.leaf x.1 none)
    else
      match after "[".toList x.2 with
      | some r => some (.leaf x.1 (some r.dropLast))
      | none => readArrow x.1 x.2

/-- A line without the spaces in front. -/
def readM (t : Text) : Option MLine :=
  if t = "end".toList then some .stop
  else if t = "direction LR".toList then some .note
  else if (after "style ".toList t).isSome then some .note
  else
    match after "subgraph ".toList t with
    | some r => (number r).bind fun x => (after " [".toList x.2).map fun r =>
        .start x.1 (if r = " ]".toList then none else some r.dropLast)
    | none => readPlain t

/-- A text: the first line, then lines with spaces in front, then the end of the last line. -/
def readMermaid (t : Text) : Option (List MLine) :=
  match splitLines t with
  | l :: ls =>
    if l = "graph LR".toList then
      ((ls.dropLast.map fun l => readM (l.dropWhile (· == ' '))).mapM id).map fun r => r.filter (· ≠ .note)
    else none
  | [] => none

/-- The text in the box of a node, if it is shown. -/
def boxOf (S : Styles E) (n : Nat) : Option Text :=
  match S.node n with
  | .hidden => none
  | .box l => some (encodeLabel (idText n) l)
  | .boxed l _ => some (encodeLabel (idText n) l)

/-- What should be read for a statement. -/
def said (S : Styles E) : Stmt E → MLine
  | .leaf n => .leaf n (boxOf S n)
  | .start n => .start n (boxOf S n)
  | .stop => .stop
  | .link a => .link a.srcNode ((S.edge a.src a.tgt).asMermaid.getD []) a.tgtNode

/-- The styles the user gives have no line breaks outside of labels and no text of their own for arrows. -/
structure Styles.Clean (S : Styles E) : Prop where
  noBreaks : S.NoBreaks
  noCustom : ∀ e f s, (S.edge e f).stripLabel ≠ .custom s

/-- The label of a node that is not hidden. -/
def NodeStyle.label? : NodeStyle → Option Text
  | .hidden => none
  | .box l => some l
  | .boxed l _ => some l

/-- What two texts that are equal have in common: the nodes, the shown labels, the parents, and for every two nodes
and every kind of arrow the number of links. -/
structure SameDrawing (G : GView E) (G' : GView E') (S : Styles E) (S' : Styles E') (par par' : Nat → Option Nat) : Prop where
  nodes : ∀ n, G.containsNode n = true ↔ G'.containsNode n = true
  label : ∀ n, G.containsNode n = true → (∀ l, (S.node n).label? = some l → '#' ∉ l ∧ '<' ∉ l) →
    (∀ l, (S'.node n).label? = some l → '#' ∉ l ∧ '<' ∉ l) → (S.node n).label? = (S'.node n).label?
  parent : ∀ n, G.containsNode n = true → (par n).filter G.containsNode = (par' n).filter G'.containsNode
  links : ∀ (a b : Nat) (t : Text) (l : List (Arrow E)) (l' : List (Arrow E')), l.Nodup → l'.Nodup →
    (∀ x, x ∈ l ↔ IsArrow G x ∧ x.srcNode = a ∧ x.tgtNode = b ∧ (S.edge x.src x.tgt).asMermaid = some t) →
    (∀ x, x ∈ l' ↔ IsArrow G' x ∧ x.srcNode = a ∧ x.tgtNode = b ∧ (S'.edge x.src x.tgt).asMermaid = some t) →
    l.length = l'.length

end Verif.Render
