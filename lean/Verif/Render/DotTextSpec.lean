import Verif.Render.DotText
import Verif.Render.StyleSpec

/-!
# Reading dot text

A reader for the lines of a dot text. It knows nothing of the graph. A line for a node gives its
attributes and the tags of its table. A tag `<td …>` is read as a cell: the name of the port if it has
one, the number of columns, whether it asks for no border, and the text up to the next tag.
-/

namespace Verif.Render

open Verif (Direction)
open Verif.View Verif.Hier

variable {E : Type}

/-- The rest of the text after a prefix. -/
def after (p t : Text) : Option Text := if p.isPrefixOf t then some (t.drop p.length) else none

/-- The rest after the first occurrence. -/
def find (p : Text) : Text → Option Text
  | [] => after p []
  | c :: t => (after p (c :: t)).or (find p t)

/-- A decimal number, and the rest. -/
def number (t : Text) : Option (Nat × Text) :=
  if (t.takeWhile Char.isDigit).isEmpty then none
  else some ((t.takeWhile Char.isDigit).foldl (fun a c => 10 * a + (c.toNat - 48)) 0, t.dropWhile Char.isDigit)

/-- The text up to a character. -/
def upto (c : Char) (t : Text) : Text := t.takeWhile (· != c)

/-- The text after a character. -/
def past (c : Char) (t : Text) : Text := (t.dropWhile (· != c)).drop 1

/-- A cell of a table. -/
structure Cell where
  port : Option (Direction × Nat)
  span : Nat
  plain : Bool
  label : Text
deriving DecidableEq

/-- A tag. -/
inductive Tag where
  | cell (c : Cell)
  | other (t : Text)
deriving DecidableEq

/-- The name of a port. -/
def portName (t : Text) : Option (Direction × Nat) :=
  ((after "in".toList t).bind fun r => (number r).map fun x => (.incoming, x.1)).or
    ((after "out".toList t).bind fun r => (number r).map fun x => (.outgoing, x.1))

/-- A cell with the given attributes. -/
def readCell (attrs label : Text) : Option Cell :=
  ((find "colspan=\"".toList attrs).bind number).bind fun k =>
    let plain := (find " border=\"0\"".toList attrs).isSome
    match find "port=\"".toList attrs with
    | none => some ⟨none, k.1, plain, label⟩
    | some r => (portName (upto '"' r)).map fun p => ⟨some p, k.1, plain, label⟩

/-- A tag, after its `<`. -/
def readTag (t : Text) : Tag :=
  match (after "td".toList (upto '>' t)).bind fun a => readCell a (upto '<' (past '>' t)) with
  | some c => .cell c
  | none => .other (upto '>' t)

/-- All tags. -/
def readTags : Text → List Tag
  | [] => []
  | c :: t => if c = '<' then readTag t :: readTags t else readTags t

/-- An attribute with its value in quotes and a space, if it comes next. -/
def attr (name t : Text) : Option Text × Text :=
  match after (name ++ "=\"".toList) t with
  | none => (none, t)
  | some r => (some (upto '"' r), (past '"' r).drop 1)

/-- What a line says. -/
inductive Line where
  | node (n : Nat) (attrs : Attrs) (tags : List Tag)
  | edge (src srcOff tgt tgtOff : Nat) (style : Text)
  | tree (n : Nat) (label : Text)
  | child (parent child : Nat) (style : Text)

/-- A line for a node, after its number. -/
def readNode (n : Nat) (t : Text) : Option Line :=
  (after " [shape=plain ".toList t).bind fun t =>
    let a := attr "fontcolor".toList t
    let b := attr "fillcolor".toList a.2
    let c := attr "color".toList b.2
    let d := attr "penwidth".toList c.2
    (after "label=<".toList d.2).bind fun t =>
      if ">]".toList.isSuffixOf t then some (.node n ⟨a.1, b.1, c.1, d.1⟩ (readTags t)) else none

/-- A line for an edge, after the number of the node. -/
def readEdge (a : Nat) (t : Text) : Option Line :=
  (after ":out".toList t).bind fun t => (number t).bind fun x =>
    (after " -> ".toList x.2).bind fun t => (number t).bind fun y =>
      (after ":in".toList y.2).bind fun t => (number t).bind fun z =>
        (after " [style=\"".toList z.2).bind fun t =>
          if past '"' t = "]".toList then some (.edge a x.1 y.1 z.1 (upto '"' t)) else none

/-- A line of the hierarchy, after `hier` and the number. -/
def readTree (a : Nat) (t : Text) : Option Line :=
  ((after " [shape=plain label=\"".toList t).bind fun t =>
      if past '"' t = "]".toList then some (.tree a (upto '"' t)) else none).or
    ((after " -> hier".toList t).bind fun t => (number t).bind fun x =>
      (after "  [style = \"".toList x.2).bind fun t =>
        if past '"' t = "] ".toList then some (.child a x.1 (upto '"' t)) else none)

/-- A line. -/
def readLine (t : Text) : Option Line :=
  match after "hier".toList t with
  | some t => (number t).bind fun x => readTree x.1 x.2
  | none => (number t).bind fun x => (readNode x.1 x.2).or (readEdge x.1 x.2)

/-! ## What should be drawn -/

/-- The things to be drawn. -/
inductive Item (E : Type) where
  | node (n : Nat)
  | link (e f : E)
  | tree (n : Nat)
  | child (p c : Nat)

/-- Is the node shown? -/
def NodeStyle.shown : NodeStyle → Bool
  | .hidden => false
  | _ => true

/-- The label of a node. -/
def NodeStyle.label : NodeStyle → Text
  | .hidden => []
  | .box l => l
  | .boxed l _ => l

/-- How a port is shown: its label, whether the offset is shown, whether it has no border. Hidden ports are not shown. -/
def PortStyle.look : PortStyle → Option (Text × Bool × Bool)
  | .hidden => none
  | .plain l b => some (l, b, true)
  | .boxed l b => some (l, b, false)

/-- The nodes that are not hidden, each followed by the links that leave it; then the hierarchy. -/
def items (G : GView E) (S : DotStyles E) (forest : Option Hierarchy) : List (Item E) :=
  ((G.nodes.filter fun n => (S.node n).shown).flatMap fun n => .node n :: (G.links n .outgoing).map fun l => .link l.1 l.2) ++
    match forest with
    | none => []
    | some h => G.nodes.flatMap fun n => .tree n :: ((h.kids n).filter G.containsNode).map (.child n)

/-- The cells of the shown ports: each port by its direction and offset, in order, with its label. -/
structure ShowsRow (G : GView E) (S : DotStyles E) (n : Nat) (d : Direction) (width : Nat) (row : List Cell) : Prop where
  span : ∀ c ∈ row, c.span = width
  sorted : row.Pairwise fun a b => ∀ i j, a.port = some (d, i) → b.port = some (d, j) → i < j
  named : ∀ c ∈ row, ∃ k p l b, c.port = some (d, k) ∧ (G.ports n d)[k]? = some p ∧ (S.port p).look = some (l, b, c.plain) ∧
    c.label = (if b then (if l = [] then idText k else idText k ++ ": ".toList ++ l) else l)
  all : ∀ (k p : Nat), (G.ports n d)[k]? = some p → (S.port p).look ≠ none → ∃ c ∈ row, c.port = some (d, k)

/-- A row of a table with its tags, or nothing. -/
def rowTags (row : List Cell) : List Tag :=
  if row = [] then [] else [.other "tr".toList] ++ (row.flatMap fun c => [.cell c, .other "/td".toList]) ++ [.other "/tr".toList]

/-- The line says what should be drawn. The table of a node has a row for the incoming ports, one for
the label, and one for the outgoing ports, all of the same width. -/
def Says (G : GView E) (S : DotStyles E) : Item E → Line → Prop
  | .node n, .node m attrs tags => m = n ∧ attrs = (S.node n).attrs ∧ ∃ ins w outs,
      tags = [.other "table border=\"1\"".toList] ++ rowTags ins ++ rowTags [⟨none, w, true, (S.node n).label⟩] ++ rowTags outs ++
        [.other "/table".toList] ∧
      ShowsRow G S n .incoming (max outs.length 1) ins ∧ ShowsRow G S n .outgoing (max ins.length 1) outs ∧
      (ins ≠ [] → (ins.map (·.span)).sum = w) ∧ (outs ≠ [] → (outs.map (·.span)).sum = w) ∧ (ins = [] → outs = [] → w = 1)
  | .link e f, .edge a i b j s => G.On e a ∧ G.portOffset (G.toPort e) = some (.outgoing, i) ∧ G.On f b ∧
      G.portOffset (G.toPort f) = some (.incoming, j) ∧ s = (S.edge e f).asDot
  | .tree n, .tree m l => m = n ∧ l = idText n
  | .child p c, .child p' c' s => p' = p ∧ c' = c ∧ s = "dashed".toList
  | _, _ => False

/-- The texts given by the user contain no markup: no tags and line breaks in labels, and no quotes
and line breaks in attributes and edge styles. -/
structure DotStyles.Clean (S : DotStyles E) : Prop where
  label : ∀ n, '<' ∉ (S.node n).label ∧ '\n' ∉ (S.node n).label
  port : ∀ p l b c, (S.port p).look = some (l, b, c) → '<' ∉ l ∧ '\n' ∉ l
  attrs : ∀ n v, (S.node n).attrs.color = some v ∨ (S.node n).attrs.fill = some v ∨ (S.node n).attrs.stroke = some v ∨
    (S.node n).attrs.strokeWidth = some v → '"' ∉ v ∧ '\n' ∉ v
  edge : ∀ e f, '"' ∉ (S.edge e f).asDot ∧ '\n' ∉ (S.edge e f).asDot

/-- Nothing is hidden. -/
structure DotStyles.Full (S : DotStyles E) : Prop where
  node : ∀ n, S.node n ≠ .hidden
  port : ∀ p, S.port p ≠ .hidden

/-- There is a link between the two positions. -/
def Joined (G : GView E) (a i b j : Nat) : Prop := ∃ e f, G.Shows e f ∧ G.On e a ∧ G.portOffset (G.toPort e) = some (.outgoing, i) ∧
  G.On f b ∧ G.portOffset (G.toPort f) = some (.incoming, j)

/-- The cells of the ports of one direction, when each port shows its offset and the given text. -/
def weightRow (G : GView E) (ports : Nat → Text) (n : Nat) (d : Direction) (width : Nat) : List Cell :=
  (G.ports n d).zipIdx.map fun x =>
    ⟨some (d, x.2), width, false, if ports x.1 = [] then idText x.2 else idText x.2 ++ ": ".toList ++ ports x.1⟩

/-- What the line of a node should be, when the nodes and ports show the given texts. -/
def weightLine (G : GView E) (nodes ports : Nat → Text) (n : Nat) : Line :=
  let i := max (G.ports n .incoming).length 1
  let o := max (G.ports n .outgoing).length 1
  .node n ⟨none, none, none, none⟩ ([.other "table border=\"1\"".toList] ++ rowTags (weightRow G ports n .incoming o) ++
    rowTags [⟨none, i * o, true, nodes n⟩] ++ rowTags (weightRow G ports n .outgoing i) ++ [.other "/table".toList])

/-- What the lines should be, when the nodes and ports show the given texts and the edges the given styles. -/
def weightSays (G : GView E) (nodes ports : Nat → Text) (style : E → E → Text) : Item E → Line → Prop
  | .node n, L => L = weightLine G nodes ports n
  | .link e f, L => ∃ a i b j, L = .edge a i b j (style e f) ∧ G.On e a ∧ G.portOffset (G.toPort e) = some (.outgoing, i) ∧
      G.On f b ∧ G.portOffset (G.toPort f) = some (.incoming, j)
  | .tree n, L => L = .tree n (idText n)
  | .child p c, L => L = .child p c "dashed".toList

/-- All nodes with their links, and the hierarchy. -/
def allItems (G : GView E) (forest : Option Hierarchy) : List (Item E) :=
  (G.nodes.flatMap fun n => .node n :: (G.links n .outgoing).map fun l => .link l.1 l.2) ++
    match forest with
    | none => []
    | some h => G.nodes.flatMap fun n => .tree n :: ((h.kids n).filter G.containsNode).map (.child n)

end Verif.Render
