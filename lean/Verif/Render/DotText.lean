import Verif.Render.Style

/-!
# The text of a dot rendering

Model of `src/render/dot.rs` lines 24–268 and 289–325 and of the styles in `src/render.rs` lines
14–165. A string is the list of its characters. The style functions are taken as functions of their
arguments (`FnMut` could answer differently each time). `none` is a panic of `expect`.
-/

namespace Verif.Render

open Verif (Direction)
open Verif.View Verif.Hier

variable {E : Type}

/-- `PortStyle`, `src/render.rs` lines 130–137. -/
inductive PortStyle where
  | hidden
  | plain (label : Text) (showOffset : Bool)
  | boxed (label : Text) (showOffset : Bool)

/-- The style functions of a `DotFormatter`, `src/render/dot.rs` lines 12–20. -/
structure DotStyles (E : Type) where
  node : Nat → NodeStyle
  port : Nat → PortStyle
  edge : E → E → EdgeStyle

/-- The styles if none are set, `node_style`, `port_style` and `edge_style`, lines 90–111, with
`NodeStyle::boxed` and the defaults of `src/render.rs` lines 94–99, 160–164 and 171. -/
def DotStyles.default : DotStyles E where
  node n := .boxed (idText n) ⟨none, none, none, none⟩
  port _ := .boxed [] true
  edge _ _ := .solid

/-- `with_weights`, lines 67–76, with `PortStyle::new`, `src/render.rs` lines 141–143. The weights are
given by the texts they display. -/
def DotStyles.withWeights (S : DotStyles E) (nodes ports : Nat → Text) : DotStyles E where
  node n := .boxed (nodes n) ⟨none, none, none, none⟩
  port p := .boxed (ports p) true
  edge := S.edge

/-- `encode_presentation_attrs`, lines 309–325. -/
def Attrs.encodeDot (a : Attrs) : Text :=
  ([a.color.map fun v => "fontcolor=\"".toList ++ v ++ "\" ".toList,
    a.fill.map fun v => "fillcolor=\"".toList ++ v ++ "\" ".toList,
    a.stroke.map fun v => "color=\"".toList ++ v ++ "\" ".toList,
    a.strokeWidth.map fun v => "penwidth=\"".toList ++ v ++ "\" ".toList].filterMap id).flatten

/-- `PortCellStrings`, lines 299–306. -/
structure PortCell where
  id : Text
  style : Text
  label : Text

/-- The direction in the id of a cell, lines 169–172. -/
def dirText : Direction → Text
  | .incoming => "in".toList
  | .outgoing => "out".toList

/-- `make_label`, lines 173–178. -/
def makeLabel (offset : Nat) : Bool → Text → Text
  | false, label => label
  | true, [] => idText offset
  | true, label => idText offset ++ ": ".toList ++ label

/-- The closure in `get_port_strings`, lines 183–194, for a port with its offset. -/
def portCell (S : DotStyles E) (d : Direction) (x : Nat × Nat) : Option PortCell :=
  match S.port x.1 with
  | .hidden => none
  | .plain l b => some ⟨dirText d ++ idText x.2, "border=\"0\"".toList, makeLabel x.2 b l⟩
  | .boxed l b => some ⟨dirText d ++ idText x.2, [], makeLabel x.2 b l⟩

/-- `get_port_strings`, lines 168–196. -/
def portCells (G : GView E) (S : DotStyles E) (n : Nat) (d : Direction) : List PortCell :=
  (G.ports n d).zipIdx.filterMap (portCell S d)

/-- `get_ports_row_dot`, lines 204–216. -/
def portsRow (ports : List PortCell) (numOthers : Nat) : Text :=
  if ports.isEmpty then []
  else "<tr>".toList ++ (ports.flatMap fun c => "<td port=\"".toList ++ c.id ++ "\" align=\"text\" colspan=\"".toList ++
    idText numOthers ++ "\" cellpadding=\"1\" ".toList ++ c.style ++ ">".toList ++ c.label ++ "</td>".toList) ++ "</tr>".toList

/-- The statement of a node, lines 127–152. -/
def nodeText (G : GView E) (S : DotStyles E) (n : Nat) (label : Text) (attrs : Attrs) : Text :=
  let ins := portCells G S n .incoming
  let outs := portCells G S n .outgoing
  let insLen := max ins.length 1
  let outsLen := max outs.length 1
  idText n ++ " [shape=plain ".toList ++ attrs.encodeDot ++ "label=<".toList ++ "<table border=\"1\">".toList ++
    portsRow ins outsLen ++
    ("<tr><td align=\"text\" border=\"0\" colspan=\"".toList ++ idText (insLen * outsLen) ++ "\">".toList ++ label ++
      "</td></tr>".toList) ++
    portsRow outs insLen ++ "</table>".toList ++ ">]\n".toList

/-- `get_edge_dot`, lines 219–237. -/
def edgeText (G : GView E) (S : DotStyles E) (n : Nat) (l : E × E) : Option Text :=
  match G.portOffset (G.toPort l.1), G.portNode (G.toPort l.2), G.portOffset (G.toPort l.2) with
  | some (_, i), some m, some (_, j) =>
    some (idText n ++ ":out".toList ++ idText i ++ " -> ".toList ++ idText m ++ ":in".toList ++ idText j ++
      " [style=\"".toList ++ (S.edge l.1 l.2).asDot ++ "\"]\n".toList)
  | _, _, _ => none

/-- The node with its edges, the body of the loop in lines 115–163; a hidden node is skipped. -/
def nodeBlock (G : GView E) (S : DotStyles E) (n : Nat) : Option Text :=
  let edges := ((G.ports n .outgoing).flatMap G.portLinks).mapM (edgeText G S n)
  match S.node n with
  | .hidden => some []
  | .boxed label attrs => edges.map fun es => nodeText G S n label attrs ++ es.flatten
  | .box label => edges.map fun es => nodeText G S n label ⟨none, none, none, none⟩ ++ es.flatten

/-- `hierarchy_strings`, lines 239–268, for one node. -/
def hierBlock (G : GView E) (h : Hierarchy) (n : Nat) : Text :=
  ("hier".toList ++ idText n ++ " [shape=plain label=\"".toList ++ idText n ++ "\"]\n".toList) ++
  ((h.kids n).filter G.containsNode).flatMap fun c =>
    "hier".toList ++ idText n ++ " -> ".toList ++ ("hier".toList ++ idText c) ++ "  [style = \"dashed\"] \n".toList

/-- `DotFormatter::finish`, lines 78–87. -/
def dotText (G : GView E) (S : DotStyles E) (forest : Option Hierarchy) : Option Text :=
  match G.nodes.mapM (nodeBlock G S) with
  | none => none
  | some bs => some ("digraph {\n".toList ++ bs.flatten ++
      (match forest with
        | none => []
        | some h => G.nodes.flatMap (hierBlock G h)) ++ "}\n".toList)

end Verif.Render
