import Verif.Conform.Algo
import Verif.Render.DotText

/-!
# The snapshot tests of `src/render.rs`, lines 195–end

The texts are those of the files `src/snapshots/portgraph__render__test__*.snap`.
-/

namespace Verif.Conform

open Verif (Direction)
open Verif.PG Verif.View Verif.Hier Verif.Render

/-- Nodes pushed as last children. -/
def tree (l : List (Nat × Nat)) : Option Hierarchy := l.foldlM (fun h x => ok (h.pushChild x.1 x.2)) Hierarchy.new

/-- `NodeStyle::default` and `EdgeStyle::default`, the styles of a `MermaidFormatter` if none are set. -/
def plainStyles : Styles Nat := ⟨fun _ => .boxed [] ⟨none, none, none, none⟩, fun _ _ => .solid⟩

/-- `mermaid_format()..finish()`. -/
def mermaidOf (G : GView Nat) (h : Option Hierarchy) (S : Styles Nat) : Option Text := mermaidText S (mermaid G h id 100)

/-- Whether two texts are the same. -/
def agree : Text → Text → Bool
  | [], [] => true
  | c :: s, d :: t => c.toNat == d.toNat && agree s t
  | _, _ => false

/-- `insta::assert_snapshot!`; the text of the file is cut into pieces. -/
def snapshot (t : Text) (file : List String) : Option Unit := assert (agree t (file.flatMap String.toList))

/-- `flat_graph`. -/
def flatGraph : Option PG := make [(3, 2), (1, 0), (1, 0)] [(0, 0, 1, 0), (0, 1, 2, 0)]

/-- `hierarchy_graph`. -/
def hierGraph : Option (PG × Hierarchy) := do
  some (← make [(3, 2), (0, 1), (1, 0)] [(1, 0, 2, 0)], ← tree [(1, 0), (2, 0)])

/-- The `node_style` of `hierarchy_graph`. -/
def hierStyle (n : Nat) : NodeStyle :=
  if n = 0 then .boxed "root".toList ⟨some "#f00".toList, some "#0f0".toList, some "#00f".toList, some "4px".toList⟩
  else .boxed (idText n) ⟨none, none, none, none⟩

/-- `hierarchy_interregional_graph`. -/
def interGraph : Option (PG × Hierarchy) := do
  some (← make [(3, 2), (0, 1), (1, 0), (1, 1), (1, 1)] [(1, 0, 2, 0), (3, 0, 4, 0)], ← tree [(1, 0), (2, 0), (3, 1), (4, 2)])

/-- `weighted_graph`. -/
def weightedGraph : Option PG := make [(0, 2), (1, 0), (1, 0)] [(0, 0, 1, 0), (0, 1, 2, 0)]

/-- The weights of `weighted_graph`. -/
def nodeWeights (n : Nat) : Text := (["node1", "node2", "node3"].getD n "").toList
def portWeights (p : Nat) : Text := (["out 0", "out 1", "in 0", "in 0"].getD p "").toList

/-- `region_view`. -/
def regionView : Option (GView Nat × Hierarchy) := do
  let g ← make [(42, 0), (1, 0), (1, 2), (0, 0), (0, 0)] [(2, 0, 0, 0), (2, 1, 1, 0)]
  let h ← tree [(1, 0), (2, 1), (3, 1), (4, 3)]
  some (← region (view g) h 1, h)

/-- `flat__dot.snap`. -/
def flatDot : Option Unit := do
  let g ← flatGraph
  snapshot (← dotText (view g) DotStyles.default none)
    ["digraph {\n",
     "0 [shape=plain label=<<table border=\"1\"><tr>",
     "<td port=\"in0\" align=\"text\" colspan=\"2\" cellpadding=\"1\" ",
     ">0</td><td port=\"in1\" align=\"text\" colspan=\"2\" ",
     "cellpadding=\"1\" >1</td>",
     "<td port=\"in2\" align=\"text\" colspan=\"2\" cellpadding=\"1\" ",
     ">2</td></tr><tr>",
     "<td align=\"text\" border=\"0\" colspan=\"6\">0</td></tr><tr>",
     "<td port=\"out0\" align=\"text\" colspan=\"3\" cellpadding=\"1\" ",
     ">0</td><td port=\"out1\" align=\"text\" colspan=\"3\" ",
     "cellpadding=\"1\" >1</td></tr></table>>]\n",
     "0:out0 -> 1:in0 [style=\"\"]\n",
     "0:out1 -> 2:in0 [style=\"\"]\n",
     "1 [shape=plain label=<<table border=\"1\"><tr>",
     "<td port=\"in0\" align=\"text\" colspan=\"1\" cellpadding=\"1\" ",
     ">0</td></tr><tr>",
     "<td align=\"text\" border=\"0\" colspan=\"1\">1</td></tr>",
     "</table>>]\n",
     "2 [shape=plain label=<<table border=\"1\"><tr>",
     "<td port=\"in0\" align=\"text\" colspan=\"1\" cellpadding=\"1\" ",
     ">0</td></tr><tr>",
     "<td align=\"text\" border=\"0\" colspan=\"1\">2</td></tr>",
     "</table>>]\n",
     "}\n"]

example : flatDot = some () := by decide +kernel

/-- `flat__mermaid.snap`. -/
def flatMermaid : Option Unit := do
  let g ← flatGraph
  snapshot (← mermaidOf (view g) none plainStyles)
    ["graph LR\n",
     "    2[2]\n",
     "    1[1]\n",
     "    0[0]\n",
     "    0-->1\n",
     "    0-->2\n"]

example : flatMermaid = some () := by decide +kernel

/-- `hierarchy__dot.snap`. -/
def hierarchyDot : Option Unit := do
  let (g, h) ← hierGraph
  snapshot (← dotText (view g) { DotStyles.default with node := hierStyle } (some h))
    ["digraph {\n",
     "0 [shape=plain fontcolor=\"#f00\" fillcolor=\"#0f0\" ",
     "color=\"#00f\" penwidth=\"4px\" label=<<table border=\"1\"><tr>",
     "<td port=\"in0\" align=\"text\" colspan=\"2\" cellpadding=\"1\" ",
     ">0</td><td port=\"in1\" align=\"text\" colspan=\"2\" ",
     "cellpadding=\"1\" >1</td>",
     "<td port=\"in2\" align=\"text\" colspan=\"2\" cellpadding=\"1\" ",
     ">2</td></tr><tr>",
     "<td align=\"text\" border=\"0\" colspan=\"6\">root</td></tr><tr>",
     "<td port=\"out0\" align=\"text\" colspan=\"3\" cellpadding=\"1\" ",
     ">0</td><td port=\"out1\" align=\"text\" colspan=\"3\" ",
     "cellpadding=\"1\" >1</td></tr></table>>]\n",
     "1 [shape=plain label=<<table border=\"1\"><tr>",
     "<td align=\"text\" border=\"0\" colspan=\"1\">1</td></tr><tr>",
     "<td port=\"out0\" align=\"text\" colspan=\"1\" cellpadding=\"1\" ",
     ">0</td></tr></table>>]\n",
     "1:out0 -> 2:in0 [style=\"\"]\n",
     "2 [shape=plain label=<<table border=\"1\"><tr>",
     "<td port=\"in0\" align=\"text\" colspan=\"1\" cellpadding=\"1\" ",
     ">0</td></tr><tr>",
     "<td align=\"text\" border=\"0\" colspan=\"1\">2</td></tr>",
     "</table>>]\n",
     "hier0 [shape=plain label=\"0\"]\n",
     "hier0 -> hier1  [style = \"dashed\"] \n",
     "hier0 -> hier2  [style = \"dashed\"] \n",
     "hier1 [shape=plain label=\"1\"]\n",
     "hier2 [shape=plain label=\"2\"]\n",
     "}\n"]

example : hierarchyDot = some () := by decide +kernel

/-- `hierarchy__mermaid.snap`. -/
def hierarchyMermaid : Option Unit := do
  let (g, h) ← hierGraph
  snapshot (← mermaidOf (view g) (some h) { plainStyles with node := hierStyle })
    ["graph LR\n",
     "    subgraph 0 [\"root\"]\n",
     "        direction LR\n",
     "        style 0 ",
     "color:#f00,fill:#0f0,stroke:#00f,stroke-width:4px\n",
     "        1[\"1\"]\n",
     "        2[\"2\"]\n",
     "        1-->2\n",
     "    end\n"]

example : hierarchyMermaid = some () := by decide +kernel

/-- `hierarchy_interregional__dot.snap`. -/
def hierarchyInterregionalDot : Option Unit := do
  let (g, h) ← interGraph
  snapshot (← dotText (view g) DotStyles.default (some h))
    ["digraph {\n",
     "0 [shape=plain label=<<table border=\"1\"><tr>",
     "<td port=\"in0\" align=\"text\" colspan=\"2\" cellpadding=\"1\" ",
     ">0</td><td port=\"in1\" align=\"text\" colspan=\"2\" ",
     "cellpadding=\"1\" >1</td>",
     "<td port=\"in2\" align=\"text\" colspan=\"2\" cellpadding=\"1\" ",
     ">2</td></tr><tr>",
     "<td align=\"text\" border=\"0\" colspan=\"6\">0</td></tr><tr>",
     "<td port=\"out0\" align=\"text\" colspan=\"3\" cellpadding=\"1\" ",
     ">0</td><td port=\"out1\" align=\"text\" colspan=\"3\" ",
     "cellpadding=\"1\" >1</td></tr></table>>]\n",
     "1 [shape=plain label=<<table border=\"1\"><tr>",
     "<td align=\"text\" border=\"0\" colspan=\"1\">1</td></tr><tr>",
     "<td port=\"out0\" align=\"text\" colspan=\"1\" cellpadding=\"1\" ",
     ">0</td></tr></table>>]\n",
     "1:out0 -> 2:in0 [style=\"\"]\n",
     "2 [shape=plain label=<<table border=\"1\"><tr>",
     "<td port=\"in0\" align=\"text\" colspan=\"1\" cellpadding=\"1\" ",
     ">0</td></tr><tr>",
     "<td align=\"text\" border=\"0\" colspan=\"1\">2</td></tr>",
     "</table>>]\n",
     "3 [shape=plain label=<<table border=\"1\"><tr>",
     "<td port=\"in0\" align=\"text\" colspan=\"1\" cellpadding=\"1\" ",
     ">0</td></tr><tr>",
     "<td align=\"text\" border=\"0\" colspan=\"1\">3</td></tr><tr>",
     "<td port=\"out0\" align=\"text\" colspan=\"1\" cellpadding=\"1\" ",
     ">0</td></tr></table>>]\n",
     "3:out0 -> 4:in0 [style=\"\"]\n",
     "4 [shape=plain label=<<table border=\"1\"><tr>",
     "<td port=\"in0\" align=\"text\" colspan=\"1\" cellpadding=\"1\" ",
     ">0</td></tr><tr>",
     "<td align=\"text\" border=\"0\" colspan=\"1\">4</td></tr><tr>",
     "<td port=\"out0\" align=\"text\" colspan=\"1\" cellpadding=\"1\" ",
     ">0</td></tr></table>>]\n",
     "hier0 [shape=plain label=\"0\"]\n",
     "hier0 -> hier1  [style = \"dashed\"] \n",
     "hier0 -> hier2  [style = \"dashed\"] \n",
     "hier1 [shape=plain label=\"1\"]\n",
     "hier1 -> hier3  [style = \"dashed\"] \n",
     "hier2 [shape=plain label=\"2\"]\n",
     "hier2 -> hier4  [style = \"dashed\"] \n",
     "hier3 [shape=plain label=\"3\"]\n",
     "hier4 [shape=plain label=\"4\"]\n",
     "}\n"]

example : hierarchyInterregionalDot = some () := by decide +kernel

/-- `hierarchy_interregional__mermaid.snap`. -/
def hierarchyInterregionalMermaid : Option Unit := do
  let (g, h) ← interGraph
  snapshot (← mermaidOf (view g) (some h) plainStyles)
    ["graph LR\n",
     "    subgraph 0 [0]\n",
     "        direction LR\n",
     "        subgraph 1 [1]\n",
     "            direction LR\n",
     "            3[3]\n",
     "        end\n",
     "        subgraph 2 [2]\n",
     "            direction LR\n",
     "            4[4]\n",
     "        end\n",
     "        1-->2\n",
     "        3-->4\n",
     "    end\n"]

example : hierarchyInterregionalMermaid = some () := by decide +kernel

/-- `weighted__dot.snap`. -/
def weightedDot : Option Unit := do
  let g ← weightedGraph
  snapshot (← dotText (view g) (DotStyles.default.withWeights nodeWeights portWeights) none)
    ["digraph {\n",
     "0 [shape=plain label=<<table border=\"1\"><tr>",
     "<td align=\"text\" border=\"0\" colspan=\"2\">node1</td></tr><tr>",
     "<td port=\"out0\" align=\"text\" colspan=\"1\" cellpadding=\"1\" ",
     ">0: out 0</td>",
     "<td port=\"out1\" align=\"text\" colspan=\"1\" cellpadding=\"1\" ",
     ">1: out 1</td></tr></table>>]\n",
     "0:out0 -> 1:in0 [style=\"\"]\n",
     "0:out1 -> 2:in0 [style=\"\"]\n",
     "1 [shape=plain label=<<table border=\"1\"><tr>",
     "<td port=\"in0\" align=\"text\" colspan=\"1\" cellpadding=\"1\" >0: ",
     "in 0</td></tr><tr>",
     "<td align=\"text\" border=\"0\" colspan=\"1\">node2</td></tr>",
     "</table>>]\n",
     "2 [shape=plain label=<<table border=\"1\"><tr>",
     "<td port=\"in0\" align=\"text\" colspan=\"1\" cellpadding=\"1\" >0: ",
     "in 0</td></tr><tr>",
     "<td align=\"text\" border=\"0\" colspan=\"1\">node3</td></tr>",
     "</table>>]\n",
     "}\n"]

example : weightedDot = some () := by decide +kernel

/-- `weighted__mermaid.snap`. -/
def weightedMermaid : Option Unit := do
  let g ← weightedGraph
  snapshot (← mermaidOf (view g) none { plainStyles with node := fun n => .boxed (nodeWeights n) ⟨none, none, none, none⟩ })
    ["graph LR\n",
     "    2[\"node3\"]\n",
     "    1[\"node2\"]\n",
     "    0[\"node1\"]\n",
     "    0-->1\n",
     "    0-->2\n"]

example : weightedMermaid = some () := by decide +kernel

/-- `region_view__mermaid.snap`. -/
def regionViewMermaid : Option Unit := do
  let (G, h) ← regionView
  snapshot (← mermaidOf G (some h) plainStyles)
    ["graph LR\n",
     "    subgraph 1 [1]\n",
     "        direction LR\n",
     "        2[2]\n",
     "        subgraph 3 [3]\n",
     "            direction LR\n",
     "            4[4]\n",
     "        end\n",
     "    end\n",
     "    2-->1\n"]

example : regionViewMermaid = some () := by decide +kernel

end Verif.Conform
