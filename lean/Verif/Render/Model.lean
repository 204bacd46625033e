import Verif.View.Model
import Verif.Lca.Model

/-!
# Rendering

Model of `src/render/mermaid.rs` lines 95–200 and 322–408 and of `src/render/dot.rs` lines 78–268,
over any graph view. The output is the list of statements written; how a statement is spelled
(labels, colours, indentation) is left out here, see `Render/Style.lean` for the labels and edge
styles. The style functions are taken as functions of the node or port (`FnMut` could answer
differently each time). Loops carry a fuel; `none` is a panic or running out of fuel.
-/

namespace Verif.Render

open Verif (Direction)
open Verif.View Verif.Hier

variable {E : Type}

/-! ## Mermaid -/

/-- A link as it is stored, `(src_node, src, tgt_node, tgt)`, `src/render/mermaid.rs` line 120. -/
structure Arrow (E : Type) where
  srcNode : Nat
  src : E
  tgtNode : Nat
  tgt : E
deriving DecidableEq

/-- What is written: `add_leaf` (`src/render/mermaid.rs` lines 322–347), `start_subgraph` (lines 353–385), `end_subgraph` (lines
388–391) and `add_link` (lines 394–408). -/
inductive Stmt (E : Type) where
  | leaf (n : Nat)
  | start (n : Nat)
  | stop
  | link (a : Arrow E)
deriving DecidableEq

/-- `ExplorationStep`, `src/render/mermaid.rs` lines 195–200. -/
inductive Step where
  | explore (n : Nat)
  | exit (n : Nat)
deriving DecidableEq

/-- What the explorer asks the hierarchy. The methods of `src/render/mermaid.rs` lines 172–191. -/
structure Tree where
  isRoot : Nat → Bool
  isLeaf : Nat → Bool
  kids : Nat → List Nat
  lca : Nat → Nat → Option (Option Nat)

/-- The answers without a hierarchy: `is_root`, `is_leaf`, `node_children` (`src/render/mermaid.rs` lines 173–191), and lines 124
and 148. -/
def noTree : Tree := ⟨fun _ => true, fun _ => true, fun _ => [], fun _ _ => some none⟩

/-- The answers with a hierarchy. `src/render/mermaid.rs` lines 172–191. -/
def GView.tree (G : GView E) (h : Hierarchy) : Option Tree :=
  (Lca.new G.nodes h).map fun s =>
    { isRoot n := h.isRoot n || (match h.parent n with | none => true | some p => !G.containsNode p)
      isLeaf n := !h.hasChildren n
      kids := h.kids
      lca := s.lca h.fuel }

/-- `edges`, `src/render/mermaid.rs` lines 117–121: the hash map, as a list of its entries. -/
abbrev Pending (E : Type) := List (Option Nat × List (Arrow E))

/-- `edges.entry(lca).or_insert_with(Vec::new).push(..)`, `src/render/mermaid.rs` lines 149–152. -/
def Pending.push : Pending E → Option Nat → Arrow E → Pending E
  | [], k, a => [(k, [a])]
  | (k', as) :: es, k, a => if k' = k then (k', as ++ [a]) :: es else (k', as) :: Pending.push es k a

/-- `edges.remove(..)`, `src/render/mermaid.rs` line 156. -/
def Pending.remove : Pending E → Option Nat → List (Arrow E) × Pending E
  | [], _ => ([], [])
  | (k', as) :: es, k => if k' = k then (as, es) else ((Pending.remove es k).1, (k', as) :: (Pending.remove es k).2)

/-- The loop over the output links, `src/render/mermaid.rs` lines 145–153. -/
def pushLinks (G : GView E) (T : Tree) : List (E × E) → Pending E → Option (Pending E)
  | [], es => some es
  | (e, f) :: ls, es =>
    match G.portNode (G.toPort e), G.portNode (G.toPort f) with
    | some a, some b =>
      match T.lca a b with
      | none => none
      | some k => pushLinks G T ls (es.push k ⟨a, e, b, f⟩)
    | _, _ => none

/-- The `while` loop, `src/render/mermaid.rs` lines 126–162: the statements written and the links left. -/
def exploreLoop (G : GView E) (T : Tree) : Nat → List Step → Pending E → Option (List (Stmt E) × Pending E)
  | _, [], es => some ([], es)
  | 0, _ :: _, _ => none
  | f + 1, .explore n :: st, es =>
    match pushLinks G T (G.links n .outgoing) es with
    | none => none
    | some es =>
      if T.isLeaf n then (exploreLoop G T f st es).map fun x => (.leaf n :: x.1, x.2)
      else (exploreLoop G T f ((T.kids n).map .explore ++ .exit n :: st) es).map fun x => (.start n :: x.1, x.2)
  | f + 1, .exit c :: st, es =>
    let (as, es) := es.remove (some c)
    (exploreLoop G T f st es).map fun x => (as.map .link ++ .stop :: x.1, x.2)

/-- `explore_forest`, `src/render/mermaid.rs` lines 105–170; `order` is the order in which the hash map is iterated at the end. -/
def explore (G : GView E) (T : Tree) (order : Pending E → Pending E) (fuel : Nat) : Option (List (Stmt E)) :=
  match exploreLoop G T fuel ((G.nodes.filter T.isRoot).reverse.map .explore) [] with
  | none => none
  | some (out, es) => some (out ++ (order es).flatMap fun x => x.2.map .link)

/-- `MermaidFormatter::finish`, `src/render/mermaid.rs` lines 95–102. -/
def mermaid (G : GView E) (forest : Option Hierarchy) (order : Pending E → Pending E) (fuel : Nat) : Option (List (Stmt E)) :=
  match forest with
  | none => explore G noTree order fuel
  | some h => (GView.tree G h).bind fun T => explore G T order fuel

/-! ## Dot -/

/-- What is written: a node with the cells of its ports (`src/render/dot.rs` lines 127–152), an edge (lines 219–237), and the
nodes and edges of the hierarchy (lines 239–268). -/
inductive DStmt where
  | node (n : Nat) (ins outs : List Nat)
  | edge (src srcOff tgt tgtOff : Nat)
  | hnode (n : Nat)
  | hedge (parent child : Nat)
deriving DecidableEq

/-- The offsets of the shown ports, `get_port_strings`, `src/render/dot.rs` lines 168–196. -/
def shownPorts (G : GView E) (portHidden : Nat → Bool) (n : Nat) (d : Direction) : List Nat :=
  ((G.ports n d).zipIdx.filter fun x => !portHidden x.1).map (·.2)

/-- `get_edge_dot`, `src/render/dot.rs` lines 219–237. -/
def edgeDot (G : GView E) (n : Nat) (l : E × E) : Option DStmt :=
  match G.portOffset (G.toPort l.1), G.portNode (G.toPort l.2), G.portOffset (G.toPort l.2) with
  | some (_, i), some m, some (_, j) => some (.edge n i m j)
  | _, _, _ => none

/-- The loop of `node_and_edge_strings`, `src/render/dot.rs` lines 114–164. -/
def nodesDot (G : GView E) (nodeHidden portHidden : Nat → Bool) : List Nat → Option (List DStmt)
  | [] => some []
  | n :: ns =>
    if nodeHidden n then nodesDot G nodeHidden portHidden ns
    else
      match ((G.ports n .outgoing).flatMap G.portLinks).mapM (edgeDot G n), nodesDot G nodeHidden portHidden ns with
      | some es, some r => some (.node n (shownPorts G portHidden n .incoming) (shownPorts G portHidden n .outgoing) :: es ++ r)
      | _, _ => none

/-- `hierarchy_strings`, `src/render/dot.rs` lines 239–268. -/
def hierarchyDot (G : GView E) (h : Hierarchy) : List DStmt :=
  G.nodes.flatMap fun n => .hnode n :: ((h.kids n).filter G.containsNode).map (.hedge n ·)

/-- `DotFormatter::finish`, `src/render/dot.rs` lines 78–87. -/
def dot (G : GView E) (forest : Option Hierarchy) (nodeHidden portHidden : Nat → Bool) : Option (List DStmt) :=
  (nodesDot G nodeHidden portHidden G.nodes).map fun l =>
    l ++ (match forest with | none => [] | some h => hierarchyDot G h)

end Verif.Render
