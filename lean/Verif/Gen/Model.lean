import Verif.CopyIn.Model

/-!
# Graphs made from random edges, `src/proptest.rs`

The strategies of the crate `proptest` draw numbers; here the drawn lists are parameters, so that a
statement for all of them is one for all random choices (and all shrinking). `Host` gives the calls
of the graph that is built, a `PortGraph` or a `MultiPortGraph`. `none` is a panic.
-/

namespace Verif.Gen

open Verif (Direction)
open Verif.PG Verif.Multi Verif.CopyIn

/-- `Edge`, `src/proptest.rs` lines 12–18: an outgoing offset at the source, an incoming one at the target. -/
structure Edge where
  srcV : Nat
  srcP : Nat
  tgtV : Nat
  tgtP : Nat
deriving DecidableEq, Repr

/-- The edges of `gen_edges` and `gen_unique_edges`, `src/proptest.rs` lines 27–34 and 47–54, from the drawn pairs of
vertex and offset. -/
def zipEdges (outs ins : List (Nat × Nat)) : List Edge :=
  (outs.zip ins).map fun x => ⟨x.1.1, x.1.2, x.2.1, x.2.2⟩

/-- `add_port`, `src/proptest.rs` lines 115–121, for one of the two maps; an absent key counts as 0. -/
def addPort (counts : Nat → Nat) (v p : Nat) : Nat → Nat := fun x => if x = v then max (counts x) (p + 1) else counts x

/-- `src/proptest.rs` lines 122–131: the numbers of incoming and of outgoing ports. -/
def portCounts (edges : List Edge) : (Nat → Nat) × (Nat → Nat) :=
  edges.foldl (fun c e => (addPort c.1 e.tgtV e.tgtP, addPort c.2 e.srcV e.srcP)) (fun _ => 0, fun _ => 0)

variable {S E : Type}

/-- `src/proptest.rs` lines 137–142: the loop over the vertices; the map `map_vertices` as the list of its entries. -/
def addVertices (H : Host S E) (c : (Nat → Nat) × (Nat → Nat)) : List Nat → S → Option (List (Nat × Nat) × S)
  | [], s => some ([], s)
  | v :: vs, s =>
    match H.addNode s (c.1 v) (c.2 v) with
    | none => none
    | some (n, s) => (addVertices H c vs s).map fun x => ((v, n) :: x.1, x.2)

/-- `link_offsets(…).unwrap()` with the mapped vertices, lines 150–152 (`link_offsets` is in
`src/view.rs` lines 554–574). -/
def linkEdge (H : Host S E) (M : List (Nat × Nat)) (e : Edge) (s : S) : Option S :=
  match M.lookup e.srcV, M.lookup e.tgtV with
  | some a, some b =>
    match H.portIndex s a .outgoing e.srcP with
    | none => none
    | some p =>
      match H.portIndex s b .incoming e.tgtP with
      | none => none
      | some q =>
        match H.linkPorts s p q with
        | some (.ok _, s) => some s
        | _ => none
  | _, _ => none

/-- `src/proptest.rs` lines 143–153. -/
def linkEdges (H : Host S E) (M : List (Nat × Nat)) : List Edge → S → Option S
  | [], s => some s
  | e :: es, s =>
    match linkEdge H M e s with
    | none => none
    | some s => linkEdges H M es s

/-- `graph_from_edges`, `src/proptest.rs` lines 111–155. `empty` is `G::default()`, and `vertices` are the elements of
the `HashSet` of lines 133–136 in the order of its iterator. -/
def graphFromEdges (H : Host S E) (empty : S) (vertices : List Nat) (edges : List Edge) : Option S :=
  match addVertices H (portCounts edges) vertices empty with
  | none => none
  | some (M, s) => linkEdges H M edges s

/-- `ensure_non_empty`, `src/proptest.rs` lines 199–203. -/
def ensureNonEmpty (H : Host S E) (nodeCount : S → Nat) (s : S) : Option S :=
  if nodeCount s = 0 then (H.addNode s 0 0).map (·.2) else some s

/-- `gen_portgraph` (`maxOff` is the largest number of ports), `src/proptest.rs` lines 58–69, with the drawn ports and
the order of the vertices. -/
def genPortgraph (maxOff : Nat) (vertices : List Nat) (outs ins : List (Nat × Nat)) : Option PG :=
  (graphFromEdges (pgHost maxOff) PG.empty vertices (zipEdges outs ins)).bind
    (ensureNonEmpty (pgHost maxOff) PG.nodeCount)

/-- `gen_multiportgraph`, `src/proptest.rs` lines 71–82. -/
def genMultiportgraph (maxOff : Nat) (vertices : List Nat) (outs ins : List (Nat × Nat)) : Option MG :=
  (graphFromEdges (mgHost maxOff) (MG.ofGraph PG.empty) vertices (zipEdges outs ins)).bind
    (ensureNonEmpty (mgHost maxOff) MG.nodeCount)

end Verif.Gen
