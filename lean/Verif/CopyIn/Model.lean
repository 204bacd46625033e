import Verif.Multi.Spec

/-!
# `Subgraph::copy_in_parent`, `src/view/subgraph.rs` lines 355–402

The function is generic in the underlying graph (`G: LinkMut`). `Host` lists the calls it makes;
`pgHost` and `mgHost` are the two implementations of the library, `PortGraph` and `MultiPortGraph`.
`none` is a panic. Simplifications:
* `reserve` (line 356) does not change what the graph shows and is left out;
* `self.nodes` is a `BTreeSet`; here it is the list of its elements in order;
* `node_map` is a `HashMap`: here it is the list of pairs in order of insertion, and the orders in
  which lines 363 and 385 iterate over it are the parameters `order` and `undo`.
-/

namespace Verif.CopyIn

open Verif (Direction)
open Verif.PG Verif.Multi

/-- The calls of the underlying graph. `E` is `LinkEndpoint`, and `toPort` is `Into<PortIndex>`.
The bound `G: LinkMut` of `src/view/subgraph.rs` line 355. -/
structure Host (S E : Type) where
  toPort : E → Nat
  numPorts : S → Nat → Direction → Nat
  addNode : S → Nat → Nat → Option (Nat × S)
  allLinks : S → Nat → Option (List (E × E))
  portOffset : S → Nat → Option (Option (Direction × Nat))
  portIndex : S → Nat → Direction → Nat → Option Nat
  portNode : S → Nat → Option Nat
  linkPorts : S → Nat → Nat → Option (Except LinkError (E × E) × S)
  removeNode : S → Nat → Option S

/-- `CopySubgraphError`, `src/view/subgraph.rs` lines 325–334. -/
inductive CopyError where
  | cantCopyBoundary (internal external : Nat)
deriving DecidableEq

variable {S E : Type}

/-- `src/view/subgraph.rs` lines 358–362: one new node for each node, with the same numbers of ports. -/
def addCopies (H : Host S E) : List Nat → S → Option (List (Nat × Nat) × S)
  | [], s => some ([], s)
  | n :: ns, s =>
    match H.addNode s (H.numPorts s n .incoming) (H.numPorts s n .outgoing) with
    | none => none
    | some (n', s) => (addCopies H ns s).map fun x => ((n, n') :: x.1, x.2)

/-- `src/view/subgraph.rs` lines 365–398, the body of the inner loop without the removals (lines 384–387), for the link
`l = (node_p, other_p)` of a node copied to `new`. -/
def copyLink (H : Host S E) (M : List (Nat × Nat)) (new : Nat) (l : E × E) (s : S) : Option (Option CopyError × S) :=
  match H.portOffset s (H.toPort l.1) with
  | some (some (d, k)) =>
    match H.portIndex s new d k, H.portNode s (H.toPort l.2) with
    | some p, some other =>
      match M.lookup other with
      | some new' =>
        if new' < new then some (none, s)
        else
          match H.portOffset s (H.toPort l.2) with
          | some (some (d', k')) =>
            match H.portIndex s new' d' k' with
            | none => none
            | some q =>
              match H.linkPorts s p q with
              | some (.ok _, s) => some (none, s)
              | _ => none
          | _ => none
      | none =>
        match H.linkPorts s p (H.toPort l.2) with
        | some (.ok _, s) => some (none, s)
        | some (.error (.alreadyLinked x), s) => some (some (.cantCopyBoundary (H.toPort l.1) x), s)
        | _ => none
    | _, _ => none
  | _ => none

/-- `src/view/subgraph.rs` line 364: the links of one node. -/
def copyLinks (H : Host S E) (M : List (Nat × Nat)) (new : Nat) : List (E × E) → S → Option (Option CopyError × S)
  | [], s => some (none, s)
  | l :: ls, s =>
    match copyLink H M new l s with
    | none => none
    | some (some e, s) => some (some e, s)
    | some (none, s) => copyLinks H M new ls s

/-- `src/view/subgraph.rs` line 363: the pairs of the node map. -/
def copyNodes (H : Host S E) (M : List (Nat × Nat)) : List (Nat × Nat) → S → Option (Option CopyError × S)
  | [], s => some (none, s)
  | (n, new) :: ps, s =>
    match H.allLinks s n with
    | none => none
    | some ls =>
      match copyLinks H M new ls s with
      | none => none
      | some (some e, s) => some (some e, s)
      | some (none, s) => copyNodes H M ps s

/-- `src/view/subgraph.rs` lines 385–387. -/
def removeAll (H : Host S E) : List Nat → S → Option S
  | [], s => some s
  | n :: ns, s =>
    match H.removeNode s n with
    | none => none
    | some s => removeAll H ns s

/-- `copy_in_parent`. `src/view/subgraph.rs` lines 355–402. -/
def copyInParent (H : Host S E) (order undo : List (Nat × Nat) → List (Nat × Nat)) (nodes : List Nat) (s : S) :
    Option (Except CopyError (List (Nat × Nat)) × S) :=
  match addCopies H nodes s with
  | none => none
  | some (M, s) =>
    match copyNodes H M (order M) s with
    | none => none
    | some (none, s) => some (.ok M, s)
    | some (some e, s) => (removeAll H ((undo M).map (·.2)) s).map fun s => (.error e, s)

/-- A `PortGraph` as underlying graph. The implementations in `src/portgraph.rs`. -/
def pgHost (maxOff : Nat) : Host PG Nat where
  toPort := id
  numPorts := PG.numPorts
  addNode g i o := g.addNode maxOff i o
  allLinks g n := some ((View.ofPG g 0 0).allLinks n)
  portOffset := PG.portOffset
  portIndex := PG.portIndex
  portNode := PG.portNode
  linkPorts := PG.linkPorts
  removeNode := PG.removeNode

/-- A `MultiPortGraph` as underlying graph. The implementations in `src/multiportgraph.rs`. -/
def mgHost (maxOff : Nat) : Host MG Subport where
  toPort e := e.1
  numPorts m := m.graph.numPorts
  addNode m i o := m.addNode maxOff i o
  allLinks := MG.allLinks?
  portOffset m := m.graph.portOffset
  portIndex m := m.graph.portIndex
  portNode m := m.graph.portNode
  linkPorts m a b := m.linkPorts maxOff a b
  removeNode := MG.removeNode

end Verif.CopyIn
