import Verif.CopyIn.Model

/-!
# `insert_graph` for every host and every view

`LinkMut::insert_graph` (`src/view.rs` lines 583–615) is a provided method: `self` is any `LinkMut`
and `other` any `LinkView`. Here `self` is a `Host` (a `PortGraph` or a `MultiPortGraph`, see
`CopyIn/Model.lean`) and `other` a `GView`. `none` is a panic. Simplifications:
* `reserve` and the capacity of the map (lines 592–596) have no effect on what the graph shows and
  are left out;
* the `HashMap` is a list of pairs, the last inserted first.
-/

namespace Verif.Insert

open Verif (Direction)
open Verif.PG Verif.Multi Verif.View Verif.CopyIn

variable {S E F : Type}

/-- `link_offsets`, `src/view.rs` lines 554–574. -/
def linkOffsets (H : Host S E) (s : S) (a : Nat) (oa : Direction × Nat) (b : Nat) (ob : Direction × Nat) :
    Option (Except LinkError (E × E) × S) :=
  match H.portIndex s a oa.1 oa.2 with
  | none => some (.error (.unknownOffset a oa.1 oa.2), s)
  | some p =>
    match H.portIndex s b ob.1 ob.2 with
    | none => some (.error (.unknownOffset b ob.1 ob.2), s)
    | some q => H.linkPorts s p q

/-- The inner loop, `src/view.rs` lines 601–612, over the links of a node inserted as `new`. -/
def insertLinks (H : Host S E) (V : GView F) (M : List (Nat × Nat)) (new : Nat) :
    List (F × F) → S → Option (Except LinkError Unit × S)
  | [], s => some (.ok (), s)
  | l :: ls, s =>
    match V.portNode (V.toPort l.2) with
    | none => none
    | some m =>
      match M.lookup m with
      | none => insertLinks H V M new ls s
      | some new' =>
        match V.portOffset (V.toPort l.1), V.portOffset (V.toPort l.2) with
        | some op, some oq =>
          match linkOffsets H s new op new' oq with
          | none => none
          | some (.error e, s) => some (.error e, s)
          | some (.ok _, s) => insertLinks H V M new ls s
        | _, _ => none

/-- The outer loop, `src/view.rs` lines 598–613. -/
def insertNodes (H : Host S E) (V : GView F) : List (Nat × Nat) → List Nat → S → Option (Except LinkError (List (Nat × Nat)) × S)
  | M, [], s => some (.ok M, s)
  | M, old :: ns, s =>
    match H.addNode s (V.numPorts old .incoming) (V.numPorts old .outgoing) with
    | none => none
    | some (new, s) =>
      match insertLinks H V ((old, new) :: M) new (V.allLinks old) s with
      | none => none
      | some (.error e, s) => some (.error e, s)
      | some (.ok (), s) => insertNodes H V ((old, new) :: M) ns s

/-- `insert_graph`. `src/view.rs` lines 583–615. -/
def insertGraph (H : Host S E) (V : GView F) (s : S) : Option (Except LinkError (List (Nat × Nat)) × S) :=
  insertNodes H V [] V.nodes s

end Verif.Insert
