import Verif.PortGraph.IterModel

/-!
# Default methods of `LinkView` and `LinkMut`

Model of the provided methods in `src/view.rs` for `PortGraph`. Offsets are pairs of direction
and index; their encoding in `PortOffset` is the subject of `Verif.Index`.
-/

namespace Verif.PG

open Verif (Direction)

/-- A `for` loop over an iterator: call `next` until it yields nothing. `fuel` bounds the number
of calls. Not in the code: the `for` loops of `insert_graph`, `src/view.rs` lines 597–611. -/
def collect {S X : Type} (next : S → Option (Option X × S)) : Nat → S → Option (List X)
  | 0, _ => none
  | fuel + 1, s =>
    match next s with
    | none => none
    | some (none, _) => some []
    | some (some x, s) => (collect next fuel s).map (x :: ·)

namespace PG

/-- The nodes visited by `for n in g.nodes_iter()`. The loop of `src/view.rs` line 597. -/
def nodesList (g : PG) : Option (List Nat) := collect Nodes.next (g.nodeMeta.length + 1) g.nodesIter

/-- The pairs visited by `for (p, q) in g.all_links(n)`. The loop of `src/view.rs` line 601. -/
def allLinksList (g : PG) (n : Nat) : Option (List (Nat × Nat)) :=
  match g.allLinks n with
  | none => none
  | some s => collect (fun s => some (NodeLinks.next s)) (s.links.length + 1) s

/-- `get_connection`, `src/view.rs` lines 345–351. -/
def getConnection (g : PG) (a b : Nat) : Option (Option (Nat × Nat)) :=
  match g.links a .outgoing with
  | none => none
  | some s => some (g.connNext b (s.links.length + 1) s).1

/-- `connected`, `src/view.rs` lines 368–370. -/
def connected (g : PG) (a b : Nat) : Option Bool := (g.getConnection a b).map (·.isSome)

/-- `link_offsets`, `src/view.rs` lines 554–574. -/
def linkOffsets (g : PG) (a : Nat) (oa : Direction × Nat) (b : Nat) (ob : Direction × Nat) :
    Option (Except LinkError (Nat × Nat) × PG) :=
  match g.portIndex a oa.1 oa.2 with
  | none => some (.error (.unknownOffset a oa.1 oa.2), g)
  | some p =>
    match g.portIndex b ob.1 ob.2 with
    | none => some (.error (.unknownOffset b ob.1 ob.2), g)
    | some q => g.linkPorts p q

/-- `link_nodes`, `src/view.rs` lines 532–545. -/
def linkNodes (g : PG) (a fromOutput b toInput : Nat) : Option (Except LinkError (Nat × Nat) × PG) :=
  g.linkOffsets a (.outgoing, fromOutput) b (.incoming, toInput)

/-- The inner loop of `insert_graph`, `src/view.rs` lines 601–612. `rekeys` is the hash map as an
association list. -/
def insertLinks (other : PG) (rekeys : List (Nat × Nat)) (new : Nat) (g : PG) :
    List (Nat × Nat) → Option (Except LinkError Unit × PG)
  | [] => some (.ok (), g)
  | (p, q) :: ls =>
    match other.portNode q with
    | none => none
    | some m =>
      match rekeys.lookup m with
      | none => insertLinks other rekeys new g ls
      | some new' =>
        match other.portOffset p, other.portOffset q with
        | some (some op), some (some oq) =>
          match g.linkOffsets new op new' oq with
          | none => none
          | some (.error e, g) => some (.error e, g)
          | some (.ok _, g) => insertLinks other rekeys new g ls
        | _, _ => none

/-- The outer loop of `insert_graph`, `src/view.rs` lines 598–613. -/
def insertNodes (maxOff : Nat) (other : PG) (rekeys : List (Nat × Nat)) (g : PG) :
    List Nat → Option (Except LinkError (List (Nat × Nat)) × PG)
  | [] => some (.ok rekeys, g)
  | old :: ns =>
    match g.addNode maxOff (other.numPorts old .incoming) (other.numPorts old .outgoing) with
    | none => none
    | some (new, g) =>
      match other.allLinksList old with
      | none => none
      | some ls =>
        match insertLinks other ((old, new) :: rekeys) new g ls with
        | none => none
        | some (.error e, g) => some (.error e, g)
        | some (.ok (), g) => insertNodes maxOff other ((old, new) :: rekeys) g ns

/-- `insert_graph`, `src/view.rs` lines 583–615, without `reserve`. -/
def insertGraph (maxOff : Nat) (g other : PG) : Option (Except LinkError (List (Nat × Nat)) × PG) :=
  match other.nodesList with
  | none => none
  | some ns => insertNodes maxOff other [] g ns

end PG

end Verif.PG
