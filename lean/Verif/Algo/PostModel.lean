import Verif.Algo.TopoModel

/-!
# Post-order traversal

Model of `src/algorithms/post_order.rs`. The bit vectors are functions; their length is
`node_capacity()`, the capacity `cap` of the vector of nodes, which is at least its length.
Indexing a bit vector at or beyond `cap` panics. The stack is a list with its top in front.
-/

namespace Verif.Algo

open Verif (Direction)

/-- `PostOrder`, `src/algorithms/post_order.rs` lines 140–155. -/
structure Post where
  stack : List Nat
  visited : Nat → Bool
  finished : Nat → Bool
  seen : Nat

namespace Post

/-- `PostOrder::new`, `src/algorithms/post_order.rs` lines 158–187: the sources are reversed, so the first is on top. -/
def new (F : Filter) (sources : List Nat) : Post :=
  ⟨sources.filter F.node, fun _ => false, fun _ => false, 0⟩

/-- The `for` loop of `next`, `src/algorithms/post_order.rs` lines 216–235, over the ports left (the code goes through them in
reverse). -/
def pushLoop (G : View) (F : Filter) (cap node : Nat) (v : Nat → Bool) : List Nat → List Nat → Option (List Nat)
  | [], st => some st
  | p :: ps, st =>
    if !F.port node p then pushLoop G F cap node v ps st
    else
      match (G.links p).head? with
      | none => pushLoop G F cap node v ps st
      | some q =>
        match G.portNode q with
        | none => none
        | some m =>
          if !F.node m || !F.port m q then pushLoop G F cap node v ps st
          else if cap ≤ m then none
          else if v m then pushLoop G F cap node v ps st
          else pushLoop G F cap node v ps (m :: st)

/-- The `while` loop of `next`, `src/algorithms/post_order.rs` lines 212–246. -/
def next (G : View) (F : Filter) (d : Direction) (cap : Nat) : Nat → Post → Option (Option Nat × Post)
  | 0, _ => none
  | fuel + 1, s =>
    match s.stack with
    | [] => some (none, s)
    | n :: st =>
      if cap ≤ n then none
      else if !s.visited n then
        let v := setBit s.visited n true
        match pushLoop G F cap n v (G.ports n d).reverse s.stack with
        | none => none
        | some st => next G F d cap fuel { s with visited := v, stack := st }
      else if !s.finished n then
        some (some n, { s with finished := setBit s.finished n true, stack := st, seen := s.seen + 1 })
      else next G F d cap fuel { s with stack := st }

/-- Drain the iterator; each call to `next` gets `fuel` rounds.
Not in the code: a `for` loop over the iterator, `next` of `src/algorithms/post_order.rs` lines 211–248. -/
def collect (G : View) (F : Filter) (d : Direction) (cap fuel : Nat) : Nat → Post → Option (List Nat × Post)
  | 0, _ => none
  | k + 1, s =>
    match next G F d cap fuel s with
    | none => none
    | some (none, s) => some ([], s)
    | some (some n, s) =>
      match collect G F d cap fuel k s with
      | none => none
      | some (l, s) => some (n :: l, s)

/-- `size_hint`, `src/algorithms/post_order.rs` lines 250–252. -/
def sizeHint (G : View) (s : Post) : Option (Nat × Nat) :=
  if s.seen ≤ G.nodes.length then some (0, G.nodes.length - s.seen) else none

/-- A number of rounds which suffices: the sources, and the nodes and their ports.
Not in the code: bounds the loop of `src/algorithms/post_order.rs` lines 212–246. -/
def fuel (G : View) (d : Direction) (cap : Nat) (sources : List Nat) : Nat :=
  sources.length + ((List.range cap).map fun x => 1 + (G.ports x d).length).sum + 1

end Post

/-- `postorder_filtered` (`src/algorithms/post_order.rs` lines 121–135) and, with `Filter.all`, `postorder` (lines 52–58),
drained. -/
def postorder (G : View) (F : Filter) (d : Direction) (cap : Nat) (sources : List Nat) : Option (List Nat × Post) :=
  Post.collect G F d cap (Post.fuel G d cap sources) (Post.fuel G d cap sources) (Post.new F sources)

end Verif.Algo
