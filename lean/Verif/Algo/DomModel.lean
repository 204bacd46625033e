import Verif.Algo.PostModel

/-!
# Dominators

Model of `src/algorithms/dominators.rs`. `usize::MAX` in the vector of dominators is `none`. The
map from nodes to post-order indices is a function with default 0, the resulting secondary map a
function with default `none`. Loops carry a fuel; `none` is a panic or running out of fuel.
-/

namespace Verif.Algo.Dom

open Verif (Direction)

/-- `intersect`, `src/algorithms/dominators.rs` lines 227–235. -/
def intersect (D : List (Option Nat)) : Nat → Nat → Nat → Option Nat
  | 0, _, _ => none
  | f + 1, a, b =>
    if a < b then
      match D[a]? with
      | some (some a) => intersect D f a b
      | _ => none
    else if a = b then some a
    else
      match D[b]? with
      | some (some b) => intersect D f a b
      | _ => none

/-- The `filter_map` of `src/algorithms/dominators.rs` lines 176–191: the indices of the predecessors with known dominators, in
port order. -/
def predLoop (G : View) (F : Filter) (idx : Nat → Nat) (D : List (Option Nat)) (node : Nat) : List Nat → Option (List Nat)
  | [] => some []
  | p :: ps =>
    if !F.port node p then predLoop G F idx D node ps
    else
      match (G.links p).head? with
      | none => predLoop G F idx D node ps
      | some q =>
        match G.portNode q with
        | none => predLoop G F idx D node ps
        | some m =>
          if !F.node m || !F.port m q then predLoop G F idx D node ps
          else
            match D[idx m]? with
            | none => none
            | some none => predLoop G F idx D node ps
            | some (some _) => (predLoop G F idx D node ps).map (idx m :: ·)

/-- The fold of `reduce`, `src/algorithms/dominators.rs` line 192. -/
def fold (D : List (Option Nat)) (fuel : Nat) : List Nat → Nat → Option Nat
  | [], a => some a
  | b :: bs, a =>
    match intersect D fuel a b with
    | none => none
    | some a => fold D fuel bs a

/-- The new dominator of a node, `src/algorithms/dominators.rs` lines 173–193. -/
def newDom (G : View) (F : Filter) (d : Direction) (idx : Nat → Nat) (D : List (Option Nat)) (node : Nat) : Option Nat :=
  match predLoop G F idx D node (G.ports node d.reverse) with
  | none => none
  | some [] => none
  | some (a :: bs) => fold D (2 * D.length + 1) bs a

/-- The `for` loop of `src/algorithms/dominators.rs` lines 167–199, for the indices below `k` in decreasing order. The flag is
`changed`. -/
def pass (G : View) (F : Filter) (d : Direction) (idx : Nat → Nat) (order : List Nat) :
    Nat → List (Option Nat) → Bool → Option (List (Option Nat) × Bool)
  | 0, D, ch => some (D, ch)
  | k + 1, D, ch =>
    match order[k]? with
    | none => none
    | some node =>
      match newDom G F d idx D node with
      | none => none
      | some c =>
        if D[k]? = some (some c) then pass G F d idx order k D ch
        else pass G F d idx order k (D.set k (some c)) true

/-- The `while` loop, `src/algorithms/dominators.rs` lines 164–200. -/
def iterate (G : View) (F : Filter) (d : Direction) (idx : Nat → Nat) (order : List Nat) :
    Nat → List (Option Nat) → Option (List (Option Nat))
  | 0, _ => none
  | f + 1, D =>
    match pass G F d idx order (order.length - 1) D false with
    | none => none
    | some (D, ch) => if ch then iterate G F d idx order f D else some D

/-- The loop filling the map `idom`, `src/algorithms/dominators.rs` lines 203–208. -/
def fill (order : List Nat) : List (Option Nat) → Nat → (Nat → Option Nat) → Option (Nat → Option Nat)
  | [], _, m => some m
  | o :: D, i, m =>
    match order[i]?, o.bind (order[·]?) with
    | some n, some c => fill order D (i + 1) (fun x => if x = n then some c else m x)
    | _, _ => none

/-- `DominatorTree`, `src/algorithms/dominators.rs` lines 121–125. -/
structure Tree where
  root : Nat
  idom : Nat → Option Nat

/-- `DominatorTree::new`, `src/algorithms/dominators.rs` lines 131–211. -/
def dominators (G : View) (F : Filter) (d : Direction) (cap entry : Nat) : Option Tree :=
  match postorder G F d cap [entry] with
  | none => none
  | some (order, _) =>
    if order.length = 0 then none
    else
      let idx := fun n => if n ∈ order then order.idxOf n else 0
      let D := (List.replicate order.length none).set (order.length - 1) (some (order.length - 1))
      match iterate G F d idx order (order.length + 1) D with
      | none => none
      | some D => (fill order (D.take (order.length - 1)) 0 fun _ => none).map (⟨entry, ·⟩)

end Verif.Algo.Dom
