import Verif.Hierarchy.Levels

/-!
# Lowest common ancestors

Model of `src/algorithms/lca.rs`. The dense maps are functions with their default values
(`Verif.Secondary`). Loops carry a fuel; `none` is a panic or running out of fuel. The only query
to the graph is `nodes_iter`, given as a list.
-/

namespace Verif.Lca

open Verif.Hier

/-- `LCA`, `src/algorithms/lca.rs` lines 21–30. -/
structure LCA where
  first : Nat → Nat
  last : Nat → Nat
  climb : Nat → List Nat

/-- `DFSState`, `src/algorithms/lca.rs` lines 176–184. -/
inductive DFS where
  | visit (node : Nat) (parent : Option Nat)
  | finish (node : Nat)

/-- `map[k] = v` for the maps of `src/algorithms/lca.rs`, `src/unmanaged.rs` lines 362–364. -/
def set {V : Type} (f : Nat → V) (k : Nat) (v : V) : Nat → V := fun x => if x = k then v else f x

/-- The scan of `src/algorithms/lca.rs` lines 67–74: the nodes 1, 2, 4, … steps above, starting with the `2^i`-th. -/
def scan (climb : Nat → List Nat) : Nat → Option Nat → Nat → Option (List Nat)
  | _, none, _ => some []
  | 0, some _, _ => none
  | f + 1, some a, i => (scan climb f (climb a)[i]? (i + 1)).map (a :: ·)

/-- The `while` loop of `new`, `src/algorithms/lca.rs` lines 59–92, with the time stamp; `H` bounds the scans. -/
def loop (K : Nat → List Nat) (H : Nat) : Nat → List DFS → LCA → Nat → Option (LCA × Nat)
  | _, [], s, t => some (s, t)
  | 0, _ :: _, _, _ => none
  | f + 1, .visit n p :: st, s, t =>
    match scan s.climb H p 0 with
    | none => none
    | some c =>
      let climb := if c.isEmpty then s.climb else set s.climb n c
      loop K H f ((K n).reverse.map (.visit · (some n)) ++ .finish n :: st) ⟨set s.first n t, s.last, climb⟩ (t + 1)
  | f + 1, .finish n :: st, s, t => loop K H f st { s with last := set s.last n t } (t + 1)

/-- The `for` loop of `new`, `src/algorithms/lca.rs` lines 48–94; `S` bounds the scans and `F` the rounds of the `while` loop
for each root. -/
def roots (K : Nat → List Nat) (isRoot : Nat → Bool) (S F : Nat) : List Nat → LCA → Nat → Option (LCA × Nat)
  | [], s, t => some (s, t)
  | r :: rs, s, t =>
    if !isRoot r then roots K isRoot S F rs s t
    else
      match loop K S F [.visit r none] s t with
      | none => none
      | some (s, t) => roots K isRoot S F rs s t

/-- `LCA::new`, `src/algorithms/lca.rs` lines 36–96. -/
def new (nodes : List Nat) (h : Hierarchy) : Option LCA :=
  (roots h.kids h.isRoot h.fuel (2 * h.fuel + 1) nodes ⟨fun _ => 0, fun _ => 0, fun _ => []⟩ 0).map (·.1)

namespace LCA

/-- `is_ancestor`, `src/algorithms/lca.rs` lines 103–105. -/
def isAncestor (s : LCA) (a b : Nat) : Bool := decide (s.first a ≤ s.first b) && decide (s.last b ≤ s.last a)

/-- `root`, `src/algorithms/lca.rs` lines 110–116. -/
def root (s : LCA) : Nat → Nat → Option Nat
  | 0, _ => none
  | f + 1, u =>
    match (s.climb u).getLast? with
    | none => some u
    | some v => root s f v

/-- The search of `src/algorithms/lca.rs` lines 144–148: follow the last climb nodes as long as they are not ancestors of
`b`. -/
def ascend (s : LCA) (b : Nat) : Nat → Nat → Option Nat
  | 0, _ => none
  | f + 1, u =>
    match (s.climb u).getLast? with
    | none => some u
    | some v => if s.isAncestor v b then some u else ascend s b f v

/-- The binary search of `src/algorithms/lca.rs` lines 155–167. -/
def search (s : LCA) (b : Nat) : Nat → Nat → Nat → Option Nat
  | 0, _, _ => none
  | f + 1, u, i =>
    if i = 0 then some u
    else
      match (s.climb u)[i - 1]? with
      | none => none
      | some v =>
        if s.isAncestor v b then search s b f u (i - 1)
        else if (s.climb v).length = 0 then none
        else search s b f v (max (i - 1) ((s.climb v).length - 1))

/-- `LCA::lca`, `src/algorithms/lca.rs` lines 123–170, with at most `R` rounds of the loop of `root`, `A` rounds of the loop of
lines 144–148 and `F` rounds of the loop of lines 155–167. -/
def lcaWith (s : LCA) (R A F a b : Nat) : Option (Option Nat) :=
  if s.isAncestor a b then some (some a)
  else if s.isAncestor b a then some (some b)
  else
    match s.root R a, s.root R b with
    | some ra, some rb =>
      if ra ≠ rb then some none
      else
        match s.ascend b A a with
        | none => none
        | some u =>
          if (s.climb u).length = 0 then none
          else
            match s.search b F u ((s.climb u).length - 1) with
            | none => none
            | some u => ((s.climb u)[0]?).map some
    | _, _ => none

/-- `LCA::lca`, `src/algorithms/lca.rs` lines 123–170; `H` bounds the depth of the forest. -/
def lca (s : LCA) (H a b : Nat) : Option (Option Nat) := s.lcaWith H H (H * (H + 1) + H + 1) a b

end LCA

end Verif.Lca
