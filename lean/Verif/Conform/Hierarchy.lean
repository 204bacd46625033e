import Verif.Conform.Basic
import Verif.Hierarchy.Model

/-!
# The tests of `src/hierarchy.rs`, lines 744–1028
-/

namespace Verif.Conform

open Verif (Direction)
open Verif.PG Verif.Hier

/-- `unwrap` of an attachment. -/
def ok (x : Option (Except AttachError Hierarchy)) : Option Hierarchy :=
  match x with
  | some (.ok h) => some h
  | _ => none

/-- The error of an attachment. -/
def err (x : Option (Except AttachError Hierarchy)) (e : AttachError) : Option Unit :=
  match x with
  | some (.error e') => same e' e
  | _ => none

/-- All items of an iterator. -/
def items {S X : Type} (step : S → Option (Option X × S)) : Nat → S → Option (List X)
  | 0, _ => none
  | f + 1, s => do
    match ← step s with
    | (none, _) => some []
    | (some x, s) => return x :: (← items step f s)

/-- `children(node).collect()` and `descendants(node).collect()`. -/
def children (h : Hierarchy) (n : Nat) : Option (List Nat) := items (Children.step h) 100 (h.children n)
def descendants (h : Hierarchy) (n : Nat) : Option (List Nat) :=
  items (fun s => some (NextStates.step h s)) 100 (h.descendants n)

/-- `test_basic`. -/
def hierBasic : Option Unit := do
  let h := Hierarchy.new
  same (h.childCount 4) 0
  same [h.parent 4, h.first 4, h.last 4, h.next 4, h.prev 4] [none, none, none, none, none]
  let h ← ok (h.pushFrontChild 0 4)
  let h ← ok (h.pushChild 2 4)
  let h ← ok (h.insertAfter 1 0)
  err (h.pushFrontChild 4 2) (.cycle 4 2)
  err (h.pushFrontChild 2 4) (.alreadyAttached 2)
  same (h.childCount 4) 3
  same (← children h 4) [0, 1, 2]
  same (← descendants h 4) [4, 0, 1, 2]
  same [h.parent 4, h.first 4, h.last 4, h.next 4, h.prev 4] [none, some 0, some 2, none, none]
  for c in [0, 1, 2] do
    same (h.parent c) (some 4)
    same (h.childCount c) 0
    same (← descendants h c) [c]
  same [h.prev 0, h.next 0, h.prev 1, h.next 1, h.prev 2, h.next 2] [none, some 1, some 0, some 2, some 1, none]

example : hierBasic = some () := by decide +kernel

/-- The hierarchy of `test_detach`, `test_rekey` and `test_swap`. -/
def hierThree : Option Hierarchy := do
  let h ← ok (Hierarchy.new.pushChild 2 4)
  let h ← ok (h.insertBefore 1 2)
  let h ← ok (h.insertBefore 0 1)
  same (← children h 4) [0, 1, 2]
  return h

/-- `test_detach`. -/
def hierDetach : Option Unit := do
  let h ← hierThree
  let (p, h) ← h.detach 1
  assert p.isSome
  same (← children h 4) [0, 2]
  same [h.prev 0, h.next 0, h.prev 2, h.next 2] [none, some 2, some 0, none]
  same [h.parent 1, h.prev 1, h.next 1] [none, none, none]
  let h ← h.detachChildren 4
  same (h.first 4) none
  same (h.last 4) none
  same (← children h 4) []
  for c in [0, 2] do
    same [h.parent c, h.prev c, h.next c] [none, none, none]

example : hierDetach = some () := by decide +kernel

/-- `test_rekey`. -/
def hierRekey : Option Unit := do
  let h ← hierThree
  let h ← ok (h.pushFrontChild 42 1)
  same (← children h 4) [0, 1, 2]
  same (← children h 1) [42]
  let h ← h.rekey 1 8
  same (← children h 4) [0, 8, 2]
  same (← children h 8) [42]
  same (h.parent 8) (some 4)
  same (h.parent 42) (some 8)
  same [h.next 0, h.next 8, h.prev 8, h.prev 2] [some 8, some 2, some 0, some 8]
  let h ← h.remove 8
  same (← children h 4) [0, 2]
  assert (h.isRoot 42)

example : hierRekey = some () := by decide +kernel

/-- `test_swap`. -/
def hierSwap : Option Unit := do
  let (root, c0, c1, c2, g1, g2) := (4, 0, 1, 2, 42, 8)
  let h ← hierThree
  let h ← ok (h.pushChild g1 c1)
  let h ← ok (h.pushChild g2 c1)
  let h ← h.swapNodes c2 g2
  let (c2, g2) := (g2, c2)
  same (← children h root) [c0, c1, c2]
  same (← children h c2) []
  same (← children h c1) [g1, g2]
  same [h.parent c2, h.parent g2, h.prev g2, h.next g2, h.next g1] [some root, some c1, some g1, none, some g2]
  let h ← h.swapNodes root c1
  let (root, c1) := (c1, root)
  same (← children h root) [c0, c1, c2]
  same (← children h c1) [g1, g2]
  same [h.parent c1, h.parent g1, h.parent g2] [some root, some c1, some c1]
  let h ← h.swapNodes c1 c2
  let (c1, c2) := (c2, c1)
  same (← children h root) [c0, c1, c2]
  same (← children h c1) [g1, g2]
  same (← children h c2) []
  same [h.next c0, h.next c1, h.next c2] [some c1, some c2, none]
  same [h.prev c0, h.prev c1, h.prev c2] [none, some c0, some c1]
  same [h.parent c1, h.parent g1, h.parent g2] [some root, some c1, some c1]

example : hierSwap = some () := by decide +kernel

/-- `test_graph_compact`. The vector has as much capacity as it has elements. -/
def hierCompact : Option Unit := do
  let (p, g) ← add PG.empty 0 0
  let (c0, g) ← add g 0 0
  let (c1, g) ← add g 0 0
  let h ← ok (Hierarchy.new.pushFrontChild c1 p)
  let h ← ok (h.insertBefore c0 c1)
  let g ← g.removeNode p
  let h ← h.remove p
  assert (h.isRoot c0)
  assert (h.isRoot c1)
  same (h.next c0) none
  let h ← ok (h.pushFrontChild c1 c0)
  let (g, moved) ← g.compactNodes
  let h ← moved.foldlM (fun h x => h.rekey x.1 x.2) h
  let c0 := (moved.lookup c0).getD c0
  let c1 := (moved.lookup c1).getD c1
  let h ← h.shrinkTo h.data.data.length g.nodeCount
  assert (h.isRoot c0)
  same (h.first c0) (some c1)
  same (h.parent c1) (some c0)

example : hierCompact = some () := by decide +kernel

end Verif.Conform
