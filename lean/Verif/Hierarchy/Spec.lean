import Verif.Hierarchy.Model

/-!
# Ordered forests

The specification of `Hierarchy`, independent of its pointers: every node has a list of children.
-/

namespace Verif.Hier

/-- The list of children of every node. -/
abbrev Kids := Nat → List Nat

/-- `a` is `n` or an ancestor of `n`. -/
inductive Anc (K : Kids) : Nat → Nat → Prop
  | refl (n : Nat) : Anc K n n
  | step {a p n : Nat} : Anc K a p → n ∈ K p → Anc K a n

/-- `n` has a parent. -/
def Attached (K : Kids) (n : Nat) : Prop := ∃ p, n ∈ K p

/-- Ordered forest: no node occurs twice in the lists, and no node is below itself. -/
structure Forest (K : Kids) : Prop where
  once : ∀ p, (K p).Nodup
  oneParent : ∀ p q n, n ∈ K p → n ∈ K q → p = q
  acyclic : ∀ p n, n ∈ K p → ¬ Anc K n p

/-- The lists with one of them replaced. -/
def Kids.set (K : Kids) (p : Nat) (l : List Nat) : Kids := fun x => if x = p then l else K x

/-- `n` taken out of the lists. -/
def Kids.erase (K : Kids) (n : Nat) : Kids := fun p => (K p).filter (· ≠ n)

/-- Put `n` in front of `b` in a list. -/
def putBefore (n b : Nat) : List Nat → List Nat
  | [] => []
  | x :: l => if x = b then n :: x :: l else x :: putBefore n b l

/-- Put `n` behind `a` in a list. -/
def putAfter (n a : Nat) : List Nat → List Nat
  | [] => []
  | x :: l => if x = a then x :: n :: l else x :: putAfter n a l

/-- The transposition of `a` and `b`. -/
def transpose (a b x : Nat) : Nat := if x = a then b else if x = b then a else x

/-- All names `a` and `b` exchanged. -/
def Kids.swap (K : Kids) (a b : Nat) : Kids := fun x => (K (transpose a b x)).map (transpose a b)

/-- All nodes from `c` on cut off. -/
def Kids.cut (K : Kids) (c : Nat) : Kids := fun p => if p < c then (K p).filter (· < c) else []

/-- The calls that change a hierarchy. The numbers `extra` say how much larger than needed the
vector was allocated. -/
inductive Op where
  | pushChild (n p : Nat)
  | pushFrontChild (n p : Nat)
  | insertBefore (n b : Nat)
  | insertAfter (n a : Nat)
  | detach (n : Nat)
  | detachChildren (n : Nat)
  | remove (n : Nat)
  | swapNodes (a b : Nat)
  | rekey (old new : Nat)
  | ensureCapacity (extra c : Nat)
  | shrinkTo (extra c : Nat)

/-- What a call returns: an error, or the node returned by `detach`. -/
abbrev Res := Except AttachError (Option Nat)

/-- A call of the model: `none` is a panic; a failed call returns the unchanged hierarchy. -/
def Hierarchy.step (h : Hierarchy) : Op → Option (Res × Hierarchy)
  | .pushChild n p => (h.pushChild n p).map (fin h)
  | .pushFrontChild n p => (h.pushFrontChild n p).map (fin h)
  | .insertBefore n b => (h.insertBefore n b).map (fin h)
  | .insertAfter n a => (h.insertAfter n a).map (fin h)
  | .detach n => (h.detach n).map fun r => (.ok r.1, r.2)
  | .detachChildren n => (h.detachChildren n).map fun r => (.ok none, r)
  | .remove n => (h.remove n).map fun r => (.ok none, r)
  | .swapNodes a b => (h.swapNodes a b).map fun r => (.ok none, r)
  | .rekey old new => (h.rekey old new).map fun r => (.ok none, r)
  | .ensureCapacity extra c => some (.ok none, h.ensureCapacity (h.data.data.length + extra) c)
  | .shrinkTo extra c => (h.shrinkTo (h.data.data.length + extra) c).map fun r => (.ok none, r)
where
  /-- Result and new state of a call that returns `Result<(), AttachError>`. -/
  fin (h : Hierarchy) : Except AttachError Hierarchy → Res × Hierarchy
  | .ok h' => (.ok none, h')
  | .error e => (.error e, h)

open Classical in
/-- The parent of a node. -/
noncomputable def Kids.parent (K : Kids) (n : Nat) : Option Nat :=
  if h : Attached K n then some (Classical.choose h) else none

open Classical in
/-- What the calls should do: attach a node unless it has a parent already or would get below
itself. Only `rekey` into a node that is in use panics. -/
noncomputable def spec (K : Kids) : Op → Option (Res × Kids)
  | .pushChild n p =>
    if Anc K n p then some (.error (.cycle n p), K)
    else if Attached K n then some (.error (.alreadyAttached n), K)
    else some (.ok none, K.set p (K p ++ [n]))
  | .pushFrontChild n p =>
    if Anc K n p then some (.error (.cycle n p), K)
    else if Attached K n then some (.error (.alreadyAttached n), K)
    else some (.ok none, K.set p (n :: K p))
  | .insertBefore n b =>
    if Attached K n then some (.error (.alreadyAttached n), K)
    else match K.parent b with
      | none => some (.error (.rootSibling b), K)
      | some p =>
        if Anc K n p then some (.error (.cycle n p), K)
        else some (.ok none, K.set p (putBefore n b (K p)))
  | .insertAfter n a =>
    if Attached K n then some (.error (.alreadyAttached n), K)
    else match K.parent a with
      | none => some (.error (.rootSibling a), K)
      | some p =>
        if Anc K n p then some (.error (.cycle n p), K)
        else some (.ok none, K.set p (putAfter n a (K p)))
  | .detach n => some (.ok (K.parent n), K.erase n)
  | .detachChildren n => some (.ok none, K.set n [])
  | .remove n => some (.ok none, (K.set n []).erase n)
  | .swapNodes a b => some (.ok none, K.swap a b)
  | .rekey old new => if Attached K new ∨ K new ≠ [] then none else some (.ok none, K.swap old new)
  | .ensureCapacity _ _ => some (.ok none, K)
  | .shrinkTo _ c => some (.ok none, K.cut c)

/-- The calls considered: node indices are below `2^31` (`src/index.rs`), and no node is pushed
under itself. -/
def Op.ok : Op → Prop
  | .pushChild n p | .pushFrontChild n p => n < 2 ^ 31 ∧ p < 2 ^ 31 ∧ n ≠ p
  | .insertBefore n b | .insertAfter n b => n < 2 ^ 31 ∧ b < 2 ^ 31
  | .detach n | .detachChildren n | .remove n => n < 2 ^ 31
  | .swapNodes a b | .rekey a b => a < 2 ^ 31 ∧ b < 2 ^ 31
  | .ensureCapacity _ _ | .shrinkTo _ _ => True

/-- The hierarchies that arise by such calls. -/
inductive Reach : Hierarchy → Prop
  | new : Reach .new
  | step {h h' : Hierarchy} {op : Op} {r : Res} : Reach h → op.ok → h.step op = some (r, h') → Reach h'

/-! ## Reading -/

/-- All items of a `Children` iterator; `none` is a panic or running out of fuel. -/
def Children.collect (h : Hierarchy) : Nat → Children → Option (List Nat)
  | 0, _ => none
  | f + 1, c =>
    match c.step h with
    | none => none
    | some (none, _) => some []
    | some (some x, c) => (Children.collect h f c).map (x :: ·)

/-- The children of a node, as listed by the iterator. -/
def Hierarchy.kids (h : Hierarchy) : Kids := fun p =>
  ((h.children p).collect h (h.childCount p + 1)).getD []

/-- Calls of `next` (`false`) and `next_back` (`true`) on an iterator, with the lengths reported
before them; `none` is a panic. -/
def Children.calls (h : Hierarchy) : List Bool → Children → Option (List (Nat × Option Nat))
  | [], _ => some []
  | back :: bs, c =>
    match (if back then c.stepBack h else c.step h) with
    | none => none
    | some (x, c') => (Children.calls h bs c').map ((c.len, x) :: ·)

/-- The same calls on a list. -/
def listCalls : List Bool → List Nat → List (Nat × Option Nat)
  | [], _ => []
  | back :: bs, l =>
    (l.length, if back then l.getLast? else l.head?) :: listCalls bs (if back then l.dropLast else l.tail)

/-- All items of a `Descendants` iterator; `none` is running out of fuel. -/
def NextStates.collect (h : Hierarchy) : Nat → NextStates → Option (List Nat)
  | 0, _ => none
  | f + 1, q =>
    match q.step h with
    | (none, _) => some []
    | (some x, q) => (NextStates.collect h f q).map (x :: ·)

/-- The nodes `k` levels below `n`, from left to right. -/
def level (K : Kids) (n : Nat) : Nat → List Nat
  | 0 => [n]
  | k + 1 => (level K n k).flatMap K

end Verif.Hier
