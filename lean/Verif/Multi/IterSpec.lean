import Verif.Multi.IterModel

/-!
# What an iterator over a list answers
-/

namespace Verif.Multi

/-- Run a sequence of calls: `false` is `next`, `true` is `next_back`. -/
def runCalls {S X : Type} (next back : S → Option (Option X × S)) : List Bool → S → Option (List (Option X) × S)
  | [], s => some ([], s)
  | b :: bs, s =>
    match (if b then back s else next s) with
    | none => none
    | some (x, s) => (runCalls next back bs s).map fun y => (x :: y.1, y.2)

/-- Specification: the answers of a sequence that is taken apart from both ends, and what is left. -/
def served {X : Type} : List Bool → List X → List (Option X) × List X
  | [], l => ([], l)
  | false :: bs, l => (l.head? :: (served bs l.tail).1, (served bs l.tail).2)
  | true :: bs, l => (l.getLast? :: (served bs l.dropLast).1, (served bs l.dropLast).2)

/-- A size hint for `n` items left: the contract of `Iterator::size_hint`. -/
def HintOk (h : Nat × Option Nat) (n : Nat) : Prop := h.1 ≤ n ∧ ∀ u, h.2 = some u → n ≤ u

/-- The iterator answers any sequence of calls to `next` and `next_back` like the list `l`, and after
it the size hint is right for what is left. -/
def Serves {S X : Type} (next back : S → Option (Option X × S)) (hint : S → Nat × Option Nat) (s : S) (l : List X) : Prop :=
  ∀ bs, ∃ s', runCalls next back bs s = some ((served bs l).1, s') ∧ HintOk (hint s') (served bs l).2.length

/-- The same for iterators that only go forward; `none` for ever after the end. -/
def ServesForward {S X : Type} (next : S → Option (Option X × S)) (hint : S → Nat × Option Nat) (s : S) (l : List X) : Prop :=
  ∀ k, ∃ s', runCalls next next (List.replicate k false) s = some ((List.range k).map (l[·]?), s') ∧
    HintOk (hint s') (l.length - k)

/-- The hint of the trait's default `size_hint`. -/
def noHint {S : Type} (_ : S) : Nat × Option Nat := (0, none)

end Verif.Multi
