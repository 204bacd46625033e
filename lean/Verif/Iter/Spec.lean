import Verif.Iter.Model

/-!
# What the methods of an iterator over a list answer
-/

namespace Verif.Iter

/-- The methods on the list of the items left: `nth` takes the item after `n` others, the count
and both bounds of the size hint are the number of items left. -/
def listCall {X : Type} (l : List X) : ICall → IAns X × List X
  | .next => (.item l.head?, l.tail)
  | .back => (.item l.getLast?, l.dropLast)
  | .nth n => (.item l[n]?, l.drop (n + 1))
  | .count => (.count l.length, l)
  | .hint => (.hint l.length (some l.length), l)

/-- The answers to a sequence of calls. -/
def listRun {X : Type} : List X → List ICall → List (IAns X)
  | _, [] => []
  | l, c :: cs => (listCall l c).1 :: listRun (listCall l c).2 cs

/-- The iterator answers every sequence of the given kinds of calls like the list. -/
def BehavesFor {S X : Type} (kinds : ICall → Prop) (it : It S X) (s : S) (l : List X) : Prop :=
  ∀ cs, (∀ c ∈ cs, kinds c) → it.run s cs = some (listRun l cs)

/-- All kinds of calls. -/
def Behaves {S X : Type} (it : It S X) (s : S) (l : List X) : Prop := BehavesFor (fun _ => True) it s l

end Verif.Iter
