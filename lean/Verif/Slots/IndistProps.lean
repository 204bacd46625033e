import Verif.Slots.Props
import Verif.Undo.GraphProps

/-!
# C86: which port graphs a client can tell apart
-/

namespace Verif.Slots

open Verif (Direction)
open Verif.PG

/-- **C86** No client can tell two reachable graphs apart exactly if all their tables are equal, except that
one vector of free lists may have more empty lists at its end. (`max_offset` is 32766 for the default port
offset.) So everything else in the tables shows up in some answer: the order of the free nodes and of the free
slabs, the place and capacity of nodes without ports, and the lengths of the tables. -/
theorem C86_full_abstraction {maxOff : Nat} (hmax : maxOff ≤ 32767) (hmin : 16384 ≤ maxOff) {g h : PG} (hg : PG.Reach maxOff g)
    (hh : PG.Reach maxOff h) : Indist maxOff g h ↔ Undo.SameButFree g h := by
  constructor
  · intro hi
    exact Pair.eq hmax hmin ⟨hg, hh, hi⟩
  · intro hs ops
    rcases Undo.C66_same_future (maxOff := maxOff) hs ops with h1 | ⟨as, g', h', h1, h2, h3⟩
    · exact Or.inl h1
    · obtain ⟨q1, -, -, -, -, q2, -⟩ := Undo.C66_same_shape h3
      exact Or.inr ⟨as, g', h', h1, h2, ⟨q1.node, q1.port, q1.link, q2⟩⟩

/-- The two graphs of `C62_witness_history`, which `==` tells apart, cannot be told apart by calls. -/
example : PG.Reach 32766 Equality.again ∧ PG.Reach 32766 Equality.once ∧ Indist 32766 Equality.again Equality.once ∧
    Equality.again ≠ Equality.once := by
  have r1 : PG.Reach 32766 Equality.again := checkedRun_reach .init (ops := [.addNode 1 1, .removeNode 0, .addNode 1 1]) (by decide +kernel)
  have r2 : PG.Reach 32766 Equality.once := checkedRun_reach .init (ops := [.addNode 1 1]) (by decide +kernel)
  refine ⟨r1, r2, (C86_full_abstraction (by decide) (by decide) r1 r2).2 ⟨by decide +kernel, fun s => ?_⟩, by decide +kernel⟩
  have h1 : Equality.again.portFree = [none, none] := by decide +kernel
  have h2 : Equality.once.portFree = [] := by decide +kernel
  rw [h1, h2]
  rcases s with _ | _ | s <;> rfl

/-- Two graphs without nodes: nodes 0 and 1 were removed in one order or the other. -/
def gone (a b : Nat) : PG := (PG.run 32766 PG.empty [.addNode 0 1, .addNode 0 1, .removeNode a, .removeNode b]).getD PG.empty

/-- **C86** Equal answers to all queries now do not mean equal answers later: the order in which nodes were
removed decides which slots the next nodes get. -/
theorem C86_witness_order : PG.Reach 32766 (gone 0 1) ∧ PG.Reach 32766 (gone 1 0) ∧ SameQueries (gone 0 1) (gone 1 0) ∧
    ¬ Indist 32766 (gone 0 1) (gone 1 0) := by
  have r1 : PG.Reach 32766 (gone 0 1) :=
    checkedRun_reach .init (ops := [.addNode 0 1, .addNode 0 1, .removeNode 0, .removeNode 1]) (by decide +kernel)
  have r2 : PG.Reach 32766 (gone 1 0) :=
    checkedRun_reach .init (ops := [.addNode 0 1, .addNode 0 1, .removeNode 1, .removeNode 0]) (by decide +kernel)
  have hn : ∀ a b n, (a = 0 ∧ b = 1 ∨ a = 1 ∧ b = 0) → (gone a b).node? n = none := by
    intro a b n hab
    have h1 : (gone 0 1).nodeMeta = [.free (some 1) none, .free none (some 0)] := by decide +kernel
    have h2 : (gone 1 0).nodeMeta = [.free none (some 1), .free (some 0) none] := by decide +kernel
    rcases hab with ⟨rfl, rfl⟩ | ⟨rfl, rfl⟩
    · unfold PG.node?; rw [h1]; rcases n with _ | _ | n <;> rfl
    · unfold PG.node?; rw [h2]; rcases n with _ | _ | n <;> rfl
  have hp : ∀ a b p, (a = 0 ∧ b = 1 ∨ a = 1 ∧ b = 0) → (gone a b).port? p = none := by
    intro a b p hab
    have h1 : (gone 0 1).portMeta = [.free, .free] := by decide +kernel
    have h2 : (gone 1 0).portMeta = [.free, .free] := by decide +kernel
    rcases hab with ⟨rfl, rfl⟩ | ⟨rfl, rfl⟩
    · unfold PG.port?; rw [h1]; rcases p with _ | _ | p <;> rfl
    · unfold PG.port?; rw [h2]; rcases p with _ | _ | p <;> rfl
  refine ⟨r1, r2, ⟨fun n => ?_, fun n d k => ?_, fun p => ?_, fun n => ?_⟩, fun hi => ?_⟩
  · simp [PG.containsNode, hn 0 1 n (by simp), hn 1 0 n (by simp)]
  · simp [PG.portIndex, hn 0 1 n (by simp), hn 1 0 n (by simp)]
  · simp [PG.portLink?, hp 0 1 p (by simp), hp 1 0 p (by simp)]
  · simp [PG.nodePortCapacity, hn 0 1 n (by simp), hn 1 0 n (by simp)]
  · have h1 := ((C86_full_abstraction (by decide) (by decide) r1 r2).1 hi).1
    exact absurd h1 (by decide +kernel)

#print axioms C86_full_abstraction
#print axioms C86_witness_order

end Verif.Slots
