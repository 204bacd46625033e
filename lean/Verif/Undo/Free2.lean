import Verif.Undo.Free

/-!
# Whole calls and histories on states with the same heads

Lemmas.
-/

namespace Verif.Undo

open Verif.PG

theorem both_bind {α β : Type} {x y : Option (α × PG)} (h : Both SameButFree x y) (f : α → PG → Option (β × PG))
    (hf : ∀ a g pf, SameHeads pf g.portFree → Both SameButFree (f a (setFree g pf)) (f a g)) :
    Both SameButFree (x.bind fun z => f z.1 z.2) (y.bind fun z => f z.1 z.2) := by
  rcases h with ⟨rfl, rfl⟩ | ⟨a, g, k, rfl, rfl, hR⟩
  · exact .inl ⟨rfl, rfl⟩
  · obtain ⟨pf, rfl, hs⟩ := sameBut_iff.1 hR
    exact hf a k pf hs

theorem both_some {α : Type} {g : PG} {pf : List (Option Nat)} (hs : SameHeads pf g.portFree) (a : α) :
    Both SameButFree (some (a, setFree g pf)) (some (a, g)) := .inr ⟨a, _, _, rfl, rfl, rfl, hs⟩

theorem flip_some {α : Type} {x : Option (PG × α)} {a : α} {g : PG} (h : (x.map fun z => (z.2, z.1)) = some (a, g)) : x = some (g, a) := by
  cases x with
  | none => cases h
  | some z => cases h; rfl

theorem addNode_free {h : PG} {pf : List (Option Nat)} (hs : SameHeads pf h.portFree) (maxOff i o : Nat) :
    Both SameButFree ((setFree h pf).addNode maxOff i o) (h.addNode maxOff i o) := by
  have key : ∀ g : PG, g.addNode maxOff i o = if i ≤ maxOff ∧ o ≤ maxOff then
      g.allocNode.bind fun z => (z.2.allocPorts z.1 i o 0).bind fun y =>
        if z.1 < y.2.nodeMeta.length then
          some (z.1, { y.2 with
            nodeMeta := y.2.nodeMeta.set z.1 (.node y.1), nodeCount := y.2.nodeCount + 1, portCount := y.2.portCount + (i + o) })
        else none
      else none := by
    intro g
    unfold PG.addNode
    split
    · cases g.allocNode with
      | none => rfl
      | some z =>
        simp only [Option.bind_some]
        cases z.2.allocPorts z.1 i o 0 <;> rfl
    · rfl
  rw [key, key]
  split
  · refine both_bind (both_keep hs PG.allocNode fun g pf => allocNode_free g pf) (fun n g =>
      (g.allocPorts n i o 0).bind fun y =>
        if n < y.2.nodeMeta.length then
          some (n, { y.2 with
            nodeMeta := y.2.nodeMeta.set n (.node y.1), nodeCount := y.2.nodeCount + 1, portCount := y.2.portCount + (i + o) })
        else none) fun n g pf hs => ?_
    refine both_bind (allocPorts_free (pf := pf) n i o 0 hs) (fun m (g : PG) =>
        if n < g.nodeMeta.length then
          some (n, { g with
            nodeMeta := g.nodeMeta.set n (.node m), nodeCount := g.nodeCount + 1, portCount := g.portCount + (i + o) })
        else none) fun m g pf hs => ?_
    simp only [show (setFree g pf).nodeMeta = g.nodeMeta from rfl]
    split
    · exact both_some (g := { g with
            nodeMeta := g.nodeMeta.set n (.node m), nodeCount := g.nodeCount + 1, portCount := g.portCount + (i + o) }) hs n
    · exact .inl ⟨rfl, rfl⟩
  · exact .inl ⟨rfl, rfl⟩

theorem removeNode_free {h : PG} {pf : List (Option Nat)} (hs : SameHeads pf h.portFree) (n : Nat) :
    Both SameButFree (((setFree h pf).removeNode n).map fun x => ((), x)) ((h.removeNode n).map fun x => ((), x)) := by
  unfold PG.removeNode
  rw [show (setFree h pf).node? = h.node? from rfl]
  cases h.node? n with
  | none => exact both_some hs ()
  | some m =>
    simp only
    have := both_keep hs (fun g : PG => (g.freeNode n).map fun x => ((), x)) (by
      intro g pf
      simp only [freeNode_free]
      cases g.freeNode n <;> rfl)
    rcases this with ⟨h1, h2⟩ | ⟨a, g1, k1, h1, h2, hR⟩
    · simp only [Option.map_eq_none_iff] at h1 h2
      rw [h1, h2]
      exact .inl ⟨rfl, rfl⟩
    · simp only [Option.map_eq_some_iff, Prod.mk.injEq, true_and, exists_eq_right] at h1 h2
      rw [h1, h2]
      obtain ⟨pf1, rfl, hs1⟩ := sameBut_iff.1 hR
      simp only [show (setFree k1 pf1).nodeCount = k1.nodeCount from rfl, show (setFree k1 pf1).portCount = k1.portCount from rfl,
        show (setFree k1 pf1).portLink = k1.portLink from rfl, show (setFree k1 pf1).portMeta = k1.portMeta from rfl]
      split
      · exact .inl ⟨rfl, rfl⟩
      · split
        · split
          · exact freePorts_free (pf := pf1) (h := { k1 with nodeCount := k1.nodeCount - 1, portCount := k1.portCount - m.portCount })
              m.first m.capacity hs1
          · exact .inl ⟨rfl, rfl⟩
        · exact both_some (g := { k1 with nodeCount := k1.nodeCount - 1 }) hs1 ()

theorem setNumPorts_free {h : PG} {pf : List (Option Nat)} (hs : SameHeads pf h.portFree) (n i o : Nat) :
    Both SameButFree (((setFree h pf).setNumPorts n i o).map fun x => (x.2, x.1)) ((h.setNumPorts n i o).map fun x => (x.2, x.1)) := by
  unfold PG.setNumPorts
  rw [show (setFree h pf).node? = h.node? from rfl]
  split
  · simp only
    cases h.node? n with
    | none => exact both_some hs []
    | some m =>
      simp only
      split
      · exact both_some hs []
      · split
        · exact both_keep hs (fun g : PG => (g.resizeInplace n i o).map fun x => (x.2, x.1)) (by
            intro g pf
            simp only [resizeInplace_free]
            cases g.resizeInplace n i o <;> rfl)
        · have := both_keep hs (fun g : PG => (g.dropPorts (PG.droppedPorts m i o)).map fun x => (x.2, x.1)) (by
            intro g pf
            simp only [dropPorts_free]
            cases g.dropPorts (PG.droppedPorts m i o) <;> rfl)
          rcases this with ⟨h1, h2⟩ | ⟨tr1, g1, k1, h1, h2, hR⟩
          · simp only [Option.map_eq_none_iff] at h1 h2
            rw [h1, h2]
            exact .inl ⟨rfl, rfl⟩
          · replace h1 := flip_some h1
            replace h2 := flip_some h2
            rw [h1, h2]
            obtain ⟨pf1, rfl, hs1⟩ := sameBut_iff.1 hR
            simp only
            rcases allocPorts_free (pf := pf1) n i o (PG.nextPow2 (i + o) - (i + o)) hs1 with ⟨h1, h2⟩ | ⟨nm, g2, k2, h1, h2, hR⟩
            · rw [h1, h2]
              exact .inl ⟨rfl, rfl⟩
            · rw [h1, h2]
              obtain ⟨pf2, rfl, hs2⟩ := sameBut_iff.1 hR
              simp only
              have := both_keep hs2 (fun g : PG => (g.relocPorts ((m.ports .incoming).zip (nm.ports .incoming)
                ++ (m.ports .outgoing).zip (nm.ports .outgoing))).map fun x => (x.2, x.1)) (by
                intro g pf
                simp only [relocPorts_free]
                cases g.relocPorts ((m.ports .incoming).zip (nm.ports .incoming) ++ (m.ports .outgoing).zip (nm.ports .outgoing)) <;> rfl)
              rcases this with ⟨h1, h2⟩ | ⟨tr2, g3, k3, h1, h2, hR⟩
              · simp only [Option.map_eq_none_iff] at h1 h2
                rw [h1, h2]
                exact .inl ⟨rfl, rfl⟩
              · replace h1 := flip_some h1
                replace h2 := flip_some h2
                rw [h1, h2]
                obtain ⟨pf3, rfl, hs3⟩ := sameBut_iff.1 hR
                simp only [show (setFree k3 pf3).nodeMeta = k3.nodeMeta from rfl]
                split
                · rcases freePorts_free (pf := pf3) (h := { k3 with nodeMeta := k3.nodeMeta.set n (.node nm) }) m.first m.capacity hs3 with
                    ⟨h1, h2⟩ | ⟨_, g4, k4, h1, h2, hR⟩
                  · simp only [Option.map_eq_none_iff] at h1 h2
                    rw [show ({ setFree k3 pf3 with nodeMeta := k3.nodeMeta.set n (.node nm) } : PG) =
                      setFree { k3 with nodeMeta := k3.nodeMeta.set n (.node nm) } pf3 from rfl, h1, h2]
                    exact .inl ⟨rfl, rfl⟩
                  · simp only [Option.map_eq_some_iff, Prod.mk.injEq, true_and, exists_eq_right] at h1 h2
                    rw [show ({ setFree k3 pf3 with nodeMeta := k3.nodeMeta.set n (.node nm) } : PG) =
                      setFree { k3 with nodeMeta := k3.nodeMeta.set n (.node nm) } pf3 from rfl, h1, h2]
                    obtain ⟨pf4, rfl, hs4⟩ := sameBut_iff.1 hR
                    simp only [show (setFree k4 pf4).portCount = k4.portCount from rfl]
                    split
                    · exact both_some (g := { k4 with portCount := k4.portCount - (m.incoming + m.outgoing) + (i + o) }) hs4 (tr1 ++ tr2)
                    · exact .inl ⟨rfl, rfl⟩
                · exact .inl ⟨rfl, rfl⟩
  · exact .inl ⟨rfl, rfl⟩

theorem SameButFree.refl (g : PG) : SameButFree g g := ⟨rfl, fun _ => rfl⟩

theorem both_refl {α : Type} (x : Option (α × PG)) : Both SameButFree x x := by
  cases x with
  | none => exact .inl ⟨rfl, rfl⟩
  | some x => exact .inr ⟨x.1, x.2, x.2, rfl, rfl, .refl _⟩

theorem ask_free {g h : PG} (hR : SameButFree g h) (maxOff : Nat) (op : PG.Op) : Both SameButFree (ask maxOff g op) (ask maxOff h op) := by
  obtain ⟨pf, rfl, hs⟩ := sameBut_iff.1 hR
  cases op with
  | addNode i o => exact (addNode_free hs maxOff i o).map Answer.node
  | removeNode n =>
    have := (removeNode_free hs n).map fun _ => Answer.unit
    simpa only [Option.map_map, Function.comp_def, ask] using this
  | linkPorts a b => exact (both_keep hs (fun g : PG => g.linkPorts a b) fun g pf => linkPorts_free g pf a b).map Answer.link
  | unlinkPort p => exact (both_keep hs (fun g : PG => g.unlinkPort p) fun g pf => unlinkPort_free g pf p).map Answer.unlink
  | setNumPorts n i o =>
    have := (setNumPorts_free hs n i o).map Answer.ports
    simpa only [Option.map_map, Function.comp_def, ask] using this
  | compactNodes =>
    have := (both_keep hs (fun g : PG => g.compactNodes.map fun x => (x.2, x.1)) (by
      intro g pf
      simp only [compactNodes_free]
      cases g.compactNodes <;> rfl)).map Answer.moves
    simpa only [Option.map_map, Function.comp_def, ask] using this
  | compactPorts =>
    simp only [ask, compactPorts_free]
    exact both_refl _
  | swapNodes a b =>
    have := (both_keep hs (fun g : PG => (g.swapNodes a b).map fun x => ((), x)) (by
      intro g pf
      simp only [swapNodes_free]
      cases g.swapNodes a b <;> rfl)).map fun _ => Answer.unit
    simpa only [Option.map_map, Function.comp_def, ask] using this
  | clear => exact .inr ⟨.unit, _, _, rfl, rfl, rfl, fun _ => rfl⟩

theorem askAll_free {g h : PG} (hR : SameButFree g h) (maxOff : Nat) (ops : List PG.Op) :
    Both SameButFree (askAll maxOff g ops) (askAll maxOff h ops) := by
  induction ops generalizing g h with
  | nil => exact .inr ⟨[], g, h, rfl, rfl, hR⟩
  | cons op ops ih =>
    unfold askAll
    rcases ask_free hR maxOff op with ⟨h1, h2⟩ | ⟨a, g1, k1, h1, h2, hR1⟩
    · rw [h1, h2]
      exact .inl ⟨rfl, rfl⟩
    · rw [h1, h2]
      exact (ih hR1).map (a :: ·)

end Verif.Undo
