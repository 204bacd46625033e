import Verif.Serde.Bounds
import Verif.Multi.Props

/-! Lemmas: the links stored in the flat graph of a reachable multiport graph point into its vector. -/

namespace Verif.Serde

open Verif (Direction)
open Verif.PG Verif.Multi

theorem removeCopyNode_lb {m : MG} {p cp r} (h : LB m.graph) (e : m.removeCopyNode p cp = some r) : LB r.2.graph := by
  unfold MG.removeCopyNode at e
  split at e
  · cases e
  · split at e
    · split at e
      · cases e
      · split at e
        · cases e
        · simp only at e
          split at e
          · cases e
          · rename_i g hg
            split at e
            · cases e; exact removeNode_lb h hg
            · cases e
    · cases e

theorem munlinkPort_lb {m : MG} {p r} (h : LB m.graph) (e : m.unlinkPort p = some r) : LB r.2.graph := by
  unfold MG.unlinkPort at e
  split at e
  · split at e
    · exact removeCopyNode_lb h e
    · cases e
  · obtain ⟨x, hx, rfl⟩ := Option.map_eq_some_iff.1 e
    exact unlinkPort_lb h hx

theorem unlinkMultis_lb {m m' : MG} {l} (h : LB m.graph) (e : m.unlinkMultis l = some m') : LB m'.graph := by
  induction l generalizing m with
  | nil => cases e; exact h
  | cons p l ih =>
    simp only [MG.unlinkMultis] at e
    split at e
    · split at e
      · cases e
      · rename_i o m1 h1
        exact ih (munlinkPort_lb h h1) e
    · exact ih h e

theorem mremoveNode_lb {m m' : MG} {n} (h : LB m.graph) (e : m.removeNode n = some m') : LB m'.graph := by
  unfold MG.removeNode at e
  split at e
  · cases e
  · split at e
    · cases e
    · rename_i m1 h1
      obtain ⟨g, hg, rfl⟩ := Option.map_eq_some_iff.1 e
      exact removeNode_lb (unlinkMultis_lb h h1) hg

theorem removeCopies_lb {m m' : MG} {l} (h : LB m.graph) (e : m.removeCopies l = some m') : LB m'.graph := by
  induction l generalizing m with
  | nil => cases e; exact h
  | cons x l ih =>
    obtain ⟨p, q⟩ := x
    simp only [MG.removeCopies] at e
    split at e
    · cases e
    · rename_i o m1 h1
      exact ih (removeCopyNode_lb h h1) e

theorem msetNumPorts_lb {m : MG} {n i o r} (h : LB m.graph) (e : m.setNumPorts n i o = some r) : LB r.1.graph := by
  unfold MG.setNumPorts at e
  split at e
  · cases e
  · rename_i g tr hg
    split at e
    · cases e
    · rename_i f dr hf
      obtain ⟨m1, h1, rfl⟩ := Option.map_eq_some_iff.1 e
      have hg' : LB (⟨g, f, m.copy, m.copyCount, m.subCount⟩ : MG).graph := setNumPorts_lb h hg
      exact removeCopies_lb hg' h1

theorem linkDirected_lb {g : PG} {p q d r} (h : LB g) (e : MG.linkDirected g p q d = some r) : LB r.2 := by
  cases d <;> exact linkPorts_lb h e

theorem addPort_lb {m : MG} {n d r} (h : LB m.graph) (e : m.addPort n d = some r) : LB r.2.graph := by
  unfold MG.addPort at e
  simp only at e
  split at e
  · cases e
  · rename_i m1 tr h1
    obtain ⟨p, hp, rfl⟩ := Option.map_eq_some_iff.1 e
    exact msetNumPorts_lb h h1

theorem makeCopy_lb {mo : Nat} {m : MG} {p l d r} (h : LB m.graph) (e : m.makeCopy mo p l d = some r) : LB r.2.graph := by
  unfold MG.makeCopy at e
  split at e
  · cases e
  · rename_i c g hg
    have h1 : LB g := addNode_lb h hg
    simp only at e
    split at e
    · split at e
      · cases e
      · rename_i o g2 hg2
        have h2 : LB g2 := unlinkPort_lb h1 hg2
        split at e
        · cases e
        · rename_i er g3 hg3; cases e; exact linkDirected_lb h2 hg3
        · rename_i x g3 hg3
          have h3 : LB g3 := linkDirected_lb h2 hg3
          split at e
          · cases e
          · rename_i er g4 hg4; cases e; exact linkDirected_lb h3 hg4
          · rename_i y g4 hg4; cases e; exact linkDirected_lb h3 hg4
    · cases e

theorem getFree_lb {mo : Nat} {m : MG} {p r} (h : LB m.graph) (e : m.getFree mo p = some r) : LB r.2.graph := by
  unfold MG.getFree at e
  split at e
  · cases e; exact h
  · split at e
    · cases e
    · cases e; exact h
    · exact makeCopy_lb h e
    · split at e
      · cases e
      · split at e
        · obtain ⟨x, -, rfl⟩ := Option.map_eq_some_iff.1 e; exact h
        · simp only at e
          split at e
          · cases e
          · rename_i s m1 h1
            obtain ⟨x, -, rfl⟩ := Option.map_eq_some_iff.1 e
            exact addPort_lb h h1
    · cases e

theorem mlinkPorts_lb {mo : Nat} {m : MG} {a b r} (h : LB m.graph) (e : m.linkPorts mo a b = some r) : LB r.2.graph := by
  unfold MG.linkPorts at e
  split at e
  · cases e
  · rename_i er m1 h1; cases e; exact getFree_lb h h1
  · rename_i x i m1 h1
    have hm1 : LB m1.graph := getFree_lb h h1
    split at e
    · cases e
    · rename_i er m2 h2; cases e; exact getFree_lb hm1 h2
    · rename_i y j m2 h2
      have hm2 : LB m2.graph := getFree_lb hm1 h2
      split at e
      · cases e
      · rename_i er g hg; cases e; exact linkPorts_lb hm2 hg
      · rename_i z g hg; cases e; exact linkPorts_lb hm2 hg

theorem linkSubports_lb {m : MG} {a b r} (h : LB m.graph) (e : m.linkSubports a b = some r) : LB r.2.graph := by
  unfold MG.linkSubports at e
  split at e
  · obtain ⟨x, hx, rfl⟩ := Option.map_eq_some_iff.1 e
    exact linkPorts_lb h hx
  · cases e

theorem unlinkSubport_lb {m : MG} {a r} (h : LB m.graph) (e : m.unlinkSubport a = some r) : LB r.2.graph := by
  unfold MG.unlinkSubport at e
  split at e
  · cases e
  · cases e; exact h
  · split at e
    · cases e
    · rename_i g hg; cases e; exact unlinkPort_lb h hg
    · rename_i l g hg
      obtain ⟨x, -, rfl⟩ := Option.map_eq_some_iff.1 e
      exact unlinkPort_lb h hg

theorem mreach_lb {maxOff : Nat} (h2m : 2 ≤ maxOff) (hmax : maxOff ≤ 32767) {m : MG} (h : MReach maxOff m) :
    LB m.graph := by
  induction h with
  | init hg => exact reach_lb hmax hg
  | @step m m' op r hr hok e ih =>
    have hinv := ((MReach.step hr hok e).ok h2m hmax).inv
    cases op with
    | addNode i o =>
      obtain ⟨x, h1, h2⟩ := Option.map_eq_some_iff.1 e
      obtain ⟨y, h3, rfl⟩ := Option.map_eq_some_iff.1 h1
      cases h2; exact addNode_lb ih h3
    | removeNode n => obtain ⟨x, h1, h2⟩ := Option.map_eq_some_iff.1 e; cases h2; exact mremoveNode_lb ih h1
    | linkPorts a b => obtain ⟨x, h1, h2⟩ := Option.map_eq_some_iff.1 e; cases h2; exact mlinkPorts_lb ih h1
    | unlinkPort p => obtain ⟨x, h1, h2⟩ := Option.map_eq_some_iff.1 e; cases h2; exact munlinkPort_lb ih h1
    | setNumPorts n i o => obtain ⟨x, h1, h2⟩ := Option.map_eq_some_iff.1 e; cases h2; exact msetNumPorts_lb ih h1
    | compactNodes =>
      obtain ⟨x, h1, h2⟩ := Option.map_eq_some_iff.1 e
      obtain ⟨y, h3, rfl⟩ := Option.map_eq_some_iff.1 h1
      cases h2; exact compactNodes_lb ih h3
    | compactPorts =>
      obtain ⟨x, h1, h2⟩ := Option.map_eq_some_iff.1 e
      obtain ⟨y, h3, rfl⟩ := Option.map_eq_some_iff.1 h1
      cases h2; exact compactPorts_lb hinv h3
    | swapNodes a b =>
      obtain ⟨x, h1, h2⟩ := Option.map_eq_some_iff.1 e
      obtain ⟨y, h3, rfl⟩ := Option.map_eq_some_iff.1 h1
      cases h2; exact swapNodes_lb ih h3
    | clear => cases e; exact ⟨fun q hq => (nomatch hq), fun q hq => (nomatch hq)⟩
    | linkSubports a b => obtain ⟨x, h1, h2⟩ := Option.map_eq_some_iff.1 e; cases h2; exact linkSubports_lb ih h1
    | unlinkSubport a => obtain ⟨x, h1, h2⟩ := Option.map_eq_some_iff.1 e; cases h2; exact unlinkSubport_lb ih h1

end Verif.Serde
