import Verif.Slots.Alloc
import Verif.PortGraph.PropsCap

/-! The vector of free lists: what every call does to it. -/

namespace Verif.Slots

open Verif (Direction)
open Verif.PG

theorem allocNode_pf {g : PG} {r} (h : g.allocNode = some r) : r.2.portFree = g.portFree := by
  unfold PG.allocNode at h
  repeat' split at h
  all_goals cases h
  all_goals rfl

theorem allocPorts_pf {g : PG} {n i o e r} (h : g.allocPorts n i o e = some r) : r.2.portFree.length = g.portFree.length := by
  unfold PG.allocPorts at h
  simp only at h
  repeat' split at h
  all_goals cases h
  all_goals simp

theorem unlinkPort_pf {g : PG} {p r} (h : g.unlinkPort p = some r) : r.2.portFree = g.portFree := by
  unfold PG.unlinkPort at h
  repeat' split at h
  all_goals cases h
  all_goals rfl

theorem linkPorts_pf {g : PG} {a b r} (h : g.linkPorts a b = some r) : r.2.portFree = g.portFree := by
  unfold PG.linkPorts at h
  repeat' split at h
  all_goals cases h
  all_goals rfl

theorem dropPorts_pf {g : PG} {ps r} (h : g.dropPorts ps = some r) : r.1.portFree = g.portFree := by
  induction ps generalizing g r with
  | nil => simp [PG.dropPorts] at h; rw [← h]
  | cons p ps ih =>
    simp only [PG.dropPorts] at h
    split at h
    · cases h
    · rename_i e
      split at h
      · cases h
      · rename_i e'
        cases h
        rw [ih e', unlinkPort_pf e]

theorem movePort_pf {g g' : PG} {a b} (h : g.movePort a b = some g') : g'.portFree = g.portFree := by
  unfold PG.movePort at h
  simp only at h
  repeat' split at h
  all_goals cases h
  all_goals rfl

theorem movePorts_pf {g : PG} {ps r} (h : g.movePorts ps = some r) : r.1.portFree = g.portFree := by
  induction ps generalizing g r with
  | nil => simp [PG.movePorts] at h; rw [← h]
  | cons p ps ih =>
    simp only [PG.movePorts] at h
    split at h
    · cases h
    · rename_i e
      split at h
      · cases h
      · rename_i e'
        cases h
        rw [ih e', movePort_pf e]

theorem relocPort_pf {g g' : PG} {a b} (h : g.relocPort a b = some g') : g'.portFree = g.portFree := by
  unfold PG.relocPort at h
  repeat' split at h
  all_goals cases h
  all_goals rfl

theorem relocPorts_pf {g : PG} {ps r} (h : g.relocPorts ps = some r) : r.1.portFree = g.portFree := by
  induction ps generalizing g r with
  | nil => simp [PG.relocPorts] at h; rw [← h]
  | cons p ps ih =>
    simp only [PG.relocPorts] at h
    split at h
    · cases h
    · rename_i e
      split at h
      · cases h
      · rename_i e'
        cases h
        rw [ih e', relocPort_pf e]

theorem resizeInplace_pf {g : PG} {n i o r} (h : g.resizeInplace n i o = some r) : r.1.portFree = g.portFree := by
  unfold PG.resizeInplace at h
  split at h
  · cases h
  · split at h
    · cases h
    · split at h
      · cases h
      · rename_i e1
        simp only at h
        split at h
        · cases h
        · rename_i e2
          split at h
          · cases h
            have h1 := dropPorts_pf e1
            have h2 := movePorts_pf e2
            simp only at h1 h2 ⊢
            rw [h2, h1]
          · cases h

theorem claimPorts_pf {g g' : PG} {n m} (h : g.claimPorts n m = some g') : g'.portFree = g.portFree := by
  unfold PG.claimPorts at h
  split at h
  · cases h; rfl
  · cases h

theorem compactNodesLoop_pf {es : List NodeEntry} {g : PG} {a b r} (h : g.compactNodesLoop a b es = some r) :
    r.2.1.portFree = g.portFree := by
  induction es generalizing g a b r with
  | nil => simp only [PG.compactNodesLoop, Option.some.injEq] at h; rw [← h]
  | cons e es ih =>
    cases e with
    | free p n => simp only [PG.compactNodesLoop] at h; exact ih h
    | node m =>
      simp only [PG.compactNodesLoop] at h
      split at h
      · cases h
      · rename_i e1
        split at h
        · cases h
        · rename_i e2
          cases h
          have := ih e2
          simp only at this ⊢
          rw [this, claimPorts_pf e1]

theorem compactNodes_pf {g : PG} {r} (h : g.compactNodes = some r) : r.1.portFree = g.portFree := by
  unfold PG.compactNodes at h
  split at h
  · cases h
  · rename_i e
    cases h
    exact compactNodesLoop_pf e

theorem swapClaim_pf {g g' : PG} {n e} (h : g.swapClaim n e = some g') : g'.portFree = g.portFree := by
  cases e with
  | free a b => simp only [PG.swapClaim, Option.some.injEq] at h; rw [h]
  | node m => exact claimPorts_pf h

theorem swapNodes_pf {g g' : PG} {a b} (h : g.swapNodes a b = some g') : g'.portFree = g.portFree := by
  unfold PG.swapNodes at h
  split at h
  · simp only at h
    split at h
    · cases h
    · rename_i e1
      split at h
      · cases h
      · rename_i e2
        have h1 := swapClaim_pf e1
        have h2 := swapClaim_pf e2
        simp only at h1
        split at h
        · obtain ⟨l, -, rfl⟩ := Option.map_eq_some_iff.1 h
          simp only; rw [h2, h1]
        · obtain ⟨l, -, rfl⟩ := Option.map_eq_some_iff.1 h
          simp only; rw [h2, h1]
        · cases h; rw [h2, h1]
  · cases h

theorem compactPorts_pf {g : PG} {r} (h : g.compactPorts = some r) : r.1.portFree = [] := by
  unfold PG.compactPorts at h
  repeat' split at h
  all_goals cases h
  all_goals rfl

theorem freePorts_pf {g g' : PG} {f s : Nat} (h : g.freePorts f s = some g') : g'.portFree.length = max g.portFree.length s := by
  by_cases hs : s = 0
  · subst hs
    simp only [PG.freePorts, if_true, Option.some.injEq] at h
    rw [← h]; simp
  · exact (freePorts_heads h (by omega)).2

theorem removeNode_pf {g g' : PG} {n} (h : g.removeNode n = some g') : g'.portFree.length ≤ max g.portFree.length (g.nodePortCapacity n) := by
  unfold PG.removeNode at h
  split at h
  · cases h; omega
  · rename_i m hm
    rw [capacity_eq hm]
    split at h
    · cases h
    · rename_i g1 e1
      have hpf : g1.portFree = g.portFree := by
        unfold PG.freeNode at e1
        repeat' split at e1
        all_goals cases e1
        all_goals rfl
      split at h
      · cases h
      · simp only at h
        split at h
        · split at h
          · have := freePorts_pf h
            simp only [hpf] at this
            omega
          · cases h
        · cases h
          simp only [hpf]
          omega

theorem setNumPorts_pf {g : PG} {n i o r} (h : g.setNumPorts n i o = some r) :
    r.1.portFree.length ≤ max g.portFree.length (g.nodePortCapacity n) := by
  unfold PG.setNumPorts at h
  split at h
  rotate_left
  · cases h
  simp only at h
  split at h
  · cases h; simp only; omega
  · rename_i m hm
    rw [capacity_eq hm]
    split at h
    · cases h; simp only; omega
    · split at h
      · rw [resizeInplace_pf h]; omega
      · split at h
        · cases h
        · rename_i e1
          split at h
          · cases h
          · rename_i e2
            split at h
            · cases h
            · rename_i e3
              split at h
              · split at h
                · cases h
                · rename_i e4
                  split at h
                  · cases h
                    have f1 := dropPorts_pf e1
                    have f2 := allocPorts_pf e2
                    have f3 := relocPorts_pf e3
                    have f4 := freePorts_pf e4
                    simp only at f1 f2 f3 f4 ⊢
                    rw [f4, f3, f2, f1]
                    omega
                  · cases h
              · cases h

/-- The vector of free lists stays short. -/
theorem portFree_len {maxOff : Nat} (hmax : maxOff ≤ 32767) {g : PG} (hg : PG.Reach maxOff g) :
    g.portFree.length ≤ max 32768 (2 * maxOff) := by
  induction hg with
  | init => simp [PG.empty]
  | @step g g' op hr hok hs ih =>
    have hb := fun n => (C75_bounds hmax hr n).2.1
    cases op with
    | addNode i o =>
      simp only [PG.step] at hs
      obtain ⟨⟨n, g1⟩, h1, rfl⟩ := Option.map_eq_some_iff.1 hs
      obtain ⟨ga, m, gb, h2, h3, -, rfl⟩ := addNode_parts h1
      have e1 := allocNode_pf h2
      have e2 := allocPorts_pf h3
      simp only at e1 e2 ⊢
      rw [e2, e1]; exact ih
    | removeNode n =>
      simp only [PG.step] at hs
      have := removeNode_pf hs
      have := hb n
      omega
    | linkPorts a b =>
      simp only [PG.step] at hs
      obtain ⟨r, h1, rfl⟩ := Option.map_eq_some_iff.1 hs
      rw [linkPorts_pf h1]; exact ih
    | unlinkPort p =>
      simp only [PG.step] at hs
      obtain ⟨r, h1, rfl⟩ := Option.map_eq_some_iff.1 hs
      rw [unlinkPort_pf h1]; exact ih
    | setNumPorts n i o =>
      simp only [PG.step] at hs
      obtain ⟨r, h1, rfl⟩ := Option.map_eq_some_iff.1 hs
      have := setNumPorts_pf h1
      have := hb n
      omega
    | compactNodes =>
      simp only [PG.step] at hs
      obtain ⟨r, h1, rfl⟩ := Option.map_eq_some_iff.1 hs
      rw [compactNodes_pf h1]; exact ih
    | compactPorts =>
      simp only [PG.step] at hs
      obtain ⟨r, h1, rfl⟩ := Option.map_eq_some_iff.1 hs
      rw [compactPorts_pf h1]; simp
    | swapNodes a b =>
      simp only [PG.step] at hs
      rw [swapNodes_pf hs]; exact ih
    | clear =>
      simp only [PG.step, Option.some.injEq] at hs
      subst hs
      simp [PG.clear]

end Verif.Slots
