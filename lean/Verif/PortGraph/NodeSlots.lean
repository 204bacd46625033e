import Verif.PortGraph.History

/-! How the operations change the number of node slots (for C46). -/

namespace Verif.PG

open Verif (Direction)

theorem allocNode_slots {g : PG} {r} (h : g.allocNode = some r) :
    r.2.nodeMeta.length = if g.nodeFree = none then g.nodeMeta.length + 1 else g.nodeMeta.length := by
  unfold PG.allocNode at h
  split at h
  · rename_i hf
    rw [hf]
    split at h
    · split at h
      · cases h; simp
      · split at h <;> cases h; simp
    · cases h
  · rename_i hf
    rw [hf]
    cases h; simp

theorem allocPorts_slots {g : PG} {n i o e r} (h : g.allocPorts n i o e = some r) : r.2.nodeMeta = g.nodeMeta := by
  unfold PG.allocPorts at h
  simp only at h
  repeat' split at h
  all_goals first | cases h | skip
  all_goals rfl

theorem freeNode_slots {g g' : PG} {n} (h : g.freeNode n = some g') : g'.nodeMeta.length = g.nodeMeta.length := by
  unfold PG.freeNode at h
  repeat' split at h
  all_goals first | cases h | skip
  all_goals simp

theorem freePortStep_slots {g g' : PG} {n} (h : PG.freePortStep g n = some g') : g'.nodeMeta = g.nodeMeta := by
  unfold PG.freePortStep at h
  repeat' split at h
  all_goals first | cases h | skip
  all_goals rfl

theorem freePortsLoop_slots {g g' : PG} {n k} (h : PG.freePortsLoop g n k = some g') : g'.nodeMeta = g.nodeMeta := by
  induction k generalizing g n with
  | zero => simp [PG.freePortsLoop] at h; rw [h]
  | succ k ih =>
    simp only [PG.freePortsLoop] at h
    split at h
    · cases h
    · rename_i e
      rw [ih h, freePortStep_slots e]

theorem freePorts_slots {g g' : PG} {n k} (h : PG.freePorts g n k = some g') : g'.nodeMeta = g.nodeMeta := by
  unfold PG.freePorts at h
  simp only at h
  split at h
  · cases h; rfl
  · split at h
    · cases h
    · rename_i e
      have := freePortsLoop_slots e
      split at h
      · cases h
      · split at h
        · cases h; exact this
        · cases h

theorem unlinkPort_slots {g : PG} {p r} (h : g.unlinkPort p = some r) : r.2.nodeMeta = g.nodeMeta := by
  unfold PG.unlinkPort at h
  repeat' split at h
  all_goals first | cases h | skip
  all_goals rfl

theorem linkPorts_slots {g : PG} {a b r} (h : g.linkPorts a b = some r) : r.2.nodeMeta = g.nodeMeta := by
  unfold PG.linkPorts at h
  repeat' split at h
  all_goals first | cases h | skip
  all_goals rfl

theorem dropPorts_slots {g : PG} {ps r} (h : g.dropPorts ps = some r) : r.1.nodeMeta = g.nodeMeta := by
  induction ps generalizing g r with
  | nil => simp [PG.dropPorts] at h; rw [← h]
  | cons p ps ih =>
    simp only [PG.dropPorts] at h
    split at h
    · cases h
    · rename_i e
      split at h
      · cases h
      · rename_i e'
        cases h
        rw [ih e', unlinkPort_slots e]

theorem movePort_slots {g g' : PG} {a b} (h : g.movePort a b = some g') : g'.nodeMeta = g.nodeMeta := by
  unfold PG.movePort at h
  simp only at h
  repeat' split at h
  all_goals first | cases h | skip
  all_goals rfl

theorem movePorts_slots {g : PG} {ps r} (h : g.movePorts ps = some r) : r.1.nodeMeta = g.nodeMeta := by
  induction ps generalizing g r with
  | nil => simp [PG.movePorts] at h; rw [← h]
  | cons p ps ih =>
    simp only [PG.movePorts] at h
    split at h
    · cases h
    · rename_i e
      split at h
      · cases h
      · rename_i e'
        cases h
        rw [ih e', movePort_slots e]

theorem relocPort_slots {g g' : PG} {a b} (h : g.relocPort a b = some g') : g'.nodeMeta = g.nodeMeta := by
  unfold PG.relocPort at h
  repeat' split at h
  all_goals first | cases h | skip
  all_goals rfl

theorem relocPorts_slots {g : PG} {ps r} (h : g.relocPorts ps = some r) : r.1.nodeMeta = g.nodeMeta := by
  induction ps generalizing g r with
  | nil => simp [PG.relocPorts] at h; rw [← h]
  | cons p ps ih =>
    simp only [PG.relocPorts] at h
    split at h
    · cases h
    · rename_i e
      split at h
      · cases h
      · rename_i e'
        cases h
        rw [ih e', relocPort_slots e]

theorem resizeInplace_slots {g : PG} {n i o r} (h : g.resizeInplace n i o = some r) :
    r.1.nodeMeta.length = g.nodeMeta.length := by
  unfold PG.resizeInplace at h
  split at h
  · cases h
  · split at h
    · cases h
    · split at h
      · cases h
      · rename_i e1
        simp only at h
        split at h
        · cases h
        · rename_i e2
          split at h
          · cases h
            have := dropPorts_slots e1
            have := movePorts_slots e2
            simp_all
          · cases h

theorem setNumPorts_slots {g : PG} {n i o r} (h : g.setNumPorts n i o = some r) :
    r.1.nodeMeta.length = g.nodeMeta.length := by
  unfold PG.setNumPorts at h
  simp only at h
  split at h
  · split at h
    · cases h; rfl
    · split at h
      · cases h; rfl
      · split at h
        · exact resizeInplace_slots h
        · split at h
          · cases h
          · rename_i e1
            split at h
            · cases h
            · rename_i e2
              split at h
              · cases h
              · rename_i e3
                split at h
                · split at h
                  · cases h
                  · rename_i e4
                    split at h
                    · cases h
                      have := dropPorts_slots e1
                      have := allocPorts_slots e2
                      have := relocPorts_slots e3
                      have := freePorts_slots e4
                      simp_all
                    · cases h
                · cases h
  · cases h

theorem addNode_slots {maxOff : Nat} {g : PG} {i o r} (h : g.addNode maxOff i o = some r) :
    r.2.nodeMeta.length = if g.nodeFree = none then g.nodeMeta.length + 1 else g.nodeMeta.length := by
  unfold PG.addNode at h
  split at h
  · split at h
    · cases h
    · rename_i e1
      split at h
      · cases h
      · rename_i e2
        split at h
        · cases h
          have := allocNode_slots e1
          have := allocPorts_slots e2
          simp_all
        · cases h
  · cases h

theorem removeNode_slots {g g' : PG} {n} (h : g.removeNode n = some g') : g'.nodeMeta.length = g.nodeMeta.length := by
  unfold PG.removeNode at h
  split at h
  · cases h; rfl
  · split at h
    · cases h
    · rename_i e1
      have := freeNode_slots e1
      split at h
      · cases h
      · simp only at h
        split at h
        · split at h
          · have := freePorts_slots h
            simp_all
          · cases h
        · cases h; simpa using this

theorem claimPorts_slots {g g' : PG} {n m} (h : g.claimPorts n m = some g') : g'.nodeMeta = g.nodeMeta := by
  unfold PG.claimPorts at h
  split at h <;> cases h; rfl

theorem swapClaim_slots {g g' : PG} {n e} (h : g.swapClaim n e = some g') : g'.nodeMeta = g.nodeMeta := by
  cases e with
  | free a b => simp [PG.swapClaim] at h; rw [h]
  | node m => exact claimPorts_slots h

theorem swapFreeList_slots {l l' : List NodeEntry} {n p q} (h : PG.swapFreeList l n p q = some l') : l'.length = l.length := by
  unfold PG.swapFreeList PG.setFreeNext PG.setFreePrev at h
  split at h
  · cases h
  · rename_i l1 e
    have : l1.length = l.length := by
      repeat' split at e
      all_goals first | cases e | skip
      all_goals simp
    repeat' split at h
    all_goals first | cases h | skip
    all_goals simp [this]

theorem swapNodes_slots {g g' : PG} {a b} (h : g.swapNodes a b = some g') : g'.nodeMeta.length = g.nodeMeta.length := by
  unfold PG.swapNodes at h
  split at h
  · simp only at h
    split at h
    · cases h
    · rename_i e1
      have h1 := swapClaim_slots e1
      split at h
      · cases h
      · rename_i e2
        have h2 := swapClaim_slots e2
        split at h
        · simp only [Option.map_eq_some_iff] at h
          obtain ⟨l, hl, rfl⟩ := h
          have := swapFreeList_slots hl
          simp_all
        · simp only [Option.map_eq_some_iff] at h
          obtain ⟨l, hl, rfl⟩ := h
          have := swapFreeList_slots hl
          simp_all
        · cases h; simp_all
  · cases h

theorem compactPortsLoop_slots {nm : List NodeEntry} {old new es r} (h : PG.compactPortsLoop nm old new es = some r) :
    r.2.1.length = nm.length := by
  induction es generalizing nm old new r with
  | nil => simp [PG.compactPortsLoop] at h; rw [← h]
  | cons e es ih =>
    cases e with
    | free => exact ih (by simpa [PG.compactPortsLoop] using h)
    | port n d =>
      simp only [PG.compactPortsLoop] at h
      split at h
      · split at h
        · cases h
        · rename_i nm' hx
          have hl : nm'.length = nm.length := by
            repeat' split at hx
            all_goals first | cases hx | skip
            all_goals simp
          split at h
          · cases h
          · rename_i e'
            cases h
            have := ih e'
            simp_all
      · cases h

theorem compactPorts_slots {g : PG} {r} (h : g.compactPorts = some r) : r.1.nodeMeta.length = g.nodeMeta.length := by
  unfold PG.compactPorts at h
  split at h
  · cases h
  · split at h
    · cases h
    · rename_i e
      cases h
      exact compactPortsLoop_slots e

/-- Without free slots every slot is live. -/
theorem Inv.full {g : PG} (h : Inv g) (hf : g.nodeFree = none) : g.nodeCount = g.nodeMeta.length := by
  obtain ⟨fn, hN⟩ := h.nodes
  have hc := hN.chain
  rw [hf] at hc
  have := hc.nil
  subst this
  rw [hN.count, cnt_congr (Q := fun _ => true)]
  · simp [cnt]
  · intro i hi
    cases e : g.nodeMeta[i]? with
    | none => rw [List.getElem?_eq_none_iff] at e; omega
    | some x =>
      cases x with
      | node m => rfl
      | free a b => exact absurd ((hN.exact i).2 ⟨a, b, e⟩) (by simp)

theorem compactNodes_free {g : PG} {r} (h : g.compactNodes = some r) : r.1.nodeFree = none := by
  unfold PG.compactNodes at h
  split at h <;> cases h
  rfl

end Verif.PG
