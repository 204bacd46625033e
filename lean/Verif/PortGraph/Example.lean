import Verif.PortGraph.History

/-! Concrete reachable graphs, used beside the property theorems to show that their
hypotheses can be met. -/

namespace Verif.PG

theorem checkedRun_ok {maxOff : Nat} {ops : List PG.Op} : ∀ {g g' : PG}, checkedRun maxOff g ops = some g' → OkRun maxOff g ops := by
  induction ops with
  | nil => intro g g' _; trivial
  | cons op ops ih =>
    intro g g' h
    simp only [checkedRun] at h
    split at h
    · rename_i hok
      refine ⟨okCheck_ok hok, fun g1 hg1 => ?_⟩
      rw [hg1] at h
      exact ih h
    · cases h

/-- Two nodes with a link each way, a self link, an isolated node and a freed slot. -/
def exOps : List PG.Op :=
  [.addNode 2 2, .addNode 2 1, .addNode 0 1, .addNode 1 1,
   .linkPorts 2 4, .linkPorts 6 0, .linkPorts 3 1, .removeNode 2]

def exG : PG := (PG.run 32767 PG.empty exOps).getD PG.empty

theorem exG_run : checkedRun 32767 PG.empty exOps = some exG := by decide

theorem exG_reach : PG.Reach 32767 exG := checkedRun_reach .init exG_run

/-- The same graph after a shrink in place, a growth and a compaction. -/
def exOps2 : List PG.Op :=
  exOps ++ [.setNumPorts 0 1 2, .setNumPorts 1 4 3, .compactNodes, .compactPorts, .swapNodes 0 1, .unlinkPort 1]

def exG2 : PG := (PG.run 32767 PG.empty exOps2).getD PG.empty

theorem exG2_run : checkedRun 32767 PG.empty exOps2 = some exG2 := by decide

theorem exG2_reach : PG.Reach 32767 exG2 := checkedRun_reach .init exG2_run

end Verif.PG
