import Verif.Multi.History

/-!
# Checked runs, to build concrete reachable multigraphs
-/

namespace Verif.Multi

open Verif (Direction)
open Verif.PG Verif.View

/-- A decidable sufficient condition for `MOp.ok`. -/
def check (maxOff : Nat) (m : MG) : MOp → Bool
  | .addNode i o => decide (i ≤ maxOff ∧ o ≤ maxOff)
  | .removeNode n => m.containsNode n
  | .linkPorts a b => m.containsPort a && m.containsPort b &&
      (match m.subportsAt? a with | some L => decide (L.length ≤ 32766) | none => true) &&
      (match m.subportsAt? b with | some L => decide (L.length ≤ 32766) | none => true)
  | .unlinkPort p => m.containsPort p
  | .setNumPorts n i o => m.containsNode n && decide (i + o ≤ 32768) &&
      (match m.graph.setNumPorts n i o with
      | none => true
      | some (_, tr) => tr.all fun x =>
        match x.2 with
        | .moved y => (!tr.any fun z => z.1 == y && (match z.2 with | .removed _ => true | _ => false)) ||
            (match m.subportsAt? y with | some L => decide (L.length ≤ 1) | none => true)
        | _ => true)
  | .compactPorts => (List.range m.graph.nodeMeta.length).all fun n =>
      decide (m.graph.numPorts n .incoming + m.graph.numPorts n .outgoing = 0 → m.graph.nodePortCapacity n = 0)
  | .swapNodes a b => m.graph.swappable a b && (!m.copy a && !m.copy b)
  | .linkSubports e f => m.containsPort e.1 && m.containsPort f.1 &&
      (match m.subportsAt? e.1 with | some L => L.contains e | none => false) &&
      (match m.subportsAt? f.1 with | some L => L.contains f | none => false)
  | .unlinkSubport e => m.containsPort e.1 && (match m.subportsAt? e.1 with | some L => L.contains e | none => false)
  | _ => true

theorem check_ok {maxOff : Nat} {m : MG} {op : MOp} (h : check maxOff m op = true) : op.ok maxOff m := by
  cases op with
  | addNode i o => simpa [check, MOp.ok] using h
  | removeNode n => exact .inl h
  | linkPorts a b =>
    simp only [check, Bool.and_eq_true] at h
    obtain ⟨⟨⟨h1, h2⟩, h3⟩, h4⟩ := h
    refine ⟨h1, h2, fun L hL => ?_, fun L hL => ?_⟩
    · rw [hL] at h3; exact .inl (by simpa using h3)
    · rw [hL] at h4; exact .inl (by simpa using h4)
  | unlinkPort p => exact .inl h
  | setNumPorts n i o =>
    simp only [check, Bool.and_eq_true, decide_eq_true_eq] at h
    obtain ⟨⟨h1, h2⟩, h3⟩ := h
    refine ⟨.inl h1, h2, ?_⟩
    intro g tr hg x y r L hx hy hL
    rw [hg] at h3
    simp only [List.all_eq_true] at h3
    have h4 := h3 _ hx
    simp only [hL, Bool.or_eq_true, Bool.not_eq_true', decide_eq_true_eq] at h4
    rcases h4 with h4 | h4
    · have : (tr.any fun z => z.1 == y && (match z.2 with | .removed _ => true | _ => false)) = true :=
        List.any_eq_true.2 ⟨_, hy, by simp⟩
      rw [h4] at this; cases this
    · exact h4
  | compactPorts =>
    simp only [check, List.all_eq_true, List.mem_range, decide_eq_true_eq] at h
    intro n hn
    by_cases hlt : n < m.graph.nodeMeta.length
    · exact h n hlt hn
    · have : m.graph.node? n = none := by
        simp only [PG.node?]; rw [List.getElem?_eq_none (by omega)]
      simp [PG.nodePortCapacity, this]
  | swapNodes a b => simpa [check, MOp.ok] using h
  | linkSubports e f =>
    simp only [check, Bool.and_eq_true] at h
    obtain ⟨⟨⟨h1, h2⟩, h3⟩, h4⟩ := h
    refine ⟨⟨h1, ?_⟩, h2, ?_⟩
    · cases hL : m.subportsAt? e.1 with
      | none => rw [hL] at h3; cases h3
      | some L => rw [hL] at h3; exact ⟨L, rfl, by simpa using h3⟩
    · cases hL : m.subportsAt? f.1 with
      | none => rw [hL] at h4; cases h4
      | some L => rw [hL] at h4; exact ⟨L, rfl, by simpa using h4⟩
  | unlinkSubport e =>
    simp only [check, Bool.and_eq_true] at h
    obtain ⟨h1, h3⟩ := h
    refine ⟨h1, ?_⟩
    cases hL : m.subportsAt? e.1 with
    | none => rw [hL] at h3; cases h3
    | some L => rw [hL] at h3; exact ⟨L, rfl, by simpa using h3⟩
  | _ => trivial

/-- A checked run. -/
def checkedMRun (maxOff : Nat) (m : MG) : List MOp → Option MG
  | [] => some m
  | op :: ops =>
    if check maxOff m op then
      match m.step maxOff op with
      | none => none
      | some (_, m) => checkedMRun maxOff m ops
    else none

theorem checkedMRun_reach {maxOff : Nat} {ops m m'} (hm : MReach maxOff m) (h : checkedMRun maxOff m ops = some m') :
    MReach maxOff m' := by
  induction ops generalizing m with
  | nil => simp [checkedMRun] at h; subst h; exact hm
  | cons op ops ih =>
    simp only [checkedMRun] at h
    split at h
    · rename_i hok
      cases hs : m.step maxOff op with
      | none => rw [hs] at h; simp at h
      | some x =>
        rw [hs] at h
        exact ih (.step hm (check_ok hok) hs) h
    · cases h

theorem empty_reach {maxOff : Nat} : MReach maxOff MG.empty := .init .init

/-- The result of a checked run, or the empty graph. -/
def built (ops : List MOp) : MG := (checkedMRun 32767 MG.empty ops).getD MG.empty

theorem built_reach (ops : List MOp) : MReach 32767 (built ops) := by
  unfold built
  cases h : checkedMRun 32767 MG.empty ops with
  | none => exact empty_reach
  | some m => exact checkedMRun_reach empty_reach h

end Verif.Multi
