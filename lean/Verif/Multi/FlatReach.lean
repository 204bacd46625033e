import Verif.Multi.History
import Verif.PortGraph.PropsSet

/-!
# The flat graph of a reachable multigraph is a reachable port graph
-/

namespace Verif.Multi

open Verif (Direction)
open Verif.PG Verif.View

variable {maxOff : Nat}

theorem flat_add {g : PG} (h : PG.Reach maxOff g) {i o : Nat} (hi : i ≤ maxOff) (ho : o ≤ maxOff) {r}
    (hr : g.addNode maxOff i o = some r) : PG.Reach maxOff r.2 :=
  .step (op := .addNode i o) h ⟨hi, ho⟩ (by simp [PG.step, hr])

theorem flat_unlink {g : PG} (h : PG.Reach maxOff g) {p : Nat} {r} (hr : g.unlinkPort p = some r) : PG.Reach maxOff r.2 :=
  .step (op := .unlinkPort p) h trivial (by simp [PG.step, hr])

theorem flat_link {g : PG} (h : PG.Reach maxOff g) {a b : Nat} {r} (hr : g.linkPorts a b = some r) : PG.Reach maxOff r.2 :=
  .step (op := .linkPorts a b) h trivial (by simp [PG.step, hr])

theorem flat_remove {g g' : PG} (h : PG.Reach maxOff g) {n : Nat} (hr : g.removeNode n = some g') : PG.Reach maxOff g' :=
  .step (op := .removeNode n) h trivial (by simp [PG.step, hr])

theorem flat_set (hmax : maxOff ≤ 32767) {g : PG} (h : PG.Reach maxOff g) {n i o : Nat} {r} (hr : g.setNumPorts n i o = some r) :
    PG.Reach maxOff r.1 := by
  have hio : i ≤ 65534 ∧ o ≤ 65535 := by
    unfold PG.setNumPorts at hr
    simp only at hr
    split at hr
    · assumption
    · cases hr
  refine .step (op := .setNumPorts n i o) h ⟨hio.1, hio.2, ?_⟩ (by simp [PG.step, hr])
  cases hc : g.containsNode n with
  | false => simp
  | true =>
    rcases (C14_no_panic_partial hmax h hc hio.1 hio.2).1 (by rw [hr]; rfl) with h1 | h1 | h1
    · exact .inl h1
    · exact .inr (.inl h1)
    · exact .inr (.inr (.inr h1))

theorem flat_directed {g : PG} (h : PG.Reach maxOff g) {p q : Nat} {d : Direction} {r}
    (hr : MG.linkDirected g p q d = some r) : PG.Reach maxOff r.2 := by
  cases d <;> exact flat_link h hr

theorem flat_removeCopy {m : MG} (h : PG.Reach maxOff m.graph) {p cp : Nat} {r} (hr : m.removeCopyNode p cp = some r) :
    PG.Reach maxOff r.2.graph := by
  unfold MG.removeCopyNode at hr
  simp only at hr
  repeat' split at hr
  all_goals first | cases hr | skip
  rename_i hg _
  exact flat_remove h hg

theorem flat_unlinkPort {m : MG} (h : PG.Reach maxOff m.graph) {p : Nat} {r} (hr : m.unlinkPort p = some r) :
    PG.Reach maxOff r.2.graph := by
  unfold MG.unlinkPort at hr
  split at hr
  · split at hr
    · exact flat_removeCopy h hr
    · cases hr
  · obtain ⟨x, hx, rfl⟩ := Option.map_eq_some_iff.1 hr
    exact flat_unlink h hx

theorem flat_unlinkMultis {m : MG} (h : PG.Reach maxOff m.graph) {ps : List Nat} {m'} (hr : m.unlinkMultis ps = some m') :
    PG.Reach maxOff m'.graph := by
  induction ps generalizing m with
  | nil => simp only [MG.unlinkMultis, Option.some.injEq] at hr; rw [← hr]; exact h
  | cons p ps ih =>
    simp only [MG.unlinkMultis] at hr
    split at hr
    · split at hr
      · cases hr
      · rename_i e
        exact ih (flat_unlinkPort h e) hr
    · exact ih h hr

theorem flat_removeCopies {m : MG} (h : PG.Reach maxOff m.graph) {ps : List (Nat × Nat)} {m'}
    (hr : m.removeCopies ps = some m') : PG.Reach maxOff m'.graph := by
  induction ps generalizing m with
  | nil => simp only [MG.removeCopies, Option.some.injEq] at hr; rw [← hr]; exact h
  | cons p ps ih =>
    simp only [MG.removeCopies] at hr
    split at hr
    · cases hr
    · rename_i e
      exact ih (flat_removeCopy h e) hr

theorem flat_setNumPorts (hmax : maxOff ≤ 32767) {m : MG} (h : PG.Reach maxOff m.graph) {n i o : Nat} {r}
    (hr : m.setNumPorts n i o = some r) : PG.Reach maxOff r.1.graph := by
  unfold MG.setNumPorts at hr
  split at hr
  · cases hr
  · rename_i g tr e1
    split at hr
    · cases hr
    · obtain ⟨m', h1, rfl⟩ := Option.map_eq_some_iff.1 hr
      refine flat_removeCopies ?_ h1
      exact flat_set hmax h e1

theorem flat_makeCopy (h2m : 2 ≤ maxOff) {m : MG} (h : PG.Reach maxOff m.graph) {p l : Nat} {d : Direction} {r}
    (hr : m.makeCopy maxOff p l d = some r) : PG.Reach maxOff r.2.graph := by
  unfold MG.makeCopy at hr
  simp only at hr
  split at hr
  · cases hr
  · rename_i c g e1
    have h1 := flat_add h (by split <;> omega) (by split <;> omega) e1
    split at hr
    · split at hr
      · cases hr
      · rename_i e2
        have h2 := flat_unlink h1 e2
        split at hr
        · cases hr
        · rename_i e3
          cases hr
          exact flat_directed h2 e3
        · rename_i e3
          have h3 := flat_directed h2 e3
          split at hr
          · cases hr
          · rename_i e4
            cases hr
            exact flat_directed h3 e4
          · rename_i e4
            cases hr
            exact flat_directed h3 e4
    · cases hr

theorem flat_addPort (hmax : maxOff ≤ 32767) {m : MG} (h : PG.Reach maxOff m.graph) {n : Nat} {d : Direction} {r}
    (hr : m.addPort n d = some r) : PG.Reach maxOff r.2.graph := by
  unfold MG.addPort at hr
  simp only at hr
  split at hr
  · cases hr
  · rename_i e1
    obtain ⟨q, -, rfl⟩ := Option.map_eq_some_iff.1 hr
    exact flat_setNumPorts hmax h e1

theorem flat_getFree (h2m : 2 ≤ maxOff) (hmax : maxOff ≤ 32767) {m : MG} (h : PG.Reach maxOff m.graph) {p : Nat} {r}
    (hr : m.getFree maxOff p = some r) : PG.Reach maxOff r.2.graph := by
  unfold MG.getFree at hr
  split at hr
  · cases hr; exact h
  · split at hr
    · cases hr
    · cases hr; exact h
    · exact flat_makeCopy h2m h hr
    · split at hr
      · cases hr
      · split at hr
        · obtain ⟨q, -, rfl⟩ := Option.map_eq_some_iff.1 hr
          exact h
        · simp only at hr
          split at hr
          · cases hr
          · rename_i e1
            obtain ⟨q, -, rfl⟩ := Option.map_eq_some_iff.1 hr
            exact flat_addPort hmax h e1
    · cases hr

theorem flat_linkPorts (h2m : 2 ≤ maxOff) (hmax : maxOff ≤ 32767) {m : MG} (h : PG.Reach maxOff m.graph) {a b : Nat} {r}
    (hr : m.linkPorts maxOff a b = some r) : PG.Reach maxOff r.2.graph := by
  unfold MG.linkPorts at hr
  split at hr
  · cases hr
  · rename_i e1
    cases hr
    exact flat_getFree h2m hmax h e1
  · rename_i e1
    have h1 := flat_getFree h2m hmax h e1
    split at hr
    · cases hr
    · rename_i e2
      cases hr
      exact flat_getFree h2m hmax h1 e2
    · rename_i e2
      have h2 := flat_getFree h2m hmax h1 e2
      split at hr
      · cases hr
      · rename_i e3
        cases hr
        exact flat_link h2 e3
      · rename_i e3
        cases hr
        exact flat_link h2 e3

theorem flat_step (h2m : 2 ≤ maxOff) (hmax : maxOff ≤ 32767) {m m' : MG} (h : PG.Reach maxOff m.graph) {op : MOp} {r}
    (hok : op.ok maxOff m) (hr : m.step maxOff op = some (r, m')) : PG.Reach maxOff m'.graph := by
  cases op with
  | addNode i o =>
    obtain ⟨x, hx, he⟩ := Option.map_eq_some_iff.1 hr
    obtain ⟨y, hy, rfl⟩ := Option.map_eq_some_iff.1 hx
    cases he
    exact flat_add h hok.1 hok.2 hy
  | removeNode n =>
    obtain ⟨x, hx, he⟩ := Option.map_eq_some_iff.1 hr
    cases he
    unfold MG.removeNode at hx
    split at hx
    · cases hx
    · split at hx
      · cases hx
      · rename_i e
        obtain ⟨g, hg, rfl⟩ := Option.map_eq_some_iff.1 hx
        exact flat_remove (flat_unlinkMultis h e) hg
  | linkPorts a b =>
    obtain ⟨x, hx, he⟩ := Option.map_eq_some_iff.1 hr
    cases he
    exact flat_linkPorts h2m hmax h hx
  | unlinkPort p =>
    obtain ⟨x, hx, he⟩ := Option.map_eq_some_iff.1 hr
    cases he
    exact flat_unlinkPort h hx
  | setNumPorts n i o =>
    obtain ⟨x, hx, he⟩ := Option.map_eq_some_iff.1 hr
    cases he
    exact flat_setNumPorts hmax h hx
  | compactNodes =>
    obtain ⟨x, hx, he⟩ := Option.map_eq_some_iff.1 hr
    obtain ⟨y, hy, rfl⟩ := Option.map_eq_some_iff.1 hx
    cases he
    exact .step (op := .compactNodes) h trivial (by simp [PG.step, hy])
  | compactPorts =>
    obtain ⟨x, hx, he⟩ := Option.map_eq_some_iff.1 hr
    obtain ⟨y, hy, rfl⟩ := Option.map_eq_some_iff.1 hx
    cases he
    exact .step (op := .compactPorts) h hok (by simp [PG.step, hy])
  | swapNodes a b =>
    obtain ⟨x, hx, he⟩ := Option.map_eq_some_iff.1 hr
    obtain ⟨y, hy, rfl⟩ := Option.map_eq_some_iff.1 hx
    cases he
    exact .step (op := .swapNodes a b) h hok.1 (by simp [PG.step, hy])
  | clear =>
    simp only [MG.step, Option.some.injEq, Prod.mk.injEq] at hr
    rw [← hr.2]
    exact .step (op := .clear) h trivial (by simp [PG.step, MG.clear])
  | linkSubports e f =>
    obtain ⟨x, hx, he⟩ := Option.map_eq_some_iff.1 hr
    cases he
    unfold MG.linkSubports at hx
    split at hx
    · obtain ⟨y, hy, rfl⟩ := Option.map_eq_some_iff.1 hx
      exact flat_link h hy
    · cases hx
  | unlinkSubport e =>
    obtain ⟨x, hx, he⟩ := Option.map_eq_some_iff.1 hr
    cases he
    unfold MG.unlinkSubport at hx
    split at hx
    · cases hx
    · cases hx; exact h
    · split at hx
      · cases hx
      · rename_i e1; cases hx; exact flat_unlink h e1
      · rename_i e1
        obtain ⟨y, hy, rfl⟩ := Option.map_eq_some_iff.1 hx
        exact flat_unlink h e1

/-- Every theorem about reachable port graphs holds for the flat graph of a reachable multigraph. -/
theorem MReach.flat (h2m : 2 ≤ maxOff) (hmax : maxOff ≤ 32767) {m : MG} (h : MReach maxOff m) : PG.Reach maxOff m.graph := by
  induction h with
  | init hg => exact hg
  | step _ hok hr ih => exact flat_step h2m hmax ih hok hr

end Verif.Multi
