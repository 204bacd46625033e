import Verif.Multi.FlatReach
import Verif.PortGraph.PropsCap

/-!
# Helper nodes never own more than 32768 port slots
-/

namespace Verif.Multi

open Verif (Direction)
open Verif.PG Verif.View

variable {maxOff : Nat}

/-- No helper gets more than 32768 slots by going from `m` to `m'`. -/
def CapRel (m m' : MG) : Prop := ∀ c, m'.copy c = true →
  m'.graph.nodePortCapacity c ≤ 32768 ∨ (m.copy c = true ∧ m'.graph.nodePortCapacity c ≤ m.graph.nodePortCapacity c)

theorem CapRel.refl (m : MG) : CapRel m m := fun _ hc => .inr ⟨hc, Nat.le_refl _⟩

theorem CapRel.trans {m m' m'' : MG} (h : CapRel m m') (h' : CapRel m' m'') : CapRel m m'' := by
  intro c hc
  rcases h' c hc with h1 | ⟨h1, h2⟩
  · exact .inl h1
  · rcases h c h1 with h3 | ⟨h3, h4⟩
    · exact .inl (by omega)
    · exact .inr ⟨h3, by omega⟩

/-- Steps of the flat graph that do not touch the flags of nodes. -/
theorem CapRel.of_le {m m' : MG} (hc : m'.copy = m.copy)
    (h : ∀ c, m'.graph.nodePortCapacity c ≤ 32768 ∨ m'.graph.nodePortCapacity c ≤ m.graph.nodePortCapacity c) : CapRel m m' := by
  intro c hx
  rcases h c with h1 | h1
  · exact .inl h1
  · exact .inr ⟨by rw [← hc]; exact hx, h1⟩

theorem cap_remove (hmax : maxOff ≤ 32767) {g g' : PG} (h : PG.Reach maxOff g) {n : Nat} (hr : g.removeNode n = some g') (c : Nat) :
    g'.nodePortCapacity c ≤ 32768 ∨ g'.nodePortCapacity c ≤ g.nodePortCapacity c := by
  obtain ⟨h1, h2⟩ := C75_capacity hmax h (op := .removeNode n) (g' := g') trivial (by simp [PG.step, hr])
  by_cases hc : c = n
  · subst hc; rw [h1]; exact .inl (by omega)
  · exact .inr (by rw [h2 c hc])

theorem cap_resize (hmax : maxOff ≤ 32767) {g : PG} (h : PG.Reach maxOff g) {n i o : Nat} {r} (hr : g.setNumPorts n i o = some r) (c : Nat) :
    r.1.nodePortCapacity c ≤ 32768 ∨ r.1.nodePortCapacity c ≤ g.nodePortCapacity c := by
  obtain ⟨g', tr⟩ := r
  simp only
  cases hn : g.node? n with
  | none =>
    unfold PG.setNumPorts at hr
    rw [hn] at hr
    simp only at hr
    split at hr
    · cases hr; exact .inr (Nat.le_refl _)
    · cases hr
  | some nm =>
    by_cases hs : nm.incoming = i ∧ nm.outgoing = o
    · unfold PG.setNumPorts at hr
      rw [hn] at hr
      simp only [if_pos hs] at hr
      split at hr
      · cases hr; exact .inr (Nat.le_refl _)
      · cases hr
    · obtain ⟨nm', h1, h2, h3⟩ := setNumPorts_meta (h.inv hmax) hn hs hr
      obtain ⟨h4, h5⟩ := cap_set (by simp [PG.containsNode, hn]) h1
      by_cases hc : c = n
      · subst hc
        rw [h4, capacity_eq hn]
        by_cases hp : 1 ≤ i + o ∧ i + o < nm.capacity
        · exact .inr (by rw [(h2 hp.1 hp.2).1])
        · obtain ⟨h6, h7⟩ := h3 (by omega)
          rw [h6]
          exact .inl (nextPow2_le h7)
      · exact .inr (by rw [h5 c hc])

theorem capRel_removeCopy (hmax : maxOff ≤ 32767) {m : MG} (h : PG.Reach maxOff m.graph) {p cp : Nat} {r}
    (hr : m.removeCopyNode p cp = some r) : CapRel m r.2 := by
  unfold MG.removeCopyNode at hr
  simp only at hr
  repeat' split at hr
  all_goals first | cases hr | skip
  rename_i hg _
  intro c hc
  simp only [setFlag] at hc ⊢
  split at hc
  · cases hc
  · rcases cap_remove hmax h hg c with h1 | h1
    · exact .inl h1
    · exact .inr ⟨hc, h1⟩

theorem capRel_unlinkPort (hmax : maxOff ≤ 32767) {m : MG} (h : PG.Reach maxOff m.graph) {p : Nat} {r}
    (hr : m.unlinkPort p = some r) : CapRel m r.2 := by
  unfold MG.unlinkPort at hr
  split at hr
  · split at hr
    · exact capRel_removeCopy hmax h hr
    · cases hr
  · obtain ⟨x, hx, rfl⟩ := Option.map_eq_some_iff.1 hr
    exact .of_le rfl fun c => .inr (Nat.le_of_eq (cap_congr (unlinkPort_slots hx) c))

theorem capRel_unlinkMultis (hmax : maxOff ≤ 32767) {m : MG} (h : PG.Reach maxOff m.graph) {ps : List Nat} {m'}
    (hr : m.unlinkMultis ps = some m') : CapRel m m' := by
  induction ps generalizing m with
  | nil => simp only [MG.unlinkMultis, Option.some.injEq] at hr; rw [← hr]; exact .refl m
  | cons p ps ih =>
    simp only [MG.unlinkMultis] at hr
    split at hr
    · split at hr
      · cases hr
      · rename_i e
        exact (capRel_unlinkPort hmax h e).trans (ih (flat_unlinkPort h e) hr)
    · exact ih h hr

theorem capRel_removeCopies (hmax : maxOff ≤ 32767) {m : MG} (h : PG.Reach maxOff m.graph) {ps : List (Nat × Nat)} {m'}
    (hr : m.removeCopies ps = some m') : CapRel m m' := by
  induction ps generalizing m with
  | nil => simp only [MG.removeCopies, Option.some.injEq] at hr; rw [← hr]; exact .refl m
  | cons p ps ih =>
    simp only [MG.removeCopies] at hr
    split at hr
    · cases hr
    · rename_i e
      exact (capRel_removeCopy hmax h e).trans (ih (flat_removeCopy h e) hr)

theorem capRel_setNumPorts (hmax : maxOff ≤ 32767) {m : MG} (h : PG.Reach maxOff m.graph) {n i o : Nat} {r}
    (hr : m.setNumPorts n i o = some r) : CapRel m r.1 := by
  unfold MG.setNumPorts at hr
  split at hr
  · cases hr
  · rename_i g tr e1
    split at hr
    · cases hr
    · rename_i f dropped e2
      obtain ⟨m', h1, rfl⟩ := Option.map_eq_some_iff.1 hr
      have hs : CapRel m { m with graph := g, multi := f } := .of_le rfl fun c => cap_resize hmax h e1 c
      exact hs.trans (capRel_removeCopies hmax (m := { m with graph := g, multi := f }) (flat_set hmax h e1) h1)

theorem slots_directed {g : PG} {p q : Nat} {d : Direction} {r} (hr : MG.linkDirected g p q d = some r) :
    r.2.nodeMeta = g.nodeMeta := by
  cases d <;> exact linkPorts_slots hr

theorem capRel_makeCopy (h2m : 2 ≤ maxOff) (hmax : maxOff ≤ 32767) {m : MG} (h : PG.Reach maxOff m.graph) {p l : Nat}
    {d : Direction} {r} (hr : m.makeCopy maxOff p l d = some r) : CapRel m r.2 := by
  unfold MG.makeCopy at hr
  simp only at hr
  split at hr
  · cases hr
  · rename_i c g e1
    have hE := C75_capacity hmax h (op := .addNode (if d = .incoming then 2 else 1) (if d = .incoming then 1 else 2))
      (g' := g) ⟨by split <;> omega, by split <;> omega⟩ (by simp [PG.step, e1])
    have hcap : ∀ x, g.nodePortCapacity x ≤ 32768 ∨ (x ≠ c ∧ g.nodePortCapacity x ≤ m.graph.nodePortCapacity x) := by
      obtain ⟨n, h1, h2, h3⟩ := hE
      rw [e1] at h1
      simp only [Option.some.injEq, Prod.mk.injEq, and_true] at h1
      subst h1
      intro x
      by_cases hx : x = c
      · subst hx; rw [h2]; left; split <;> omega
      · exact .inr ⟨hx, by rw [h3 x hx]⟩
    have fin : ∀ (g' : PG) (mu : Nat → Bool) (a b : Nat), g'.nodeMeta = g.nodeMeta →
        CapRel m ⟨g', mu, setFlag m.copy c true, a, b⟩ := by
      intro g' mu a b hg x hx
      simp only [setFlag] at hx ⊢
      rw [cap_congr hg]
      rcases hcap x with h1 | ⟨h1, h2⟩
      · exact .inl h1
      · rw [if_neg h1] at hx
        exact .inr ⟨hx, h2⟩
    split at hr
    · split at hr
      · cases hr
      · rename_i e2
        have s2 := unlinkPort_slots e2
        simp only at s2
        split at hr
        · cases hr
        · rename_i e3
          cases hr
          exact fin _ _ _ _ (by rw [slots_directed e3]; exact s2)
        · rename_i e3
          split at hr
          · cases hr
          · rename_i e4
            cases hr
            exact fin _ _ _ _ (by rw [slots_directed e4]; rw [slots_directed e3]; exact s2)
          · rename_i e4
            cases hr
            exact fin _ _ _ _ (by rw [slots_directed e4]; rw [slots_directed e3]; exact s2)
    · cases hr

theorem capRel_addPort (hmax : maxOff ≤ 32767) {m : MG} (h : PG.Reach maxOff m.graph) {n : Nat} {d : Direction} {r}
    (hr : m.addPort n d = some r) : CapRel m r.2 := by
  unfold MG.addPort at hr
  simp only at hr
  split at hr
  · cases hr
  · rename_i e1
    obtain ⟨q, -, rfl⟩ := Option.map_eq_some_iff.1 hr
    exact capRel_setNumPorts hmax h e1

theorem capRel_getFree (h2m : 2 ≤ maxOff) (hmax : maxOff ≤ 32767) {m : MG} (h : PG.Reach maxOff m.graph) {p : Nat} {r}
    (hr : m.getFree maxOff p = some r) : CapRel m r.2 := by
  unfold MG.getFree at hr
  split at hr
  · cases hr; exact .refl m
  · split at hr
    · cases hr
    · cases hr; exact .refl m
    · exact capRel_makeCopy h2m hmax h hr
    · split at hr
      · cases hr
      · split at hr
        · obtain ⟨q, -, rfl⟩ := Option.map_eq_some_iff.1 hr
          exact .refl m
        · simp only at hr
          split at hr
          · cases hr
          · rename_i e1
            obtain ⟨q, -, rfl⟩ := Option.map_eq_some_iff.1 hr
            exact capRel_addPort hmax h e1
    · cases hr

theorem capRel_linkPorts (h2m : 2 ≤ maxOff) (hmax : maxOff ≤ 32767) {m : MG} (h : PG.Reach maxOff m.graph) {a b : Nat} {r}
    (hr : m.linkPorts maxOff a b = some r) : CapRel m r.2 := by
  unfold MG.linkPorts at hr
  split at hr
  · cases hr
  · rename_i e1
    cases hr
    exact capRel_getFree h2m hmax h e1
  · rename_i e1
    have h1 := flat_getFree h2m hmax h e1
    have c1 := capRel_getFree h2m hmax h e1
    split at hr
    · cases hr
    · rename_i e2
      cases hr
      exact c1.trans (capRel_getFree h2m hmax h1 e2)
    · rename_i e2
      have c2 := c1.trans (capRel_getFree h2m hmax h1 e2)
      split at hr
      · cases hr
      · rename_i e3
        cases hr
        refine c2.trans (.of_le rfl fun c => .inr (Nat.le_of_eq ?_))
        exact cap_congr (linkPorts_slots e3) c
      · rename_i e3
        cases hr
        refine c2.trans (.of_le rfl fun c => .inr (Nat.le_of_eq ?_))
        exact cap_congr (linkPorts_slots e3) c

/-- Helper nodes never own more than 32768 port slots. -/
theorem MReach.helper_cap (h2m : 2 ≤ maxOff) (hmax : maxOff ≤ 32767) {m : MG} (h : MReach maxOff m) :
    ∀ c, m.copy c = true → m.graph.nodePortCapacity c ≤ 32768 := by
  induction h with
  | init hg => intro c hc; simp [MG.ofGraph] at hc
  | @step m m' op r hm hok hr ih =>
    have h := hm.flat h2m hmax
    have hM := hm.ok h2m hmax
    have of : CapRel m m' → ∀ c, m'.copy c = true → m'.graph.nodePortCapacity c ≤ 32768 := by
      intro hR c hc
      rcases hR c hc with h1 | ⟨h1, h2⟩
      · exact h1
      · exact Nat.le_trans h2 (ih c h1)
    cases op with
    | addNode i o =>
      obtain ⟨x, hx, he⟩ := Option.map_eq_some_iff.1 hr
      obtain ⟨y, hy, rfl⟩ := Option.map_eq_some_iff.1 hx
      cases he
      intro c hc
      simp only at hc ⊢
      obtain ⟨n, h1, h2, h3⟩ := C75_capacity hmax h (op := .addNode i o) (g' := y.2) hok (by simp [PG.step, hy])
      obtain ⟨n', f, g', h4, -, h5, -⟩ := addNode_ok hM.inv hok.1 hok.2 (by have := hok.1; omega) (by have := hok.1; have := hok.2; omega)
      have hne : c ≠ n := by
        rintro rfl
        rw [h1] at h4
        simp only [Option.some.injEq, Prod.mk.injEq] at h4
        have := hM.copyLive c hc
        rw [containsNode_iff, h4.1, h5] at this
        cases this
      rw [h3 c hne]
      exact ih c hc
    | removeNode n =>
      obtain ⟨x, hx, he⟩ := Option.map_eq_some_iff.1 hr
      cases he
      apply of
      unfold MG.removeNode at hx
      split at hx
      · cases hx
      · split at hx
        · cases hx
        · rename_i e
          obtain ⟨g, hg, rfl⟩ := Option.map_eq_some_iff.1 hx
          refine (capRel_unlinkMultis hmax h e).trans (.of_le rfl fun c => ?_)
          exact cap_remove hmax (flat_unlinkMultis h e) hg c
    | linkPorts a b =>
      obtain ⟨x, hx, he⟩ := Option.map_eq_some_iff.1 hr
      cases he
      exact of (capRel_linkPorts h2m hmax h hx)
    | unlinkPort p =>
      obtain ⟨x, hx, he⟩ := Option.map_eq_some_iff.1 hr
      cases he
      exact of (capRel_unlinkPort hmax h hx)
    | setNumPorts n i o =>
      obtain ⟨x, hx, he⟩ := Option.map_eq_some_iff.1 hr
      cases he
      exact of (capRel_setNumPorts hmax h hx)
    | compactNodes =>
      obtain ⟨g', h1, h2, M⟩ := compactNodes_flat hM.inv
      have hlive : ∀ x, m.graph.live x = true ↔ m.graph.containsNode x = true := fun x => by
        rw [live_iff, containsNode_iff]
      have hlt : ∀ x, m.graph.live x = true → x < m.graph.nodeMeta.length := by
        intro x hx
        rw [live_iff] at hx
        apply Nat.lt_of_not_le
        intro hc
        simp [PG.node?, List.getElem?_eq_none hc] at hx
      obtain ⟨a1, a2⟩ := swaps_rank (P := m.graph.live) (r := m.graph.nodeRank) (N := m.graph.nodeMeta.length) (f := m.copy)
        (fun x => cnt_le _ _) (fun x y hx hy hc => M.node_inj x y ((hlive x).1 hx) ((hlive y).1 hy) hc)
        (fun x hx => ⟨(hlive x).2 (hM.copyLive x hx), hlt x ((hlive x).2 (hM.copyLive x hx))⟩) hlt
      obtain ⟨x, hx, he⟩ := Option.map_eq_some_iff.1 hr
      obtain ⟨y, hy, rfl⟩ := Option.map_eq_some_iff.1 hx
      cases he
      rw [h1] at hy
      cases hy
      intro c hc
      obtain ⟨x, hx, rfl⟩ := a2 c hc
      have hc' : m.copy x = true := by rw [← a1 x hx]; exact hc
      obtain ⟨tr, h3, h4⟩ := C75_capacity hmax h (op := .compactNodes) (g' := g') trivial (by simp [PG.step, h1])
      rw [h1] at h3
      cases h3
      have := h4 (x, m.graph.nodeRank x) (List.mem_map.2 ⟨x, List.mem_filter.2 ⟨List.mem_range.2 (hlt x hx), hx⟩, rfl⟩)
      simp only at this ⊢
      rw [this]
      exact ih x hc'
    | compactPorts =>
      obtain ⟨x, hx, he⟩ := Option.map_eq_some_iff.1 hr
      obtain ⟨y, hy, rfl⟩ := Option.map_eq_some_iff.1 hx
      cases he
      have hE := C75_capacity hmax h (op := .compactPorts) (g' := y.1) hok (by simp [PG.step, hy])
      refine of (.of_le rfl fun c => .inr ?_)
      simp only
      rw [hE c]
      exact (C75_bounds hmax h c).1
    | swapNodes a b =>
      obtain ⟨x, hx, he⟩ := Option.map_eq_some_iff.1 hr
      obtain ⟨g, hg, rfl⟩ := Option.map_eq_some_iff.1 hx
      cases he
      obtain ⟨hs, ha, hb⟩ := hok
      have hE := C75_capacity hmax h (op := .swapNodes a b) (g' := g) hs (by simp [PG.step, hg])
      intro c hc
      have hca : c ≠ a := by
        rintro rfl
        simp only [swapFlag, if_true] at hc
        rw [hb] at hc; cases hc
      have hcb : c ≠ b := by
        rintro rfl
        simp only [swapFlag, if_neg hca, if_true] at hc
        rw [ha] at hc; cases hc
      simp only [swapFlag, if_neg hca, if_neg hcb] at hc ⊢
      have := hE c
      rw [show exchange a b c = c by simp [exchange, hca, hcb]] at this
      rw [this]; exact ih c hc
    | clear =>
      simp only [MG.step, Option.some.injEq, Prod.mk.injEq] at hr
      rw [← hr.2]
      intro c hc
      simp [MG.clear] at hc
    | linkSubports e f =>
      obtain ⟨x, hx, he⟩ := Option.map_eq_some_iff.1 hr
      cases he
      apply of
      unfold MG.linkSubports at hx
      split at hx
      · obtain ⟨y, hy, rfl⟩ := Option.map_eq_some_iff.1 hx
        exact .of_le rfl fun c => .inr (Nat.le_of_eq (cap_congr (linkPorts_slots hy) c))
      · cases hx
    | unlinkSubport e =>
      obtain ⟨x, hx, he⟩ := Option.map_eq_some_iff.1 hr
      cases he
      apply of
      unfold MG.unlinkSubport at hx
      split at hx
      · cases hx
      · cases hx; exact .refl m
      · split at hx
        · cases hx
        · rename_i e1; cases hx
          exact .of_le rfl fun c => .inr (Nat.le_of_eq (cap_congr (unlinkPort_slots e1) c))
        · rename_i e1
          obtain ⟨y, hy, rfl⟩ := Option.map_eq_some_iff.1 hx
          exact .of_le rfl fun c => .inr (Nat.le_of_eq (cap_congr (unlinkPort_slots e1) c))

end Verif.Multi
