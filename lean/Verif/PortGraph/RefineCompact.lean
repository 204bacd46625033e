import Verif.PortGraph.RefineSet

/-! Refinement for compaction and node swapping. -/

namespace Verif.PG

open Verif (Direction)

/-- Renaming the nodes of the representation renames the abstract graph. -/
theorem renamed_of {g g' : PG} (h : Inv g) (h' : Inv g') {ρ : Nat → Nat}
    (hinj : ∀ a b, (g.node? a).isSome → (g.node? b).isSome → ρ a = ρ b → a = b)
    (hnode : ∀ n' m, g'.node? n' = some m ↔ ∃ n, ρ n = n' ∧ g.node? n = some m) (hlk : g'.lk = g.lk) :
    AGraph.Renamed ρ g.abs g'.abs := by
  have hat : ∀ p e', At g' p e' ↔ ∃ e, AGraph.mapNode ρ e = e' ∧ At g p e := by
    intro p e'
    obtain ⟨n', d, k⟩ := e'
    constructor
    · rintro ⟨m, hm, h1, h2⟩
      obtain ⟨n, rfl, hn⟩ := (hnode _ _).1 hm
      exact ⟨(n, d, k), rfl, m, hn, h1, h2⟩
    · rintro ⟨⟨n, d', k'⟩, h0, m, hm, h1, h2⟩
      simp only [AGraph.mapNode, Prod.mk.injEq] at h0
      obtain ⟨rfl, rfl, rfl⟩ := h0
      exact ⟨m, (hnode _ _).2 ⟨n, rfl, hm⟩, h1, h2⟩
  refine ⟨?_, ?_, ?_⟩
  · intro a b ha hb
    simp only [abs_counts, Option.isSome_map] at ha hb
    exact hinj a b ha hb
  · intro n c
    simp only [abs_counts, Option.map_eq_some_iff]
    constructor
    · rintro ⟨m, hm, rfl⟩
      obtain ⟨a, rfl, ha⟩ := (hnode _ _).1 hm
      exact ⟨a, rfl, m, ha, rfl⟩
    · rintro ⟨a, rfl, m, ha, rfl⟩
      exact ⟨m, (hnode _ _).2 ⟨a, rfl, ha⟩, rfl⟩
  · intro e f
    rw [abs_link h', hlk]
    constructor
    · rintro ⟨p, q, ha, hl, hb⟩
      obtain ⟨e', he, ha'⟩ := (hat _ _).1 ha
      obtain ⟨f', hf, hb'⟩ := (hat _ _).1 hb
      exact ⟨e', f', he, hf, (abs_link h).2 ⟨p, q, ha', hl, hb'⟩⟩
    · rintro ⟨e', f', he, hf, hl⟩
      obtain ⟨p, q, ha, hl, hb⟩ := (abs_link h).1 hl
      exact ⟨p, q, (hat _ _).2 ⟨e', he, ha⟩, hl, (hat _ _).2 ⟨f', hf, hb⟩⟩

theorem live_iff {g : PG} {n} : g.live n = true ↔ (g.node? n).isSome := by simp [PG.live]

theorem nodeRank_inj {g : PG} {a b} (ha : (g.node? a).isSome) (hb : (g.node? b).isSome)
    (h : g.nodeRank a = g.nodeRank b) : a = b :=
  cnt_inj (live_iff.2 ha) (live_iff.2 hb) h

/-- Port relabelling keeps the abstract graph. -/
theorem abs_of_relabel {g g' : PG} (h : Inv g) (h' : Inv g') {π : Nat → Nat}
    (hnode : ∀ n, (g'.node? n).map (fun m => (m.incoming, m.outgoing)) = (g.node? n).map fun m => (m.incoming, m.outgoing))
    (hat : ∀ p e, At g p e → At g' (π p) e)
    (hlk : ∀ p, (g.port? p).isSome → g'.lk (π p) = (g.lk p).map π) :
    g'.abs = g.abs := by
  have hback : ∀ p' e, At g' p' e → ∃ p, At g p e ∧ p' = π p := by
    rintro p' ⟨n, d, k⟩ ha
    have hh : g.abs.Has (n, d, k) := by
      have := ha.hasEnd
      unfold AGraph.Has AGraph.arity at *
      simpa only [abs_counts, hnode] using this
    obtain ⟨p, hp⟩ := abs_has.1 hh
    exact ⟨p, hp, ha.unique (hat _ _ hp)⟩
  apply AGraph.ext'
  · intro n; rw [abs_counts, abs_counts, hnode]
  · intro e f
    rw [abs_link h, abs_link h']
    constructor
    · rintro ⟨p', q', ha, hl, hb⟩
      obtain ⟨p, hp, rfl⟩ := hback _ _ ha
      rw [hlk p (by rw [hp.port h]; rfl), Option.map_eq_some_iff] at hl
      obtain ⟨q, hq, rfl⟩ := hl
      obtain ⟨-, n', hq'⟩ := lk_at h (hp.port h) hq
      obtain ⟨m, -, -, hat'⟩ := port_at h hq'
      have := hb.inj h' (hat _ _ hat')
      rw [this]
      exact ⟨p, q, hp, hq, hat'⟩
    · rintro ⟨p, q, ha, hl, hb⟩
      exact ⟨π p, π q, hat _ _ ha, by rw [hlk p (by rw [ha.port h]; rfl), hl]; rfl, hat _ _ hb⟩

theorem packed_at {g g' : PG} (h : Inv g) (hnode : ∀ n, g'.node? n = (g.node? n).map (packed g.port?)) {p e}
    (hp : At g p e) : At g' (rank g.port? p) e := by
  obtain ⟨own, fs, hP, hfull⟩ := h.slots
  obtain ⟨n, d, k⟩ := e
  obtain ⟨m, hm, hk, rfl⟩ := hp
  simp only at *
  refine ⟨packed g.port? m, by simp only; rw [hnode, hm]; rfl, ?_, ?_⟩
  all_goals
    simp only [packed]
    cases d <;> simp only [NodeMeta.numPorts, NodeMeta.start] at * <;> rw [if_neg (by omega)]
  · exact hk
  · exact hk
  · exact hP.rank_block hm (by omega)
  · simp only
    rw [show m.first + m.incoming + k = m.first + (m.incoming + k) by omega, hP.rank_block hm (by omega)]
    omega

end Verif.PG
