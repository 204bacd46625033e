import Verif.PortGraph.RefineCompact

/-!
# `compact_ports` when nodes without ports may own slots

What the call does to the graph that is seen holds always; what fails is the ownership of the slots.
-/

namespace Verif.PG

open Verif (Direction)

/-- The part of the invariant that the queries rest on: the ports are those of the live nodes. -/
structure Shape (g : PG) : Prop where
  len : g.portLink.length = g.portMeta.length
  ports : ∀ p n d, g.port? p = some (n, d) ↔
    ∃ m, g.node? n = some m ∧ m.start d ≤ p ∧ p < m.start d + m.numPorts d

theorem Shape.at_port {g : PG} (hS : Shape g) {p e} (h : At g p e) : g.port? p = some (e.1, e.2.1) := by
  obtain ⟨m, h1, h2, h3⟩ := h
  exact (hS.ports _ _ _).2 ⟨m, h1, by omega, by omega⟩

theorem Shape.port_at {g : PG} (hS : Shape g) {p n d} (h : g.port? p = some (n, d)) :
    ∃ m, g.node? n = some m ∧ m.start d ≤ p ∧ At g p (n, d, p - m.start d) := by
  obtain ⟨m, h1, h2, h3⟩ := (hS.ports _ _ _).1 h
  refine ⟨m, h1, h2, m, h1, ?_, ?_⟩ <;> simp only <;> omega

theorem Shape.endpoint {g : PG} (hS : Shape g) {p e} (h : At g p e) : g.endpoint p = some e := by
  have hp := hS.at_port h
  obtain ⟨m, h1, h2, h3⟩ := h
  obtain ⟨n, d, k⟩ := e
  simp only at *
  unfold PG.endpoint PG.portNode PG.portOffset
  rw [hp]
  simp only [Option.map_some]
  rw [h1]
  simp only
  cases d <;> simp only [NodeMeta.start, NodeMeta.numPorts] at * <;>
    rw [if_pos (by omega)] <;> simp <;> omega

theorem Shape.endpoint_at {g : PG} (hS : Shape g) {p e} : g.endpoint p = some e ↔ At g p e := by
  constructor
  · intro h
    cases hp : g.port? p with
    | none => unfold PG.endpoint PG.portNode at h; rw [hp] at h; simp at h
    | some x =>
      obtain ⟨n, d⟩ := x
      obtain ⟨m, h1, h2, h3⟩ := hS.port_at hp
      rw [hS.endpoint h3] at h
      simp at h
      rw [← h]; exact h3
  · exact fun h => hS.endpoint h

theorem Shape.inj {g : PG} (hS : Shape g) {p e f} (h : At g p e) (h' : At g p f) : e = f := by
  have h1 := hS.endpoint h
  rw [hS.endpoint h'] at h1
  simpa using h1.symm

theorem Shape.portLink {g : PG} (hS : Shape g) {p} (hp : (g.port? p).isSome) : g.portLink? p = some (g.lk p) := by
  obtain ⟨⟨n, d⟩, hx⟩ := Option.isSome_iff_exists.1 hp
  unfold PG.portLink?
  rw [hx]
  simp only
  have := PG.port?_lt (g := g) (p := p) (by rw [hx]; rfl)
  rw [← hS.len] at this
  exact PG.getElem?_portLink this

theorem Shape.abs_link {g : PG} (hS : Shape g) {e f} :
    g.abs.link e = some f ↔ ∃ p q, At g p e ∧ g.lk p = some q ∧ At g q f := by
  obtain ⟨n, d, k⟩ := e
  simp only [PG.abs]
  cases hx : g.portIndex n d k with
  | none =>
    simp only [reduceCtorEq, false_iff]
    rintro ⟨p, q, h1, -⟩
    rw [at_index.2 h1] at hx; simp at hx
  | some p =>
    have hat := at_index.1 hx
    have hp := hS.at_port hat
    simp only
    rw [hS.portLink (by rw [hp]; rfl)]
    cases hl : g.lk p with
    | none =>
      simp only [reduceCtorEq, false_iff]
      rintro ⟨p', q, h1, h2, -⟩
      rw [h1.unique hat, hl] at h2; simp at h2
    | some q =>
      simp only
      rw [hS.endpoint_at]
      constructor
      · intro h; exact ⟨p, q, hat, hl, h⟩
      · rintro ⟨p', q', h1, h2, h3⟩
        rw [h1.unique hat, hl] at h2
        simp at h2; rw [h2]; exact h3

/-- Port relabelling keeps the abstract graph. -/
theorem Shape.abs_of_relabel {g g' : PG} (h : Inv g) (h' : Shape g') {π : Nat → Nat}
    (hnode : ∀ n, (g'.node? n).map (fun m => (m.incoming, m.outgoing)) = (g.node? n).map fun m => (m.incoming, m.outgoing))
    (hat : ∀ p e, At g p e → At g' (π p) e)
    (hlk : ∀ p, (g.port? p).isSome → g'.lk (π p) = (g.lk p).map π) :
    g'.abs = g.abs := by
  have hback : ∀ p' e, At g' p' e → ∃ p, At g p e ∧ p' = π p := by
    rintro p' ⟨n, d, k⟩ ha
    have hh : g.abs.Has (n, d, k) := by
      have := ha.hasEnd
      unfold AGraph.Has AGraph.arity at *
      simpa only [abs_counts, hnode] using this
    obtain ⟨p, hp⟩ := abs_has.1 hh
    exact ⟨p, hp, ha.unique (hat _ _ hp)⟩
  apply AGraph.ext'
  · intro n; rw [abs_counts, abs_counts, hnode]
  · intro e f
    rw [PG.abs_link h, h'.abs_link]
    constructor
    · rintro ⟨p', q', ha, hl, hb⟩
      obtain ⟨p, hp, rfl⟩ := hback _ _ ha
      rw [hlk p (by rw [hp.port h]; rfl), Option.map_eq_some_iff] at hl
      obtain ⟨q, hq, rfl⟩ := hl
      obtain ⟨-, n', hq'⟩ := lk_at h (hp.port h) hq
      obtain ⟨m, -, -, hat'⟩ := PG.port_at h hq'
      have := h'.inj hb (hat _ _ hat')
      rw [this]
      exact ⟨p, q, hp, hq, hat'⟩
    · rintro ⟨p, q, ha, hl, hb⟩
      exact ⟨π p, π q, hat _ _ ha, by rw [hlk p (by rw [ha.port h]; rfl), hl]; rfl, hat _ _ hb⟩

/-- Every slot of the compacted graph is the new place of a port. -/
theorem packed_onto {g g' : PG} (h : Inv g) (hlen : g'.portMeta.length = g.portCount) {q : Nat}
    (hq : q < g'.portMeta.length) : ∃ p, (g.port? p).isSome ∧ rank g.port? p = q := by
  rw [hlen, h.portCount] at hq
  obtain ⟨p, h1, h2, h3⟩ := cnt_surj hq
  exact ⟨p, h2, h3⟩

theorem packed_shape {g g' : PG} (h : Inv g) (hnode : ∀ n, g'.node? n = (g.node? n).map (packed g.port?))
    (hport : ∀ p, (g.port? p).isSome → g'.port? (rank g.port? p) = g.port? p)
    (hlen : g'.portMeta.length = g.portCount) (hll : g'.portLink.length = g.portCount) : Shape g' := by
  refine ⟨by rw [hlen, hll], ?_⟩
  intro q n d
  constructor
  · intro hq
    obtain ⟨p, hp, rfl⟩ := packed_onto h hlen (PG.port?_lt (by rw [hq]; rfl))
    rw [hport p hp] at hq
    obtain ⟨m, hm, hle, hat⟩ := PG.port_at h hq
    obtain ⟨m', h1, h2, h3⟩ := packed_at h hnode hat
    simp only at h1 h2 h3
    exact ⟨m', h1, by omega, by omega⟩
  · rintro ⟨m', hm', hle, hlt⟩
    rw [hnode] at hm'
    obtain ⟨m, hm, rfl⟩ := Option.map_eq_some_iff.1 hm'
    have hat : At g (m.start d + (q - (packed g.port? m).start d)) (n, d, q - (packed g.port? m).start d) := by
      refine ⟨m, hm, ?_, rfl⟩
      have : (packed g.port? m).numPorts d = m.numPorts d := by unfold packed; split <;> rfl
      simp only; omega
    obtain ⟨m'', h1, h2, h3⟩ := packed_at h hnode hat
    simp only at h1 h2 h3
    rw [hnode, hm] at h1
    cases h1
    rw [show q = rank g.port? (m.start d + (q - (packed g.port? m).start d)) by omega, hport _ (by rw [hat.port h]; rfl),
      hat.port h]

theorem freePortStep_meta {g g' : PG} {i : Nat} (e : PG.freePortStep g i = some g') :
    g'.nodeMeta = g.nodeMeta ∧ g'.portMeta = g.portMeta.set i .free := by
  unfold PG.freePortStep at e
  split at e
  · split at e
    · simp at e
    · simp only [Option.some.injEq] at e; rw [← e]; exact ⟨rfl, rfl⟩
    · split at e
      · simp only [Option.some.injEq] at e; rw [← e]; exact ⟨rfl, rfl⟩
      · simp at e
  · simp at e

theorem freePortStep_port {g g' : PG} {i : Nat} (e : PG.freePortStep g i = some g') (j : Nat) :
    g'.port? j = if i = j then none else g.port? j := by
  unfold PG.port?
  rw [(freePortStep_meta e).2, List.getElem?_set]
  by_cases h : i = j
  · rw [if_pos h, if_pos h]
    by_cases h' : i < g.portMeta.length <;> simp [h']
  · rw [if_neg h, if_neg h]

theorem freePortsLoop_meta {g g' : PG} {i k : Nat} (h : PG.freePortsLoop g i k = some g') :
    g'.nodeMeta = g.nodeMeta ∧ ∀ j : Nat, g'.port? j = if i ≤ j ∧ j < i + k then none else g.port? j := by
  induction k generalizing g i with
  | zero =>
    simp [PG.freePortsLoop] at h; subst h
    exact ⟨rfl, fun j => by rw [if_neg (by omega)]⟩
  | succ k ih =>
    simp only [PG.freePortsLoop] at h
    cases e : PG.freePortStep g i with
    | none => simp [e] at h
    | some g1 =>
      simp only [e] at h
      obtain ⟨h1, h2⟩ := ih h
      refine ⟨h1.trans (freePortStep_meta e).1, ?_⟩
      intro j
      rw [h2, freePortStep_port e]
      by_cases a : i = j
      · rw [if_neg (by omega), if_pos a, if_pos (by omega)]
      · rw [if_neg a]
        by_cases b : i + 1 ≤ j ∧ j < i + 1 + k
        · rw [if_pos b, if_pos (by omega)]
        · rw [if_neg b, if_neg (by omega)]

/-- Removing a node frees the slots it owns and no other node, whatever the slots hold. -/
theorem removeNode_frees {g g' : PG} {n : Nat} {m : NodeMeta} (hm : g.node? n = some m) (hc : 0 < m.capacity)
    (h : g.removeNode n = some g') :
    m.first + m.capacity ≤ g.portMeta.length ∧
      (∀ j, m.first ≤ j → j < m.first + m.capacity → g'.port? j = none) ∧
      ∀ n', n' ≠ n → (g.node? n').isSome → (g'.node? n').isSome := by
  unfold PG.removeNode at h
  rw [hm] at h
  simp only at h
  cases e : g.freeNode n with
  | none => simp [e] at h
  | some g1 =>
    simp only [e] at h
    have key : g1.portMeta = g.portMeta ∧ ∀ n', n' ≠ n → (g.node? n').isSome → (g1.node? n').isSome := by
      unfold PG.freeNode at e
      split at e
      · split at e
        · simp only [Option.some.injEq] at e; rw [← e]
          refine ⟨rfl, ?_⟩
          intro n' hn' h1
          unfold PG.node? at *
          simp only
          rw [List.getElem?_set_ne (by omega)]; exact h1
        · split at e
          · rename_i x hx
            simp only [Option.some.injEq] at e; rw [← e]
            refine ⟨rfl, ?_⟩
            intro n' hn' h1
            rename_i hd _ _ _
            have : hd ≠ n' := by
              rintro rfl
              unfold PG.node? at h1
              rw [hx] at h1; simp at h1
            unfold PG.node? at *
            simp only
            rw [List.getElem?_set_ne (by omega), List.getElem?_set_ne (by omega)]; exact h1
          · simp at e
      · simp at e
    split at h
    · simp at h
    · split at h
      · rename_i h0 hb
        rw [key.1] at hb
        refine ⟨hb.2.2, ?_⟩
        unfold PG.freePorts at h
        simp only [show m.capacity ≠ 0 by omega, if_false] at h
        split at h
        · simp at h
        · rename_i g2 hl
          obtain ⟨k1, k2⟩ := freePortsLoop_meta hl
          split at h
          · simp at h
          · split at h
            · simp only [Option.some.injEq] at h
              rw [← h]
              refine ⟨fun j h1 h2 => (k2 j).trans (if_pos ⟨h1, h2⟩), ?_⟩
              intro n' hn' h1
              have := key.2 n' hn' h1
              unfold PG.node? at *
              simp only
              rw [k1]; exact this
            · simp at h
      · simp at h

end Verif.PG
