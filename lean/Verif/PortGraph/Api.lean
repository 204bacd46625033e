import Verif.PortGraph.Spec
import Verif.PortGraph.OpsCompactPorts

/-! Consequences of the invariant for the query functions and the abstraction. -/

namespace Verif.PG

open Verif (Direction)

/-- `p` is the port at endpoint `e`. -/
def At (g : PG) (p : Nat) (e : Endpoint) : Prop :=
  ∃ m, g.node? e.1 = some m ∧ e.2.2 < m.numPorts e.2.1 ∧ p = m.start e.2.1 + e.2.2

theorem at_index {g : PG} {p n d k} : g.portIndex n d k = some p ↔ At g p (n, d, k) := by
  unfold PG.portIndex At
  cases e : g.node? n with
  | none => simp
  | some m =>
    simp only [NodeMeta.ports, Option.some.injEq, exists_eq_left']
    rw [List.getElem?_eq_some_iff]
    simp only [List.length_range', List.getElem_range', Nat.one_mul]
    constructor
    · rintro ⟨h1, h2⟩; exact ⟨h1, h2.symm⟩
    · rintro ⟨h1, h2⟩; exact ⟨h1, h2.symm⟩

theorem At.unique {g : PG} {p q e} (h : At g p e) (h' : At g q e) : p = q := by
  obtain ⟨m, h1, _, h3⟩ := h
  obtain ⟨m', h1', _, h3'⟩ := h'
  rw [h1] at h1'; cases h1'; omega

theorem At.port {g : PG} (hI : Inv g) {p e} (h : At g p e) : g.port? p = some (e.1, e.2.1) := by
  obtain ⟨own, fs, hP, hfull⟩ := hI.slots
  obtain ⟨m, h1, h2, h3⟩ := h
  exact (hP.ports _ _ _).2 ⟨m, h1, by omega, by omega⟩

theorem port_at {g : PG} (hI : Inv g) {p n d} (h : g.port? p = some (n, d)) :
    ∃ m, g.node? n = some m ∧ m.start d ≤ p ∧ At g p (n, d, p - m.start d) := by
  obtain ⟨own, fs, hP, hfull⟩ := hI.slots
  obtain ⟨m, h1, h2, h3⟩ := (hP.ports _ _ _).1 h
  refine ⟨m, h1, h2, m, h1, ?_, ?_⟩ <;> simp only <;> omega

theorem At.endpoint {g : PG} (hI : Inv g) {p e} (h : At g p e) : g.endpoint p = some e := by
  have hp := h.port hI
  obtain ⟨m, h1, h2, h3⟩ := h
  obtain ⟨n, d, k⟩ := e
  simp only at *
  unfold PG.endpoint PG.portNode PG.portOffset
  rw [hp]
  simp only [Option.map_some]
  rw [h1]
  simp only
  cases d <;> simp only [NodeMeta.start, NodeMeta.numPorts] at * <;>
    rw [if_pos (by omega)] <;> simp <;> omega

theorem endpoint_at {g : PG} (hI : Inv g) {p e} : g.endpoint p = some e ↔ At g p e := by
  constructor
  · intro h
    cases hp : g.port? p with
    | none => unfold PG.endpoint PG.portNode at h; rw [hp] at h; simp at h
    | some x =>
      obtain ⟨n, d⟩ := x
      obtain ⟨m, h1, h2, h3⟩ := port_at hI hp
      rw [h3.endpoint hI] at h
      simp at h
      rw [← h]; exact h3
  · exact fun h => h.endpoint hI

theorem At.inj {g : PG} (hI : Inv g) {p e f} (h : At g p e) (h' : At g p f) : e = f := by
  have h1 := h.endpoint hI
  rw [h'.endpoint hI] at h1
  simpa using h1.symm

theorem portLink?_eq {g : PG} (hI : Inv g) {p} (hp : (g.port? p).isSome) : g.portLink? p = some (g.lk p) := by
  obtain ⟨⟨n, d⟩, hx⟩ := Option.isSome_iff_exists.1 hp
  unfold PG.portLink?
  rw [hx]
  simp only
  have := PG.port?_lt (g := g) (p := p) (by rw [hx]; rfl)
  rw [← hI.len] at this
  exact PG.getElem?_portLink this

theorem abs_counts {g : PG} {n} : g.abs.counts n = (g.node? n).map fun m => (m.incoming, m.outgoing) := by
  show (if g.containsNode n then _ else none) = _
  cases hm : g.node? n with
  | none => rw [if_neg (by simp [PG.containsNode, hm])]; rfl
  | some m =>
    rw [if_pos (by simp [PG.containsNode, hm])]
    simp [PG.numPorts, hm, NodeMeta.numPorts]

theorem abs_link {g : PG} (hI : Inv g) {e f} :
    g.abs.link e = some f ↔ ∃ p q, At g p e ∧ g.lk p = some q ∧ At g q f := by
  obtain ⟨n, d, k⟩ := e
  simp only [PG.abs]
  cases hx : g.portIndex n d k with
  | none =>
    simp only [reduceCtorEq, false_iff]
    rintro ⟨p, q, h1, -⟩
    rw [at_index.2 h1] at hx; simp at hx
  | some p =>
    have hat := at_index.1 hx
    have hp := hat.port hI
    simp only
    rw [portLink?_eq hI (by rw [hp]; rfl)]
    cases hl : g.lk p with
    | none =>
      simp only [reduceCtorEq, false_iff]
      rintro ⟨p', q, h1, h2, -⟩
      rw [h1.unique hat, hl] at h2; simp at h2
    | some q =>
      simp only
      rw [endpoint_at hI]
      constructor
      · intro h; exact ⟨p, q, hat, hl, h⟩
      · rintro ⟨p', q', h1, h2, h3⟩
        rw [h1.unique hat, hl] at h2
        simp at h2; rw [h2]; exact h3

theorem abs_has {g : PG} {n d k} : g.abs.Has (n, d, k) ↔ ∃ p, At g p (n, d, k) := by
  unfold AGraph.Has AGraph.arity At
  simp only [abs_counts]
  cases e : g.node? n with
  | none => simp
  | some m => cases d <;> simp [NodeMeta.numPorts]

theorem At.hasEnd {g : PG} {p e} (h : At g p e) : g.abs.Has e := by
  obtain ⟨n, d, k⟩ := e
  exact abs_has.2 ⟨p, h⟩

theorem lk_at {g : PG} (hI : Inv g) {p q n d} (hp : g.port? p = some (n, d)) (hl : g.lk p = some q) :
    g.lk q = some p ∧ ∃ n', g.port? q = some (n', d.reverse) := by
  obtain ⟨own, fs, hP, hfull⟩ := hI.slots
  exact hP.links p n d q hp hl

theorem abs_wf {g : PG} (hI : Inv g) : g.abs.WF := by
  constructor
  · intro e f h
    obtain ⟨p, q, h1, h2, h3⟩ := (abs_link hI).1 h
    exact ⟨h1.hasEnd, h3.hasEnd⟩
  · intro e f h
    obtain ⟨p, q, h1, h2, h3⟩ := (abs_link hI).1 h
    exact (abs_link hI).2 ⟨q, p, h3, (lk_at hI (h1.port hI) h2).1, h1⟩
  · intro e f h
    obtain ⟨p, q, h1, h2, h3⟩ := (abs_link hI).1 h
    obtain ⟨-, n', h4⟩ := lk_at hI (h1.port hI) h2
    rw [h3.port hI] at h4
    simp at h4; exact h4.2

/-- Abstract graphs agree if the links agree as relations. -/
theorem AGraph.ext' {A B : AGraph} (h1 : ∀ n, A.counts n = B.counts n)
    (h2 : ∀ e f, A.link e = some f ↔ B.link e = some f) : A = B := by
  obtain ⟨ca, la⟩ := A
  obtain ⟨cb, lb⟩ := B
  congr 1
  · funext n; exact h1 n
  · funext e
    cases hx : la e with
    | none =>
      cases hy : lb e with
      | none => rfl
      | some f => have := (h2 e f).2 hy; simp [hx] at this
    | some f => exact ((h2 e f).1 hx).symm

theorem AGraph.cutEnds_link {A : AGraph} {S e f} :
    (A.cutEnds S).link e = some f ↔ A.link e = some f ∧ S e = false ∧ S f = false := by
  simp only [AGraph.cutEnds]
  cases hS : S e
  · simp only [Bool.false_eq_true, if_false]
    cases hx : A.link e with
    | none => simp
    | some f' =>
      simp only
      split
      · rename_i h
        simp only [reduceCtorEq, false_iff]
        rintro ⟨h1, -, h2⟩
        simp at h1; subst h1; rw [h] at h2; simp at h2
      · rename_i h
        simp only [Option.some.injEq, true_and]
        constructor
        · rintro rfl; exact ⟨rfl, by simpa using h⟩
        · exact fun h => h.1
  · simp

theorem cut_some {pt : Nat → Option (Nat × Direction)} {lk R p q} (hp : (pt p).isSome) :
    cut pt lk R p = some q ↔ lk p = some q ∧ R p = false ∧ R q = false := by
  unfold cut
  cases hR : R p
  · simp only [Bool.false_eq_true, if_false]
    cases hx : lk p with
    | none => simp
    | some q' =>
      simp only [hp, Bool.true_and]
      split
      · rename_i h
        simp only [reduceCtorEq, false_iff]
        rintro ⟨h1, -, h2⟩
        simp at h1; subst h1; rw [h] at h2; simp at h2
      · rename_i h
        simp only [Option.some.injEq, true_and]
        constructor
        · rintro rfl; exact ⟨rfl, by simpa using h⟩
        · exact fun h => h.1
  · simp

end Verif.PG
