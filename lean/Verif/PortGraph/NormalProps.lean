import Verif.PortGraph.NormalSpec
import Verif.PortGraph.PropsCompact

/-!
# Compaction gives a normal form (C80)
-/

namespace Verif.PG

open Verif (Direction)

/-- A relation between initial segments of the numbers that keeps the order and is total on both sides is equality. -/
theorem dense_eq {R : Nat → Nat → Prop} {a b : Nat} (hl : ∀ x, x < a → ∃ y, R x y) (hr : ∀ y, y < b → ∃ x, R x y)
    (hlt : ∀ x y, R x y → x < a ∧ y < b) (ho : ∀ x y x' y', R x y → R x' y' → (x < x' ↔ y < y')) :
    (∀ x y, R x y → x = y) ∧ a = b := by
  have key : ∀ k x y, R x y → x + y = k → x = y := by
    intro k
    induction k using Nat.strongRecOn with
    | ind k ih =>
      intro x y h hk
      rcases Nat.lt_trichotomy x y with h1 | h1 | h1
      · obtain ⟨z, hz⟩ := hr x (by have := (hlt _ _ h).2; omega)
        have hzx := (ho _ _ _ _ hz h).2 h1
        have := ih (z + x) (by omega) z x hz rfl
        omega
      · exact h1
      · obtain ⟨z, hz⟩ := hl y (by have := (hlt _ _ h).1; omega)
        have hzy := (ho _ _ _ _ hz h).1 h1
        have := ih (y + z) (by omega) y z hz rfl
        omega
  refine ⟨fun x y h => key _ x y h rfl, ?_⟩
  rcases Nat.lt_trichotomy a b with h | h | h
  · obtain ⟨x, hx⟩ := hr a h
    have := key _ _ _ hx rfl
    have := (hlt _ _ hx).1
    omega
  · exact h
  · obtain ⟨y, hy⟩ := hl b h
    have := key _ _ _ hy rfl
    have := (hlt _ _ hy).2
    omega

/-- `PG.OrderIso` with relations, on the level of the tables. -/
structure Sim (R P : Nat → Nat → Prop) (g g' : PG) : Prop where
  nl : ∀ n, (g.node? n).isSome → ∃ n', R n n'
  nr : ∀ n', (g'.node? n').isSome → ∃ n, R n n'
  nlive : ∀ n n', R n n' → (g.node? n).isSome ∧ (g'.node? n').isSome
  nord : ∀ a a' b b', R a a' → R b b' → (a < b ↔ a' < b')
  pl : ∀ p, (g.port? p).isSome → ∃ p', P p p'
  pr : ∀ p', (g'.port? p').isSome → ∃ p, P p p'
  plive : ∀ p p', P p p' → (g.port? p).isSome ∧ (g'.port? p').isSome
  pord : ∀ a a' b b', P a a' → P b b' → (a < b ↔ a' < b')
  counts : ∀ n n' m m', R n n' → g.node? n = some m → g'.node? n' = some m' →
    m.incoming = m'.incoming ∧ m.outgoing = m'.outgoing ∧ (0 < m.incoming + m.outgoing → P m.first m'.first)
  port : ∀ p p' n n' d d', P p p' → g.port? p = some (n, d) → g'.port? p' = some (n', d') → R n n' ∧ d = d'
  link : ∀ p p', P p p' → (∀ q, g.lk p = some q → ∃ q', g'.lk p' = some q' ∧ P q q') ∧ (g.lk p = none → g'.lk p' = none)

theorem Sim.symm {R P : Nat → Nat → Prop} {g g' : PG} (h : Sim R P g g') : Sim (fun a b => R b a) (fun a b => P b a) g' g where
  nl := h.nr
  nr := h.nl
  nlive := fun n n' hn => (h.nlive _ _ hn).symm
  nord := fun a a' b b' h1 h2 => (h.nord _ _ _ _ h1 h2).symm
  pl := h.pr
  pr := h.pl
  plive := fun n n' hn => (h.plive _ _ hn).symm
  pord := fun a a' b b' h1 h2 => (h.pord _ _ _ _ h1 h2).symm
  counts := by
    intro n n' m m' h1 h2 h3
    obtain ⟨e1, e2, e3⟩ := h.counts _ _ _ _ h1 h3 h2
    exact ⟨e1.symm, e2.symm, fun h0 => e3 (by omega)⟩
  port := by
    intro p p' n n' d d' h1 h2 h3
    obtain ⟨e1, e2⟩ := h.port _ _ _ _ _ _ h1 h3 h2
    exact ⟨e1, e2.symm⟩
  link := by
    intro p p' h1
    obtain ⟨e1, e2⟩ := h.link _ _ h1
    constructor
    · intro q hq
      cases e : g.lk p' with
      | none => rw [e2 e] at hq; cases hq
      | some q' =>
        obtain ⟨q2, h3, h4⟩ := e1 q' e
        rw [hq] at h3; cases h3
        exact ⟨q', rfl, h4⟩
    · intro hq
      cases e : g.lk p' with
      | none => rfl
      | some q' => obtain ⟨q2, h3, h4⟩ := e1 q' e; rw [hq] at h3; cases h3

theorem Sim.trans {R P R' P' : Nat → Nat → Prop} {g g' g'' : PG} (h : Sim R P g g') (h' : Sim R' P' g' g'') :
    Sim (fun a c => ∃ b, R a b ∧ R' b c) (fun a c => ∃ b, P a b ∧ P' b c) g g'' where
  nl := by
    intro n hn
    obtain ⟨n', h1⟩ := h.nl n hn
    obtain ⟨n'', h2⟩ := h'.nl n' (h.nlive _ _ h1).2
    exact ⟨n'', n', h1, h2⟩
  nr := by
    intro n hn
    obtain ⟨n', h1⟩ := h'.nr n hn
    obtain ⟨n'', h2⟩ := h.nr n' (h'.nlive _ _ h1).1
    exact ⟨n'', n', h2, h1⟩
  nlive := by
    rintro n n' ⟨b, h1, h2⟩
    exact ⟨(h.nlive _ _ h1).1, (h'.nlive _ _ h2).2⟩
  nord := by
    rintro a a' b b' ⟨x, h1, h2⟩ ⟨y, h3, h4⟩
    rw [h.nord _ _ _ _ h1 h3, h'.nord _ _ _ _ h2 h4]
  pl := by
    intro n hn
    obtain ⟨n', h1⟩ := h.pl n hn
    obtain ⟨n'', h2⟩ := h'.pl n' (h.plive _ _ h1).2
    exact ⟨n'', n', h1, h2⟩
  pr := by
    intro n hn
    obtain ⟨n', h1⟩ := h'.pr n hn
    obtain ⟨n'', h2⟩ := h.pr n' (h'.plive _ _ h1).1
    exact ⟨n'', n', h2, h1⟩
  plive := by
    rintro n n' ⟨b, h1, h2⟩
    exact ⟨(h.plive _ _ h1).1, (h'.plive _ _ h2).2⟩
  pord := by
    rintro a a' b b' ⟨x, h1, h2⟩ ⟨y, h3, h4⟩
    rw [h.pord _ _ _ _ h1 h3, h'.pord _ _ _ _ h2 h4]
  counts := by
    rintro n n' m m' ⟨x, h1, h2⟩ hm hm'
    obtain ⟨mx, hx⟩ := Option.isSome_iff_exists.1 (h.nlive _ _ h1).2
    obtain ⟨e1, e2, e3⟩ := h.counts _ _ _ _ h1 hm hx
    obtain ⟨f1, f2, f3⟩ := h'.counts _ _ _ _ h2 hx hm'
    exact ⟨e1.trans f1, e2.trans f2, fun h0 => ⟨_, e3 h0, f3 (by omega)⟩⟩
  port := by
    rintro p p' n n' d d' ⟨x, h1, h2⟩ hp hp'
    obtain ⟨⟨nx, dx⟩, hx⟩ := Option.isSome_iff_exists.1 (h.plive _ _ h1).2
    obtain ⟨e1, e2⟩ := h.port _ _ _ _ _ _ h1 hp hx
    obtain ⟨f1, f2⟩ := h'.port _ _ _ _ _ _ h2 hx hp'
    exact ⟨⟨nx, e1, f1⟩, e2.trans f2⟩
  link := by
    rintro p p' ⟨x, h1, h2⟩
    obtain ⟨e1, e2⟩ := h.link _ _ h1
    obtain ⟨f1, f2⟩ := h'.link _ _ h2
    constructor
    · intro q hq
      obtain ⟨q', h3, h4⟩ := e1 q hq
      obtain ⟨q'', h5, h6⟩ := f1 q' h3
      exact ⟨q'', h5, q', h4, h6⟩
    · exact fun hq => f2 (e2 hq)

/-- No gaps and no slack. -/
structure Normal (g : PG) : Prop where
  nodes : ∀ n, n < g.nodeMeta.length → (g.node? n).isSome
  ports : ∀ p, p < g.portMeta.length → (g.port? p).isSome
  nodeFree : g.nodeFree = none
  portFree : g.portFree = []
  tight : ∀ n m, g.node? n = some m → m.capacity = m.incoming + m.outgoing

theorem port?_entry {g : PG} {p n d} : g.port? p = some (n, d) ↔ g.portMeta[p]? = some (.port n d) := by
  unfold PG.port?
  cases e : g.portMeta[p]? with
  | none => simp
  | some x => cases x <;> simp

/-- Normal graphs that correspond are equal. -/
theorem normal_eq {R P : Nat → Nat → Prop} {g g' : PG} (hI : Inv g) (hI' : Inv g') (hN : Normal g) (hN' : Normal g') (h : Sim R P g g') : g = g' := by
  obtain ⟨hR, hnl⟩ := dense_eq (R := R) (a := g.nodeMeta.length) (b := g'.nodeMeta.length)
    (fun x hx => h.nl x (hN.nodes x hx)) (fun x hx => h.nr x (hN'.nodes x hx))
    (fun x y hxy => ⟨PG.node?_lt (h.nlive _ _ hxy).1, PG.node?_lt (h.nlive _ _ hxy).2⟩) (fun x y x' y' => h.nord x y x' y')
  obtain ⟨hP, hpl⟩ := dense_eq (R := P) (a := g.portMeta.length) (b := g'.portMeta.length)
    (fun x hx => h.pl x (hN.ports x hx)) (fun x hx => h.pr x (hN'.ports x hx))
    (fun x y hxy => ⟨PG.port?_lt (h.plive _ _ hxy).1, PG.port?_lt (h.plive _ _ hxy).2⟩) (fun x y x' y' => h.pord x y x' y')
  have hR' : ∀ n, n < g.nodeMeta.length → R n n := by
    intro n hn
    obtain ⟨n', h1⟩ := h.nl n (hN.nodes n hn)
    have := hR _ _ h1; subst this; exact h1
  have hP' : ∀ n, n < g.portMeta.length → P n n := by
    intro n hn
    obtain ⟨n', h1⟩ := h.pl n (hN.ports n hn)
    have := hP _ _ h1; subst this; exact h1
  obtain ⟨own, fs, hS, hfull⟩ := hI.slots
  obtain ⟨own', fs', hS', hfull'⟩ := hI'.slots
  have e1 : g.nodeMeta = g'.nodeMeta := by
    apply List.ext_getElem?
    intro n
    by_cases hn : n < g.nodeMeta.length
    · obtain ⟨m, hm⟩ := Option.isSome_iff_exists.1 (hN.nodes n hn)
      obtain ⟨m', hm'⟩ := Option.isSome_iff_exists.1 (hN'.nodes n (by omega))
      rw [PG.node?_eq.1 hm, PG.node?_eq.1 hm']
      obtain ⟨a1, a2, a3⟩ := h.counts _ _ _ _ (hR' n hn) hm hm'
      have t1 := hN.tight _ _ hm
      have t2 := hN'.tight _ _ hm'
      have f1 : m.first = m'.first := by
        by_cases h0 : 0 < m.incoming + m.outgoing
        · exact hP _ _ (a3 h0)
        · rw [(hS.bound _ _ hm).2.2.1 (by omega), (hS'.bound _ _ hm').2.2.1 (by omega)]
      obtain ⟨x1, x2, x3, x4⟩ := m
      obtain ⟨y1, y2, y3, y4⟩ := m'
      simp only at a1 a2 t1 t2 f1
      subst a1 a2 f1 t1 t2
      rfl
    · rw [List.getElem?_eq_none (by omega), List.getElem?_eq_none (by omega)]
  have e2 : g.portMeta = g'.portMeta := by
    apply List.ext_getElem?
    intro p
    by_cases hp : p < g.portMeta.length
    · obtain ⟨⟨n, d⟩, hx⟩ := Option.isSome_iff_exists.1 (hN.ports p hp)
      obtain ⟨⟨n', d'⟩, hx'⟩ := Option.isSome_iff_exists.1 (hN'.ports p (by omega))
      rw [port?_entry.1 hx, port?_entry.1 hx']
      obtain ⟨a1, a2⟩ := h.port _ _ _ _ _ _ (hP' p hp) hx hx'
      rw [hR _ _ a1, a2]
    · rw [List.getElem?_eq_none (by omega), List.getElem?_eq_none (by omega)]
  have hl : g.lk = g'.lk := by
    funext p
    by_cases hp : p < g.portMeta.length
    · obtain ⟨a1, a2⟩ := h.link _ _ (hP' p hp)
      cases e : g.lk p with
      | none => exact (a2 e).symm
      | some q =>
        obtain ⟨q', h1, h2⟩ := a1 q e
        rw [h1, hP _ _ h2]
    · simp [PG.lk, List.getElem?_eq_none (show g.portLink.length ≤ p by rw [hI.len]; omega),
        List.getElem?_eq_none (show g'.portLink.length ≤ p by rw [hI'.len]; omega)]
  have e3 : g.portLink = g'.portLink := by
    apply List.ext_getElem?
    intro p
    by_cases hp : p < g.portLink.length
    · rw [PG.getElem?_portLink hp, PG.getElem?_portLink (by rw [hI'.len, ← hpl, ← hI.len]; exact hp), hl]
    · rw [List.getElem?_eq_none (by omega), List.getElem?_eq_none (by rw [hI'.len, ← hpl, ← hI.len]; omega)]
  have hpt : g.port? = g'.port? := by funext p; unfold PG.port?; rw [e2]
  have e4 : g.nodeCount = g'.nodeCount := by
    obtain ⟨fn, h1⟩ := hI.nodes
    obtain ⟨fn', h2⟩ := hI'.nodes
    rw [h1.count, h2.count, e1]
  have e5 : g.portCount = g'.portCount := by rw [hI.portCount, hI'.portCount, hpt, e2]
  have e6 : g.linkCount = g'.linkCount := by rw [hI.outCount, hI'.outCount, hpt, e2, hl]
  have e7 := hN.nodeFree.trans hN'.nodeFree.symm
  have e8 := hN.portFree.trans hN'.portFree.symm
  cases g
  cases g'
  simp only at e1 e2 e3 e4 e5 e6 e7 e8
  subst e1 e2 e3 e4 e5 e6 e7 e8
  rfl

/-- Numbers of the nodes and ports in a table with gaps. -/
theorem OrderIso.sim {ρ π : Nat → Nat} {g g' : PG} (hI : Inv g) (hI' : Inv g') (h : PG.OrderIso ρ π g g') :
    Sim (fun n n' => (g.node? n).isSome ∧ ρ n = n') (fun p p' => (g.port? p).isSome ∧ π p = p') g g' where
  nl := fun n hn => ⟨_, hn, rfl⟩
  nr := by
    intro n' hn'
    obtain ⟨n, h1, h2⟩ := (h.nodes n').1 (containsNode_iff.2 hn')
    exact ⟨n, containsNode_iff.1 h1, h2⟩
  nlive := fun n n' hn => ⟨hn.1, containsNode_iff.1 ((h.nodes n').2 ⟨n, containsNode_iff.2 hn.1, hn.2⟩)⟩
  nord := by
    rintro a a' b b' ⟨h1, rfl⟩ ⟨h2, rfl⟩
    constructor
    · exact h.nodeOrder _ _ (containsNode_iff.2 h1) (containsNode_iff.2 h2)
    · intro hlt
      rcases Nat.lt_trichotomy a b with h3 | rfl | h3
      · exact h3
      · omega
      · have := h.nodeOrder _ _ (containsNode_iff.2 h2) (containsNode_iff.2 h1) h3
        omega
  pl := fun n hn => ⟨_, hn, rfl⟩
  pr := by
    intro n' hn'
    obtain ⟨n, h1, h2⟩ := (h.ports n').1 (containsPort_iff.2 hn')
    exact ⟨n, containsPort_iff.1 h1, h2⟩
  plive := fun n n' hn => ⟨hn.1, containsPort_iff.1 ((h.ports n').2 ⟨n, containsPort_iff.2 hn.1, hn.2⟩)⟩
  pord := by
    rintro a a' b b' ⟨h1, rfl⟩ ⟨h2, rfl⟩
    constructor
    · exact h.portOrder _ _ (containsPort_iff.2 h1) (containsPort_iff.2 h2)
    · intro hlt
      rcases Nat.lt_trichotomy a b with h3 | rfl | h3
      · exact h3
      · omega
      · have := h.portOrder _ _ (containsPort_iff.2 h2) (containsPort_iff.2 h1) h3
        omega
  counts := by
    rintro n n' m m' ⟨h1, rfl⟩ hm hm'
    have hc := fun d => h.counts n d (containsNode_iff.2 h1)
    simp only [numPorts_eq hm, numPorts_eq hm'] at hc
    have hi := hc .incoming
    have ho := hc .outgoing
    simp only [NodeMeta.numPorts] at hi ho
    refine ⟨hi.symm, ho.symm, fun h0 => ?_⟩
    obtain ⟨d, h2, h3⟩ := NodeMeta.range_dir m m.first (Nat.le_refl _) (by omega)
    have hat : At g m.first (n, d, m.first - m.start d) := ⟨m, hm, by simp only; omega, by simp only; omega⟩
    refine ⟨by rw [hat.port hI]; rfl, ?_⟩
    obtain ⟨m2, h4, h5, h6⟩ := at_index.1 (h.index _ _ _ _ (at_index.2 hat))
    simp only at h4 h5 h6
    rw [hm'] at h4; cases h4
    rw [h6]
    have hst : m'.start d - m'.first = m.start d - m.first ∧ m'.first ≤ m'.start d ∧ m.first ≤ m.start d := by
      cases d <;> simp only [NodeMeta.start] <;> omega
    omega
  port := by
    rintro p p' n n' d d' ⟨h1, rfl⟩ hp hp'
    obtain ⟨m, hm, h2, hat⟩ := port_at hI hp
    have hat' := at_index.1 (h.index _ _ _ _ (at_index.2 hat))
    have := hat'.port hI'
    rw [hp'] at this
    cases this
    exact ⟨⟨by rw [hm]; rfl, rfl⟩, rfl⟩
  link := by
    rintro p p' ⟨h1, rfl⟩
    have h2 : (g'.port? (π p)).isSome := containsPort_iff.1 ((h.ports _).2 ⟨p, containsPort_iff.2 h1, rfl⟩)
    have hk := h.link p (containsPort_iff.2 h1)
    rw [portLink?_eq hI h1, portLink?_eq hI' h2] at hk
    simp only [Option.map_some, Option.some.injEq] at hk
    constructor
    · intro q hq
      refine ⟨π q, by rw [hk, hq]; rfl, ?_, rfl⟩
      obtain ⟨own, fs, hP, hfull⟩ := hI.slots
      obtain ⟨⟨n, d⟩, hx⟩ := Option.isSome_iff_exists.1 h1
      obtain ⟨-, n', hq'⟩ := hP.links _ _ _ _ hx hq
      rw [hq']; rfl
    · intro hq; rw [hk, hq]; rfl

/-! ## The compactions -/

theorem compactNodes_sim {g g' : PG} (hI : Inv g) {tr} (h : g.compactNodes = some (g', tr)) :
    Inv g' ∧ Sim (fun n n' => (g.node? n).isSome ∧ g.nodeRank n = n') (fun p p' => (g.port? p).isSome ∧ p = p') g g' := by
  obtain ⟨g1, h1, h2, h3, h4, h5, -⟩ := compactNodes_ok hI
  rw [h] at h1
  cases h1
  refine ⟨h2, ?_⟩
  have hnode : ∀ n m, g.node? n = some m → g'.node? (g.nodeRank n) = some m := fun n m hm => (h3 _ _).2 ⟨n, rfl, hm⟩
  constructor
  · exact fun n hn => ⟨_, hn, rfl⟩
  · intro n' hn'
    obtain ⟨m, hm⟩ := Option.isSome_iff_exists.1 hn'
    obtain ⟨n, e1, e2⟩ := (h3 _ _).1 hm
    exact ⟨n, by rw [e2]; rfl, e1⟩
  · rintro n n' ⟨hn, rfl⟩
    obtain ⟨m, hm⟩ := Option.isSome_iff_exists.1 hn
    exact ⟨hn, by rw [hnode _ _ hm]; rfl⟩
  · rintro a a' b b' ⟨ha, rfl⟩ ⟨hb, rfl⟩
    constructor
    · exact fun hlt => cnt_lt hlt (live_iff.2 ha)
    · intro hlt
      rcases Nat.lt_trichotomy a b with h6 | rfl | h6
      · exact h6
      · omega
      · have := cnt_lt h6 (live_iff.2 hb)
        unfold PG.nodeRank at hlt
        omega
  · exact fun p hp => ⟨_, hp, rfl⟩
  · intro p hp
    refine ⟨p, ?_, rfl⟩
    rw [h4] at hp
    simpa using hp
  · rintro p p' ⟨hp, rfl⟩
    exact ⟨hp, by rw [h4]; simpa using hp⟩
  · rintro a a' b b' ⟨ha, rfl⟩ ⟨hb, rfl⟩; exact Iff.rfl
  · rintro n n' m m' ⟨hn, rfl⟩ hm hm'
    rw [hnode _ _ hm] at hm'
    cases hm'
    refine ⟨rfl, rfl, fun h0 => ⟨?_, rfl⟩⟩
    obtain ⟨d, h6, h7⟩ := NodeMeta.range_dir m m.first (Nat.le_refl _) (by omega)
    have hat : At g m.first (n, d, m.first - m.start d) := ⟨m, hm, by simp only; omega, by simp only; omega⟩
    rw [hat.port hI]; rfl
  · rintro p p' n n' d d' ⟨hp, rfl⟩ e1 e2
    rw [h4] at e2
    simp only [e1] at e2
    cases e2
    obtain ⟨m, hm, -⟩ := port_at hI e1
    exact ⟨⟨by rw [hm]; rfl, rfl⟩, rfl⟩
  · rintro p p' ⟨hp, rfl⟩
    rw [h5]
    refine ⟨fun q hq => ⟨q, hq, ?_, rfl⟩, id⟩
    obtain ⟨own, fs, hP, hfull⟩ := hI.slots
    obtain ⟨⟨n, d⟩, hx⟩ := Option.isSome_iff_exists.1 hp
    obtain ⟨-, n', hq'⟩ := hP.links _ _ _ _ hx hq
    rw [hq']; rfl

/-- Nodes without ports own no port slots. -/
def PG.Tidy (g : PG) : Prop := ∀ n, g.numPorts n .incoming + g.numPorts n .outgoing = 0 → g.nodePortCapacity n = 0

theorem tidy_iff {g : PG} : g.Tidy ↔ ∀ n m, g.node? n = some m → m.incoming + m.outgoing = 0 → m.capacity = 0 := by
  constructor
  · intro h n m hm h0
    have := h n (by rw [numPorts_eq hm, numPorts_eq hm]; exact h0)
    rwa [capacity_eq hm] at this
  · intro h n h0
    cases e : g.node? n with
    | none => simp [PG.nodePortCapacity, e]
    | some m =>
      rw [numPorts_eq e, numPorts_eq e] at h0
      rw [capacity_eq e]
      exact h n m e h0

theorem compactPorts_sim {g g' : PG} (hI : Inv g) (ht : g.Tidy) {tr} (h : g.compactPorts = some (g', tr)) :
    Inv g' ∧ Sim (fun n n' => (g.node? n).isSome ∧ n = n') (fun p p' => (g.port? p).isSome ∧ rank g.port? p = p') g g' := by
  obtain ⟨g1, h1, h2, h3, h4, h5, h6, -⟩ := compactPorts_ok hI (tidy_iff.1 ht)
  rw [h] at h1
  cases h1
  refine ⟨h2, ?_⟩
  constructor
  · exact fun n hn => ⟨_, hn, rfl⟩
  · intro n hn
    rw [h3] at hn
    exact ⟨n, by simpa using hn, rfl⟩
  · rintro n n' ⟨hn, rfl⟩
    exact ⟨hn, by rw [h3]; simpa using hn⟩
  · rintro a a' b b' ⟨ha, rfl⟩ ⟨hb, rfl⟩; exact Iff.rfl
  · exact fun p hp => ⟨_, hp, rfl⟩
  · intro q hq
    exact packed_onto hI h6 (PG.port?_lt hq)
  · rintro p p' ⟨hp, rfl⟩
    exact ⟨hp, by rw [h4 p hp]; exact hp⟩
  · rintro a a' b b' ⟨ha, rfl⟩ ⟨hb, rfl⟩
    constructor
    · exact fun hlt => rank_lt hlt ha
    · intro hlt
      rcases Nat.lt_trichotomy a b with h6 | rfl | h6
      · exact h6
      · omega
      · have := rank_lt (pt := g.port?) h6 hb
        omega
  · rintro n n' m m' ⟨hn, rfl⟩ hm hm'
    rw [h3, hm] at hm'
    simp only [Option.map_some, Option.some.injEq] at hm'
    subst hm'
    by_cases h0 : m.incoming + m.outgoing = 0
    · simp only [packed, h0, if_true]
      exact ⟨trivial, trivial, fun h => by omega⟩
    · rw [packed, if_neg h0]
      refine ⟨rfl, rfl, fun _ => ⟨?_, rfl⟩⟩
      obtain ⟨d, h6, h7⟩ := NodeMeta.range_dir m m.first (Nat.le_refl _) (by omega)
      have hat : At g m.first (n, d, m.first - m.start d) := ⟨m, hm, by simp only; omega, by simp only; omega⟩
      rw [hat.port hI]; rfl
  · rintro p p' n n' d d' ⟨hp, rfl⟩ e1 e2
    rw [h4 p hp, e1] at e2
    cases e2
    obtain ⟨m, hm, -⟩ := port_at hI e1
    exact ⟨⟨by rw [hm]; rfl, rfl⟩, rfl⟩
  · rintro p p' ⟨hp, rfl⟩
    rw [h5 p hp]
    constructor
    · intro q hq
      refine ⟨_, by rw [hq]; rfl, ?_, rfl⟩
      obtain ⟨own, fs, hP, hfull⟩ := hI.slots
      obtain ⟨⟨n, d⟩, hx⟩ := Option.isSome_iff_exists.1 hp
      obtain ⟨-, n', hq'⟩ := hP.links _ _ _ _ hx hq
      rw [hq']; rfl
    · intro hq; rw [hq]; rfl

theorem full_live {g : PG} (hI : Inv g) (hf : g.nodeFree = none) {n : Nat} (hn : n < g.nodeMeta.length) : (g.node? n).isSome := by
  obtain ⟨fn, hN⟩ := hI.nodes
  have hc := hN.chain
  rw [hf] at hc
  have := hc.nil
  subst this
  cases e : g.nodeMeta[n]? with
  | none => rw [List.getElem?_eq_none_iff] at e; omega
  | some x =>
    cases x with
    | node m => simp [PG.node?, e]
    | free a b => exact absurd ((hN.exact n).2 ⟨a, b, e⟩) (by simp)

/-- After `compact_ports`: no gaps between ports and no slack. -/
theorem compactPorts_ports {g g' : PG} (hI : Inv g) (ht : g.Tidy) {tr} (h : g.compactPorts = some (g', tr)) :
    (∀ p, p < g'.portMeta.length → (g'.port? p).isSome) ∧ g'.portFree = [] ∧ g'.nodeFree = g.nodeFree ∧
    (∀ n m, g'.node? n = some m → m.capacity = m.incoming + m.outgoing) := by
  obtain ⟨g1, h1, h2, h3, h4, h5, h6, h7, h8, h9, h10, h11, h12, h13⟩ := compactPorts_all hI
  rw [h] at h1
  cases h1
  refine ⟨?_, h13, h11, ?_⟩
  · intro q hq
    obtain ⟨p, hp, rfl⟩ := packed_onto hI h6 hq
    rw [h4 p hp]; exact hp
  · intro n m hm
    rw [h3] at hm
    obtain ⟨m0, hm0, rfl⟩ := Option.map_eq_some_iff.1 hm
    by_cases h0 : m0.incoming + m0.outgoing = 0
    · simp only [packed, h0, if_true]
      exact tidy_iff.1 ht n m0 hm0 h0
    · rw [packed, if_neg h0]

/-- `compact_nodes` touches only the owners of ports. -/
theorem compactNodesLoop_frame {g : PG} {old new es r} (h : g.compactNodesLoop old new es = some r) :
    ∃ pm, r.2.1 = { g with portMeta := pm } ∧ pm.length = g.portMeta.length := by
  induction es generalizing g old new r with
  | nil => simp only [PG.compactNodesLoop, Option.some.injEq] at h; subst h; exact ⟨g.portMeta, rfl, rfl⟩
  | cons e es ih =>
    cases e with
    | free a b => exact ih (by simpa [PG.compactNodesLoop] using h)
    | node m =>
      simp only [PG.compactNodesLoop] at h
      cases e1 : g.claimPorts new m with
      | none => rw [e1] at h; cases h
      | some g1 =>
        rw [e1] at h
        simp only at h
        cases e2 : g1.compactNodesLoop (old + 1) (new + 1) es with
        | none => rw [e2] at h; cases h
        | some x =>
          rw [e2] at h
          simp only [Option.some.injEq] at h
          subst h
          obtain ⟨pm, h3, h4⟩ := ih e2
          unfold PG.claimPorts at e1
          split at e1
          · simp only [Option.some.injEq] at e1
            subst e1
            exact ⟨pm, by rw [h3], by rw [h4]; simp⟩
          · cases e1

theorem compactNodes_frame {g g' : PG} {tr} (h : g.compactNodes = some (g', tr)) :
    g'.portLink = g.portLink ∧ g'.portFree = g.portFree ∧ g'.portMeta.length = g.portMeta.length := by
  unfold PG.compactNodes at h
  cases e : g.compactNodesLoop 0 0 g.nodeMeta with
  | none => rw [e] at h; cases h
  | some x =>
    rw [e] at h
    simp only [Option.some.injEq, Prod.mk.injEq] at h
    obtain ⟨pm, h1, h2⟩ := compactNodesLoop_frame e
    rw [← h.1, h1]
    exact ⟨rfl, rfl, h2⟩

/-- `compact_nodes` and then `compact_ports`. -/
def PG.compacted (g : PG) : Option PG := g.compactNodes.bind fun x => x.1.compactPorts.map (·.1)

/-- `compact_ports` and then `compact_nodes`. -/
def PG.compacted' (g : PG) : Option PG := g.compactPorts.bind fun x => x.1.compactNodes.map (·.1)

theorem compacted_ok {g : PG} (hI : Inv g) (ht : g.Tidy) :
    ∃ h R P, g.compacted = some h ∧ Inv h ∧ Normal h ∧ Sim R P g h := by
  obtain ⟨g1, h1, -, h3, -, -, -, -, -, -, h4⟩ := compactNodes_ok hI
  obtain ⟨hI1, hS1⟩ := compactNodes_sim hI h1
  have ht1 : g1.Tidy := by
    rw [tidy_iff] at ht ⊢
    intro n m hm
    obtain ⟨n0, -, hm0⟩ := (h3 n m).1 hm
    exact ht n0 m hm0
  obtain ⟨g2, h5, -⟩ := compactPorts_all hI1
  obtain ⟨hI2, hS2⟩ := compactPorts_sim hI1 ht1 h5
  obtain ⟨k1, k2, k3, k4⟩ := compactPorts_ports hI1 ht1 h5
  refine ⟨g2, _, _, ?_, hI2, ⟨fun n hn => full_live hI2 (k3.trans h4) hn, k1, k3.trans h4, k2, k4⟩, hS1.trans hS2⟩
  unfold PG.compacted
  rw [h1]
  simp only [Option.bind_some, h5, Option.map_some]

theorem compacted'_ok {g : PG} (hI : Inv g) (ht : g.Tidy) :
    ∃ h R P, g.compacted' = some h ∧ Inv h ∧ Normal h ∧ Sim R P g h := by
  obtain ⟨g1, h1, -⟩ := compactPorts_all hI
  obtain ⟨hI1, hS1⟩ := compactPorts_sim hI ht h1
  obtain ⟨k1, k2, k3, k4⟩ := compactPorts_ports hI ht h1
  obtain ⟨g2, h5, -, h3, h6, -, -, -, -, -, h4⟩ := compactNodes_ok hI1
  obtain ⟨hI2, hS2⟩ := compactNodes_sim hI1 h5
  obtain ⟨f1, f2, f3⟩ := compactNodes_frame h5
  refine ⟨g2, _, _, ?_, hI2, ⟨fun n hn => full_live hI2 h4 hn, ?_, h4, f2.trans k2, ?_⟩, hS1.trans hS2⟩
  · unfold PG.compacted'
    rw [h1]
    simp only [Option.bind_some, h5, Option.map_some]
  · intro p hp
    rw [h6]
    simpa using k1 p (by omega)
  · intro n m hm
    obtain ⟨n0, -, hm0⟩ := (h3 n m).1 hm
    exact k4 n0 m hm0

theorem Normal.tidy {g : PG} (h : Normal g) : g.Tidy := by
  rw [tidy_iff]
  intro n m hm h0
  rw [h.tight n m hm, h0]

/-! ## C80 -/

/-- **C80** Graphs made by any histories of calls that show the same nodes, ports and links in the same order are after both
compactions, in either order, equal in every slot, list and counter. Missing: graphs with slots that belong to nodes without
ports; there it is false (`C80_witness_slack`). -/
theorem C80_normal_form_partial {maxOff maxOff' : Nat} (hmax : maxOff ≤ 32767) (hmax' : maxOff' ≤ 32767) {g g' : PG} (hg : PG.Reach maxOff g)
    (hg' : PG.Reach maxOff' g') (ht : g.Tidy) (ht' : g'.Tidy) {ρ π : Nat → Nat} (h : PG.OrderIso ρ π g g') :
    ∃ c, g.compacted = some c ∧ g.compacted' = some c ∧ g'.compacted = some c ∧ g'.compacted' = some c := by
  have hI := hg.inv hmax
  have hI' := hg'.inv hmax'
  have hS := OrderIso.sim hI hI' h
  obtain ⟨c1, _, _, a1, b1, n1, s1⟩ := compacted_ok hI ht
  obtain ⟨c2, _, _, a2, b2, n2, s2⟩ := compacted'_ok hI ht
  obtain ⟨c3, _, _, a3, b3, n3, s3⟩ := compacted_ok hI' ht'
  obtain ⟨c4, _, _, a4, b4, n4, s4⟩ := compacted'_ok hI' ht'
  have e2 := normal_eq b1 b2 n1 n2 (s1.symm.trans s2)
  have e3 := normal_eq b1 b3 n1 n3 (s1.symm.trans (hS.trans s3))
  have e4 := normal_eq b1 b4 n1 n4 (s1.symm.trans (hS.trans s4))
  subst e2 e3 e4
  exact ⟨c1, a1, a2, a3, a4⟩

/-- **C80** Compacting again changes nothing. -/
theorem C80_idempotent_partial {maxOff : Nat} (hmax : maxOff ≤ 32767) {g : PG} (hg : PG.Reach maxOff g) (ht : g.Tidy) :
    ∃ c, g.compacted = some c ∧ c.compacted = some c ∧ c.compacted' = some c ∧ PG.Reach maxOff c := by
  have hI := hg.inv hmax
  obtain ⟨c, _, _, a1, b1, n1, s1⟩ := compacted_ok hI ht
  obtain ⟨c1, _, _, a2, b2, n2, s2⟩ := compacted_ok b1 n1.tidy
  obtain ⟨c2, _, _, a3, b3, n3, s3⟩ := compacted'_ok b1 n1.tidy
  have e2 := normal_eq b1 b2 n1 n2 s2
  have e3 := normal_eq b1 b3 n1 n3 s3
  subst e2 e3
  refine ⟨c, a1, a2, a3, ?_⟩
  obtain ⟨g1, h1, -, h3, -⟩ := compactNodes_ok hI
  unfold PG.compacted at a1
  rw [h1] at a1
  simp only [Option.bind_some, Option.map_eq_some_iff] at a1
  obtain ⟨⟨x, tr⟩, h5, rfl⟩ := a1
  have r1 : PG.Reach maxOff g1 := .step (op := .compactNodes) hg trivial (by simp [PG.step, h1])
  refine .step (op := .compactPorts) r1 ?_ (by simp [PG.step, h5])
  show g1.Tidy
  rw [tidy_iff] at ht ⊢
  intro n m hm
  obtain ⟨n0, -, hm0⟩ := (h3 n m).1 hm
  exact ht n0 m hm0

/-- **C80** A second `compact_nodes` changes nothing and reports every node with its own number. -/
theorem C80_nodes_twice {maxOff : Nat} (hmax : maxOff ≤ 32767) {g g' : PG} (hg : PG.Reach maxOff g) {tr} (h : g.compactNodes = some (g', tr)) :
    g'.compactNodes = some (g', (List.range g.nodeCount).map fun n => (n, n)) := by
  have hI := hg.inv hmax
  obtain ⟨g1, h1, h2, h3, h4, h5, h6, h7, h8, h9, h10⟩ := compactNodes_ok hI
  rw [h] at h1
  cases h1
  have hlive : ∀ n, n < g'.nodeMeta.length → (g'.node? n).isSome := fun n hn => full_live h2 h10 hn
  have hrank : ∀ n, n ≤ g'.nodeMeta.length → g'.nodeRank n = n := by
    intro n hn
    have := cnt_block (P := g'.live) (a := 0) (k := n) (fun i _ hi => live_iff.2 (hlive i (by omega))) (j := n) (Nat.le_refl _)
    simpa [PG.nodeRank, cnt_zero] using this
  obtain ⟨g2, k1, k2, k3, k4, k5, k6, k7, k8, k9, k10⟩ := compactNodes_ok h2
  obtain ⟨f1, f2, f3⟩ := compactNodes_frame k1
  have hl2 : ∀ n, n < g2.nodeMeta.length → (g2.node? n).isSome := fun n hn => full_live k2 k10 hn
  have hlen : g2.nodeMeta.length = g'.nodeMeta.length := by omega
  have e1 : g2.nodeMeta = g'.nodeMeta := by
    apply List.ext_getElem?
    intro n
    by_cases hn : n < g2.nodeMeta.length
    · obtain ⟨m, hm⟩ := Option.isSome_iff_exists.1 (hl2 n hn)
      obtain ⟨n0, e, hm0⟩ := (k3 n m).1 hm
      rw [hrank n0 (Nat.le_of_lt (PG.node?_lt (by rw [hm0]; rfl)))] at e
      subst e
      rw [PG.node?_eq.1 hm, PG.node?_eq.1 hm0]
    · rw [List.getElem?_eq_none (by omega), List.getElem?_eq_none (by omega)]
  have hpt : g2.port? = g'.port? := by
    rw [k4]
    funext p
    cases e : g'.port? p with
    | none => rfl
    | some x =>
      obtain ⟨m, hm, -⟩ := port_at h2 (n := x.1) (d := x.2) e
      simp only [Option.map_some]
      rw [hrank x.1 (Nat.le_of_lt (PG.node?_lt (by rw [hm]; rfl)))]
  have e2 : g2.portMeta = g'.portMeta := by
    apply List.ext_getElem?
    intro p
    have := congrFun hpt p
    unfold PG.port? at this
    by_cases hp : p < g2.portMeta.length
    · have x1 := List.getElem?_eq_getElem hp
      have x2 := List.getElem?_eq_getElem (show p < g'.portMeta.length by omega)
      rw [x1, x2] at this ⊢
      congr 1
      generalize g2.portMeta[p] = a at this
      generalize g'.portMeta[p] = b at this
      cases a <;> cases b <;> simp at this ⊢
      exact this
    · rw [List.getElem?_eq_none (by omega), List.getElem?_eq_none (by omega)]
  have eg : g2 = g' := by
    have e7 := k10.trans h10.symm
    cases g2
    cases g'
    simp only at *
    subst e1 e2 f1 f2 k6 k7 k8 e7
    rfl
  subst eg
  rw [k1]
  congr 2
  rw [List.filter_eq_self.2 (fun n hn => live_iff.2 (hlive n (List.mem_range.1 hn))), h9]
  apply List.map_congr_left
  intro n hn
  rw [hrank n (by rw [h9]; exact Nat.le_of_lt (List.mem_range.1 hn))]

/-! ### `compact_ports` twice -/

theorem compactLinksLoop_same {pm : List PortEntry} {pl : List (Option Nat)} (h : ∀ p, p < pm.length → ∃ n d, pm[p]? = some (.port n d)) :
    ∀ k old, old + k ≤ pm.length → PG.compactLinksLoop pm pl old old k = some (pl, old + k) := by
  intro k
  induction k with
  | zero => intro old _; rfl
  | succ k ih =>
    intro old hk
    obtain ⟨n, d, e⟩ := h old (by omega)
    simp only [PG.compactLinksLoop, e, if_true]
    rw [ih (old + 1) (by omega)]
    congr 2
    omega

theorem compactPortsLoop_same {nm : List NodeEntry} : ∀ (es : List PortEntry) (old : Nat)
    (_ : ∀ i e, es[i]? = some e → ∃ n d m, e = .port n d ∧ nm[n]? = some (.node m) ∧
      (m.first = old + i → NodeMeta.new? (old + i) m.incoming m.outgoing (m.portCount % 65536) = some m)),
    PG.compactPortsLoop nm old old es = some (es, nm, (List.range' old es.length).map fun p => (p, p)) := by
  intro es
  induction es with
  | nil => intro old _; rfl
  | cons e es ih =>
    intro old h
    obtain ⟨n, d, m, rfl, h1, h2⟩ := h 0 e rfl
    have hrec := ih (old + 1) (by
      intro i e he
      obtain ⟨n, d, m, h3, h4, h5⟩ := h (i + 1) e he
      refine ⟨n, d, m, h3, h4, fun hf => ?_⟩
      have := h5 (by omega)
      rwa [show old + (i + 1) = old + 1 + i by omega] at this)
    simp only [PG.compactPortsLoop, h1]
    have key : (if m.first = old then
          match NodeMeta.new? old m.incoming m.outgoing (m.portCount % 65536) with
          | none => none
          | some m' => some (nm.set n (.node m'))
        else some nm) = some nm := by
      by_cases hf : m.first = old
      · have := h2 (by omega)
        simp only [Nat.add_zero] at this
        rw [if_pos hf, this]
        simp only
        congr 1
        apply List.ext_getElem?
        intro j
        by_cases hj : n = j
        · subst hj
          have hlt : n < nm.length := by
            rcases Nat.lt_or_ge n nm.length with h6 | h6
            · exact h6
            · rw [List.getElem?_eq_none h6] at h1; cases h1
          rw [List.getElem?_set_self hlt, h1]
        · rw [List.getElem?_set_ne hj]
      · rw [if_neg hf]
    have key2 : ∀ x : Option (List NodeEntry), x = some nm → (match x with
        | none => none
        | some nm => match PG.compactPortsLoop nm (old + 1) (old + 1) es with
          | none => none
          | some (kept, nm, tr) => some (PortEntry.port n d :: kept, nm, (old, old) :: tr)) =
        some (.port n d :: es, nm, (List.range' old (es.length + 1)).map fun p => (p, p)) := by
      rintro _ rfl
      simp only [hrec]
      rw [List.range'_succ]
      rfl
    exact key2 _ key

/-- **C80** A second `compact_ports` changes nothing and reports every port with its own number. -/
theorem C80_ports_twice_partial {maxOff : Nat} (hmax : maxOff ≤ 32767) {g g' : PG} (hg : PG.Reach maxOff g) (ht : g.Tidy) {tr}
    (h : g.compactPorts = some (g', tr)) : g'.compactPorts = some (g', (List.range g.portCount).map fun p => (p, p)) := by
  have hI := hg.inv hmax
  obtain ⟨hI', -⟩ := compactPorts_sim hI ht h
  obtain ⟨k1, k2, k3, k4⟩ := compactPorts_ports hI ht h
  obtain ⟨g1, h1, -, -, -, -, h6, h7, h8, h9, h10, h11, h12, h13⟩ := compactPorts_all hI
  rw [h] at h1
  cases h1
  have hp : ∀ p, p < g'.portMeta.length → ∃ n d, g'.portMeta[p]? = some (.port n d) := by
    intro p hp
    obtain ⟨⟨n, d⟩, hx⟩ := Option.isSome_iff_exists.1 (k1 p hp)
    exact ⟨n, d, port?_entry.1 hx⟩
  obtain ⟨own, fs, hP, hfull⟩ := hI'.slots
  unfold PG.compactPorts
  rw [compactLinksLoop_same hp g'.portLink.length 0 (by omega)]
  simp only
  rw [compactPortsLoop_same g'.portMeta 0 (by
    intro i e he
    obtain ⟨n, d, e1⟩ := hp i (by
      rcases Nat.lt_or_ge i g'.portMeta.length with h6 | h6
      · exact h6
      · rw [List.getElem?_eq_none h6] at he; cases he)
    rw [he] at e1
    cases e1
    obtain ⟨m, hm, -⟩ := port_at hI' (port?_entry.2 he)
    refine ⟨n, d, m, rfl, PG.node?_eq.1 hm, fun hf => ?_⟩
    obtain ⟨b1, b2, b3, b4, b5⟩ := hP.bound n m hm
    have ht := k4 n m hm
    obtain ⟨m2, hm2, hlt, -⟩ := (hP.ports i n d).1 (port?_entry.2 he)
    rw [hm] at hm2; cases hm2
    obtain ⟨m3, hm3, hc, -⟩ := port_at hI' (port?_entry.2 he)
    obtain ⟨x1, x2, x3, x4⟩ := m
    simp only at *
    have hmod : (NodeMeta.portCount ⟨x1, x2, x3, x4⟩) % 65536 = x4 := by
      simp only [NodeMeta.portCount]
      rw [Nat.mod_eq_of_lt (by omega)]
      omega
    rw [hmod, ← hf]
    unfold NodeMeta.new?
    rw [if_pos]
    refine ⟨b4, by omega, by omega, ?_⟩
    by_cases h0 : x4 = 0
    · right; exact b3 h0
    · left; omega)]
  simp only [Nat.zero_add, List.take_length]
  congr 2
  · cases g'
    simp only at *
    rw [k2]
  · rw [h6, List.range_eq_range']

/-! ## Examples -/

/-- A graph with gaps between nodes and ports, and slack. -/
def gapsOps : List PG.Op :=
  [.addNode 1 1, .addNode 0 2, .addNode 2 0, .addNode 1 1, .linkPorts 2 4, .linkPorts 3 6, .removeNode 0, .setNumPorts 2 1 0]

def gapsG : PG := (PG.run 32767 PG.empty gapsOps).getD PG.empty

theorem gapsG_reach : PG.Reach 32767 gapsG := checkedRun_reach .init (ops := gapsOps) (by decide +kernel)

/-- The same graph made without gaps. -/
def plainOps : List PG.Op := [.addNode 0 2, .addNode 1 0, .addNode 1 1, .linkPorts 1 3, .linkPorts 0 2]

def plainG : PG := (PG.run 32767 PG.empty plainOps).getD PG.empty

theorem plainG_reach : PG.Reach 32767 plainG := checkedRun_reach .init (ops := plainOps) (by decide +kernel)

theorem node_bound {g : PG} {n : Nat} (h : g.containsNode n = true) : n < g.nodeMeta.length := PG.node?_lt (containsNode_iff.1 h)

theorem port_bound {g : PG} {p : Nat} (h : g.containsPort p = true) : p < g.portMeta.length := PG.port?_lt (containsPort_iff.1 h)

/-- The conditions for given tables, with bounds for the numbers. -/
theorem orderIso_of {ρ π : Nat → Nat} {g g' : PG} (hI : Inv g) (h1 : ∀ n < g.nodeMeta.length, g.containsNode n = true → g'.containsNode (ρ n) = true)
    (h2 : ∀ n' < g'.nodeMeta.length, g'.containsNode n' = true → ∃ n < g.nodeMeta.length, g.containsNode n = true ∧ ρ n = n')
    (h3 : ∀ n < g.portMeta.length, g.containsPort n = true → g'.containsPort (π n) = true)
    (h4 : ∀ n' < g'.portMeta.length, g'.containsPort n' = true → ∃ n < g.portMeta.length, g.containsPort n = true ∧ π n = n')
    (h5 : ∀ a < g.nodeMeta.length, ∀ b < g.nodeMeta.length, g.containsNode a = true → g.containsNode b = true → a < b → ρ a < ρ b)
    (h6 : ∀ a < g.portMeta.length, ∀ b < g.portMeta.length, g.containsPort a = true → g.containsPort b = true → a < b → π a < π b)
    (h7 : ∀ n < g.nodeMeta.length, ∀ d ∈ [Direction.incoming, .outgoing], g.containsNode n = true → g'.numPorts (ρ n) d = g.numPorts n d)
    (h8 : ∀ n < g.nodeMeta.length, ∀ d ∈ [Direction.incoming, .outgoing], ∀ k < g.numPorts n d, ∀ p < g.portMeta.length, g.portIndex n d k = some p →
      g'.portIndex (ρ n) d k = some (π p))
    (h9 : ∀ p < g.portMeta.length, g.containsPort p = true → g'.portLink? (π p) = (g.portLink? p).map (Option.map π)) :
    PG.OrderIso ρ π g g' where
  nodes := by
    intro n'
    constructor
    · intro h; obtain ⟨n, -, e⟩ := h2 n' (node_bound h) h; exact ⟨n, e⟩
    · rintro ⟨n, h, rfl⟩; exact h1 n (node_bound h) h
  ports := by
    intro n'
    constructor
    · intro h; obtain ⟨n, -, e⟩ := h4 n' (port_bound h) h; exact ⟨n, e⟩
    · rintro ⟨n, h, rfl⟩; exact h3 n (port_bound h) h
  nodeOrder := fun a b ha hb => h5 a (node_bound ha) b (node_bound hb) ha hb
  portOrder := fun a b ha hb => h6 a (port_bound ha) b (port_bound hb) ha hb
  counts := fun n d hn => h7 n (node_bound hn) d (by cases d <;> simp) hn
  index := by
    intro n d k p h
    have hat := at_index.1 h
    obtain ⟨m, hm, hk, -⟩ := id hat
    refine h8 n (PG.node?_lt (by simp only at hm; rw [hm]; rfl)) d (by cases d <;> simp) k (by rw [numPorts_eq hm]; exact hk) p
      (PG.port?_lt (by rw [hat.port hI]; rfl)) h
  link := fun p hp => h9 p (port_bound hp) hp

theorem gaps_iso : PG.OrderIso (fun n => n - 1) (fun p => if p < 5 then p - 2 else p - 3) gapsG plainG := by
  refine orderIso_of (gapsG_reach.inv (by decide)) ?_ ?_ ?_ ?_ ?_ ?_ ?_ ?_ ?_ <;> decide +kernel

theorem gapsG_tidy : gapsG.Tidy := by
  rw [tidy_iff]
  have : ∀ n < gapsG.nodeMeta.length, (gapsG.node? n).all (fun m => m.incoming + m.outgoing ≠ 0) = true := by decide +kernel
  intro n m hm h0
  have := this n (PG.node?_lt (by rw [hm]; rfl))
  rw [hm] at this
  simp at this
  omega

theorem plainG_tidy : plainG.Tidy := by
  rw [tidy_iff]
  have : ∀ n < plainG.nodeMeta.length, (plainG.node? n).all (fun m => m.incoming + m.outgoing ≠ 0) = true := by decide +kernel
  intro n m hm h0
  have := this n (PG.node?_lt (by rw [hm]; rfl))
  rw [hm] at this
  simp at this
  omega

example := C80_normal_form_partial (by decide) (by decide) gapsG_reach plainG_reach gapsG_tidy plainG_tidy gaps_iso

example := C80_idempotent_partial (by decide) gapsG_reach gapsG_tidy

example : gapsG ≠ plainG ∧ gapsG.compacted = plainG.compacted ∧ gapsG.compacted' = plainG.compacted := by decide +kernel

example : ∃ g' tr, gapsG.compactNodes = some (g', tr) ∧ g' ≠ gapsG ∧ g'.compactNodes = some (g', [(0, 0), (1, 1), (2, 2)]) := by
  obtain ⟨g', tr, h, -⟩ := C15_compact_nodes (by decide) gapsG_reach
  refine ⟨g', tr, h, ?_, C80_nodes_twice (by decide) gapsG_reach h⟩
  rintro rfl
  have : (gapsG.compactNodes.map (·.1)) ≠ some gapsG := by decide +kernel
  rw [h] at this
  exact this rfl

example : ∃ g' tr, gapsG.compactPorts = some (g', tr) ∧ g' ≠ gapsG ∧ g'.compactPorts = some (g', [(0, 0), (1, 1), (2, 2), (3, 3), (4, 4)]) := by
  obtain ⟨g', tr, h, -⟩ := C16_compact_ports_partial (by decide) gapsG_reach
  refine ⟨g', tr, h, ?_, C80_ports_twice_partial (by decide) gapsG_reach gapsG_tidy h⟩
  rintro rfl
  have : (gapsG.compactPorts.map (·.1)) ≠ some gapsG := by decide +kernel
  rw [h] at this
  exact this rfl

/-- A node that lost its port, and a node that never had one. -/
def slackG : PG := (PG.run 32767 PG.empty [.addNode 1 0, .setNumPorts 0 0 0]).getD PG.empty

def bareG : PG := (PG.run 32767 PG.empty [.addNode 0 0]).getD PG.empty

/-- A slot that belongs to a node without ports survives the compactions: two graphs that no query tells apart are different
afterwards, and `remove_node` panics in one of them. -/
theorem C80_witness_slack : PG.Reach 32767 slackG ∧ PG.Reach 32767 bareG ∧ PG.OrderIso id id slackG bareG ∧
    ∃ c c', slackG.compacted = some c ∧ bareG.compacted = some c' ∧ c.removeNode 0 = none ∧ (c'.removeNode 0).isSome = true := by
  have h1 : PG.Reach 32767 slackG := checkedRun_reach .init (ops := [.addNode 1 0, .setNumPorts 0 0 0]) (by decide +kernel)
  refine ⟨h1, checkedRun_reach .init (ops := [.addNode 0 0]) (by decide +kernel), ?_, _, _, rfl, rfl, by decide +kernel, by decide +kernel⟩
  refine orderIso_of (h1.inv (by decide)) ?_ ?_ ?_ ?_ ?_ ?_ ?_ ?_ ?_ <;> decide +kernel

end Verif.PG

#print axioms Verif.PG.C80_normal_form_partial
#print axioms Verif.PG.C80_idempotent_partial
#print axioms Verif.PG.C80_nodes_twice
#print axioms Verif.PG.C80_ports_twice_partial
#print axioms Verif.PG.C80_witness_slack
