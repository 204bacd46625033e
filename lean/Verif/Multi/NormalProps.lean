import Verif.Multi.BitsProps
import Verif.PortGraph.NormalProps

/-!
# C82: compaction gives a normal form of multigraphs
-/

namespace Verif.Multi

open Verif (Direction)
open Verif.PG Verif.Secondary

/-! ## Specification -/

/-- Two multigraphs in memory that differ only in gaps: the nodes (with the copy nodes) and the ports of the port graphs
inside correspond in the order of their numbers, and corresponding nodes and ports have the same flags. -/
structure BMG.OrderIso (ρ π : Nat → Nat) (a b : BMG) : Prop where
  graph : PG.OrderIso ρ π a.graph b.graph
  copy : ∀ n, a.graph.containsNode n = true → Bits.get b.copy (ρ n) = Bits.get a.copy n
  multi : ∀ p, a.graph.containsPort p = true → Bits.get b.multi (π p) = Bits.get a.multi p

/-- `compact_nodes` and then `compact_ports`. -/
def BMG.compacted (b : BMG) : Option BMG := b.compactNodes.bind fun x => x.1.compactPorts.map (·.1)

/-- `compact_ports` and then `compact_nodes`. -/
def BMG.compacted' (b : BMG) : Option BMG := b.compactPorts.bind fun x => x.1.compactNodes.map (·.1)

/-! ## Multigraphs that correspond -/

variable {m m' : MG}

/-- Port graphs and flags correspond. -/
structure MSim (R P : Nat → Nat → Prop) (m m' : MG) : Prop where
  sim : Sim R P m.graph m'.graph
  copy : ∀ n n', R n n' → m'.copy n' = m.copy n
  multi : ∀ p p', P p p' → m'.multi p' = m.multi p

theorem MSim.symm {R P : Nat → Nat → Prop} (h : MSim R P m m') : MSim (fun a b => R b a) (fun a b => P b a) m' m :=
  ⟨h.sim.symm, fun _ _ hr => (h.copy _ _ hr).symm, fun _ _ hr => (h.multi _ _ hr).symm⟩

theorem MSim.trans {R P R' P' : Nat → Nat → Prop} {m'' : MG} (h : MSim R P m m') (h' : MSim R' P' m' m'') :
    MSim (fun a c => ∃ b, R a b ∧ R' b c) (fun a c => ∃ b, P a b ∧ P' b c) m m'' :=
  ⟨h.sim.trans h'.sim, fun _ _ ⟨_, h1, h2⟩ => (h'.copy _ _ h2).trans (h.copy _ _ h1),
    fun _ _ ⟨_, h1, h2⟩ => (h'.multi _ _ h2).trans (h.multi _ _ h1)⟩

/-- Normal multigraphs that correspond are equal. -/
theorem mnormal_eq {R P : Nat → Nat → Prop} (hM : MOk m) (hM' : MOk m') (hN : Normal m.graph) (hN' : Normal m'.graph)
    (h : MSim R P m m') : m = m' := by
  have e1 := normal_eq hM.inv hM'.inv hN hN' h.sim
  obtain ⟨hR, -⟩ := dense_eq (R := R) (a := m.graph.nodeMeta.length) (b := m'.graph.nodeMeta.length)
    (fun x hx => h.sim.nl x (hN.nodes x hx)) (fun x hx => h.sim.nr x (hN'.nodes x hx))
    (fun x y hxy => ⟨PG.node?_lt (h.sim.nlive _ _ hxy).1, PG.node?_lt (h.sim.nlive _ _ hxy).2⟩)
    (fun x y x' y' => h.sim.nord x y x' y')
  obtain ⟨hP, -⟩ := dense_eq (R := P) (a := m.graph.portMeta.length) (b := m'.graph.portMeta.length)
    (fun x hx => h.sim.pl x (hN.ports x hx)) (fun x hx => h.sim.pr x (hN'.ports x hx))
    (fun x y hxy => ⟨PG.port?_lt (h.sim.plive _ _ hxy).1, PG.port?_lt (h.sim.plive _ _ hxy).2⟩)
    (fun x y x' y' => h.sim.pord x y x' y')
  have e2 : m.copy = m'.copy := by
    funext n
    by_cases hn : (m.graph.node? n).isSome
    · obtain ⟨n', h1⟩ := h.sim.nl n hn
      have := hR _ _ h1
      subst this
      exact (h.copy _ _ h1).symm
    · have k1 : m.copy n = false := by
        cases e : m.copy n with
        | false => rfl
        | true => exact absurd (containsNode_iff.1 (hM.copyLive n e)) hn
      have k2 : m'.copy n = false := by
        cases e : m'.copy n with
        | false => rfl
        | true => exact absurd (containsNode_iff.1 (by rw [e1]; exact hM'.copyLive n e)) hn
      rw [k1, k2]
  have e3 : m.multi = m'.multi := by
    funext p
    by_cases hn : (m.graph.port? p).isSome
    · obtain ⟨n', h1⟩ := h.sim.pl p hn
      have := hP _ _ h1
      subst this
      exact (h.multi _ _ h1).symm
    · have k1 : m.multi p = false := by
        cases e : m.multi p with
        | false => rfl
        | true => exact absurd ((live_at hM.inv).2 (hM.multi_live e)) hn
      have k2 : m'.multi p = false := by
        cases e : m'.multi p with
        | false => rfl
        | true => exact absurd ((live_at hM'.inv).2 (hM'.multi_live e)) (by rw [← e1]; exact hn)
      rw [k1, k2]
  have e4 : m.copyCount = m'.copyCount := hM.copies.unique (by rw [e2]; exact hM'.copies)
  have e5 : m.subCount = m'.subCount := by
    refine hM.subs.unique (hM'.subs.congr fun x => ?_)
    unfold SubPort
    rw [e1, e2, e3]
  cases m
  cases m'
  simp only at e1 e2 e3 e4 e5
  subst e1 e2 e3 e4 e5
  rfl

theorem MG.compactNodes_msim (h : MOk m) : ∃ m' tr, m.compactNodes = some (m', tr) ∧ MOk m' ∧
    m.graph.compactNodes = some (m'.graph, tr) ∧
    MSim (fun n n' => (m.graph.node? n).isSome ∧ m.graph.nodeRank n = n') (fun p p' => (m.graph.port? p).isSome ∧ p = p') m m' := by
  obtain ⟨m', tr, h1, h2, -⟩ := compactNodes_eff h
  obtain ⟨g', k1, -, M⟩ := compactNodes_flat h.inv
  have hlive : ∀ x, m.graph.live x = true ↔ m.graph.containsNode x = true := fun x => by
    rw [live_iff, containsNode_iff]
  have hlt : ∀ x, m.graph.live x = true → x < m.graph.nodeMeta.length := fun x hx => PG.node?_lt (live_iff.1 hx)
  obtain ⟨a1, -⟩ := swaps_rank (P := m.graph.live) (r := m.graph.nodeRank) (N := m.graph.nodeMeta.length) (f := m.copy)
    (fun x => cnt_le _ _) (fun x y hx hy hc => M.node_inj x y ((hlive x).1 hx) ((hlive y).1 hy) hc)
    (fun x hx => ⟨(hlive x).2 (h.copyLive x hx), hlt x ((hlive x).2 (h.copyLive x hx))⟩) hlt
  refine ⟨m', tr, h1, h2, ?_⟩
  unfold MG.compactNodes at h1
  rw [k1] at h1
  simp only [Option.map_some, Option.some.injEq, Prod.mk.injEq] at h1
  obtain ⟨rfl, rfl⟩ := h1
  refine ⟨k1, (compactNodes_sim h.inv k1).2, ?_, ?_⟩
  · rintro n n' ⟨hn, rfl⟩
    exact a1 n (live_iff.2 hn)
  · rintro p p' ⟨-, rfl⟩
    rfl

theorem MG.compactPorts_msim (h : MOk m) (ht : m.graph.Tidy) : ∃ m' tr, m.compactPorts = some (m', tr) ∧ MOk m' ∧
    m.graph.compactPorts = some (m'.graph, tr) ∧
    MSim (fun n n' => (m.graph.node? n).isSome ∧ n = n') (fun p p' => (m.graph.port? p).isSome ∧ rank m.graph.port? p = p') m m' := by
  obtain ⟨m', tr, h1, h2, -⟩ := compactPorts_eff h ht
  obtain ⟨g', k1, -, M⟩ := compactPorts_flat h.inv ht
  have hlt : ∀ x, (m.graph.port? x).isSome = true → x < m.graph.portMeta.length := fun x hx => PG.port?_lt hx
  obtain ⟨a1, -⟩ := swaps_rank (P := fun p => (m.graph.port? p).isSome) (r := rank m.graph.port?)
    (N := m.graph.portMeta.length) (f := m.multi)
    (fun x => rank_le _ _) (fun x y hx hy hc => rank_inj hx hy hc)
    (fun x hx => by
      have := (live_at h.inv).2 (h.multi_live hx)
      exact ⟨this, hlt x this⟩) hlt
  refine ⟨m', tr, h1, h2, ?_⟩
  unfold MG.compactPorts at h1
  rw [k1] at h1
  simp only [Option.map_some, Option.some.injEq, Prod.mk.injEq] at h1
  obtain ⟨rfl, rfl⟩ := h1
  refine ⟨k1, (compactPorts_sim h.inv ht k1).2, ?_, ?_⟩
  · rintro p p' ⟨-, rfl⟩
    rfl
  · rintro n n' ⟨hn, rfl⟩
    exact a1 n hn

/-- `compact_nodes` and then `compact_ports`, with flags. -/
def MG.compacted (m : MG) : Option MG := m.compactNodes.bind fun x => x.1.compactPorts.map (·.1)

/-- `compact_ports` and then `compact_nodes`, with flags. -/
def MG.compacted' (m : MG) : Option MG := m.compactPorts.bind fun x => x.1.compactNodes.map (·.1)

theorem MG.compacted_ok (h : MOk m) (ht : m.graph.Tidy) :
    ∃ c R P, m.compacted = some c ∧ m.graph.compacted = some c.graph ∧ MOk c ∧ Normal c.graph ∧ MSim R P m c := by
  obtain ⟨m1, tr1, a1, a2, a3, a4⟩ := MG.compactNodes_msim h
  obtain ⟨g2, _, _, b1, -, b2, -⟩ := Verif.PG.compacted_ok h.inv ht
  have ht1 : m1.graph.Tidy := by
    obtain ⟨g1, h1, -, h3, -⟩ := compactNodes_ok h.inv
    rw [a3] at h1
    simp only [Option.some.injEq, Prod.mk.injEq] at h1
    rw [tidy_iff] at ht ⊢
    intro n k hk
    obtain ⟨n0, -, hk0⟩ := (h3 n k).1 (by rw [← h1.1]; exact hk)
    exact ht n0 k hk0
  obtain ⟨m2, tr2, c1, c2, c3, c4⟩ := MG.compactPorts_msim a2 ht1
  have e : m.graph.compacted = some m2.graph := by
    unfold PG.compacted
    rw [a3, Option.bind_some, c3]
    rfl
  have e' := e
  rw [b1] at e'
  refine ⟨m2, _, _, ?_, e, c2, by rw [← Option.some.inj e']; exact b2, a4.trans c4⟩
  unfold MG.compacted
  rw [a1, Option.bind_some, c1]
  rfl

theorem MG.compacted'_ok (h : MOk m) (ht : m.graph.Tidy) :
    ∃ c R P, m.compacted' = some c ∧ MOk c ∧ Normal c.graph ∧ MSim R P m c := by
  obtain ⟨m1, tr1, a1, a2, a3, a4⟩ := MG.compactPorts_msim h ht
  obtain ⟨g2, _, _, b1, -, b2, -⟩ := Verif.PG.compacted'_ok h.inv ht
  obtain ⟨m2, tr2, c1, c2, c3, c4⟩ := MG.compactNodes_msim a2
  have e : m.graph.compacted' = some m2.graph := by
    unfold PG.compacted'
    rw [a3, Option.bind_some, c3]
    rfl
  rw [b1] at e
  refine ⟨m2, _, _, ?_, c2, by rw [← Option.some.inj e]; exact b2, a4.trans c4⟩
  unfold MG.compacted'
  rw [a1, Option.bind_some, c1]
  rfl

theorem BMG.flags_compacted (b : BMG) : b.compacted.map BMG.flags = b.flags.compacted := by
  unfold BMG.compacted MG.compacted
  rw [← BMG.flags_compactNodes]
  cases b.compactNodes with
  | none => rfl
  | some x =>
    simp only [Option.bind_some, Option.map_some]
    rw [← BMG.flags_compactPorts]
    simp [Option.map_map, Function.comp_def]

theorem BMG.flags_compacted' (b : BMG) : b.compacted'.map BMG.flags = b.flags.compacted' := by
  unfold BMG.compacted' MG.compacted'
  rw [← BMG.flags_compactPorts]
  cases b.compactPorts with
  | none => rfl
  | some x =>
    simp only [Option.bind_some, Option.map_some]
    rw [← BMG.flags_compactNodes]
    simp [Option.map_map, Function.comp_def]

/-! ## C82 -/

/-- **C82** Multigraphs made by any histories of calls that hold the same nodes, copy nodes, ports and links in the same order
have after both compactions, in either order, equal port graphs, counters and flags. Missing: graphs with slots that belong to
nodes without ports, where it is false (`C80_witness_slack`), and the lengths of the bit vectors
(`C82_witness_lengths`). -/
theorem C82_normal_form_partial {maxOff maxOff' : Nat} (h2 : 2 ≤ maxOff) (hmax : maxOff ≤ 32767) (h2' : 2 ≤ maxOff')
    (hmax' : maxOff' ≤ 32767) {a b : BMG} (ha : BReach maxOff a) (hb : BReach maxOff' b) (hta : a.graph.Tidy) (htb : b.graph.Tidy)
    {ρ π : Nat → Nat} (h : BMG.OrderIso ρ π a b) :
    ∃ a1 a2 b1 b2, a.compacted = some a1 ∧ a.compacted' = some a2 ∧ b.compacted = some b1 ∧ b.compacted' = some b2 ∧
      ∀ x ∈ [a2, b1, b2], x.graph = a1.graph ∧ x.copyCount = a1.copyCount ∧ x.subCount = a1.subCount ∧
        (∀ n, Bits.get x.copy n = Bits.get a1.copy n) ∧ (∀ p, Bits.get x.multi p = Bits.get a1.multi p) := by
  have hA := ha.flags.ok h2 hmax
  have hB := hb.flags.ok h2' hmax'
  have hS : MSim _ _ a.flags b.flags := ⟨OrderIso.sim hA.inv hB.inv h.graph,
    fun n n' hn => by rw [← hn.2]; exact h.copy n (containsNode_iff.2 hn.1),
    fun p p' hp => by rw [← hp.2]; exact h.multi p (containsPort_iff.2 hp.1)⟩
  obtain ⟨c1, _, _, p1, -, q1, n1, s1⟩ := MG.compacted_ok hA hta
  obtain ⟨c2, _, _, p2, q2, n2, s2⟩ := MG.compacted'_ok hA hta
  obtain ⟨c3, _, _, p3, -, q3, n3, s3⟩ := MG.compacted_ok hB htb
  obtain ⟨c4, _, _, p4, q4, n4, s4⟩ := MG.compacted'_ok hB htb
  have e2 := mnormal_eq q1 q2 n1 n2 (s1.symm.trans s2)
  have e3 := mnormal_eq q1 q3 n1 n3 (s1.symm.trans (hS.trans s3))
  have e4 := mnormal_eq q1 q4 n1 n4 (s1.symm.trans (hS.trans s4))
  rw [← e2, ← BMG.flags_compacted'] at p2
  rw [← e3, ← BMG.flags_compacted] at p3
  rw [← e4, ← BMG.flags_compacted'] at p4
  rw [← BMG.flags_compacted] at p1
  obtain ⟨a1, r1, t1⟩ := Option.map_eq_some_iff.1 p1
  obtain ⟨a2, r2, t2⟩ := Option.map_eq_some_iff.1 p2
  obtain ⟨b1, r3, t3⟩ := Option.map_eq_some_iff.1 p3
  obtain ⟨b2, r4, t4⟩ := Option.map_eq_some_iff.1 p4
  refine ⟨a1, a2, b1, b2, r1, r2, r3, r4, ?_⟩
  have key : ∀ x : BMG, x.flags = c1 → x.graph = a1.graph ∧ x.copyCount = a1.copyCount ∧ x.subCount = a1.subCount ∧
        (∀ n, Bits.get x.copy n = Bits.get a1.copy n) ∧ (∀ p, Bits.get x.multi p = Bits.get a1.multi p) := by
    intro x hx
    rw [← t1] at hx
    simp only [BMG.flags, MG.mk.injEq] at hx
    exact ⟨hx.1, hx.2.2.2.1, hx.2.2.2.2, fun n => congrFun hx.2.2.1 n, fun n => congrFun hx.2.1 n⟩
  intro x hx
  simp only [List.mem_cons, List.not_mem_nil, or_false] at hx
  rcases hx with rfl | rfl | rfl
  · exact key _ t2
  · exact key _ t3
  · exact key _ t4

/-- **C82** They behave alike from then on. -/
theorem C82_same_future_partial {maxOff maxOff' : Nat} (h2 : 2 ≤ maxOff) (hmax : maxOff ≤ 32767) (h2' : 2 ≤ maxOff')
    (hmax' : maxOff' ≤ 32767) {a b : BMG} (ha : BReach maxOff a) (hb : BReach maxOff' b) (hta : a.graph.Tidy) (htb : b.graph.Tidy)
    {ρ π : Nat → Nat} (h : BMG.OrderIso ρ π a b) :
    ∃ a1 b1, a.compacted = some a1 ∧ b.compacted = some b1 ∧
      ∀ M ops, (a1.run M ops).map (·.1) = (b1.run M ops).map (·.1) := by
  obtain ⟨a1, a2, b1, b2, r1, -, r3, -, hk⟩ := C82_normal_form_partial h2 hmax h2' hmax' ha hb hta htb h
  obtain ⟨k1, k2, k3, k4, k5⟩ := hk b1 (by simp)
  refine ⟨a1, b1, r1, r3, fun M ops => C81_same_future ?_ M ops⟩
  simp only [BMG.flags, MG.mk.injEq]
  exact ⟨k1.symm, (funext k5).symm, (funext k4).symm, k2.symm, k3.symm⟩

theorem swap_ids (l : List Bool) (k : Nat) :
    ((List.range k).map fun n => (n, n)).foldl (fun f (y : Nat × Nat) => Bits.swap f y.1 y.2) l = l := by
  rw [List.foldl_map]
  induction List.range k with
  | nil => rfl
  | cons x xs ih =>
    have : Bits.swap l x x = l := by simp [Bits.swap]
    simp only [List.foldl_cons, this, ih]

/-- **C82** A second `compact_nodes` changes nothing, not even the bit vectors, and reports every node with its own number. -/
theorem C82_nodes_twice {maxOff : Nat} (h2 : 2 ≤ maxOff) (hmax : maxOff ≤ 32767) {b b' : BMG} (hb : BReach maxOff b) {tr}
    (h : b.compactNodes = some (b', tr)) :
    b'.compactNodes = some (b', (List.range b.graph.nodeCount).map fun n => (n, n)) := by
  unfold BMG.compactNodes at h
  obtain ⟨⟨g', tr'⟩, h1, h3⟩ := Option.map_eq_some_iff.1 h
  have hR : PG.Reach maxOff b.graph := hb.flags.flat h2 hmax
  have h4 := C80_nodes_twice hmax hR h1
  simp only [Prod.mk.injEq] at h3
  obtain ⟨rfl, rfl⟩ := h3
  unfold BMG.compactNodes
  simp only [h4, Option.map_some, swap_ids]

/-- **C82** A second `compact_ports` changes nothing. Missing: slots of nodes without ports, as for C80. -/
theorem C82_ports_twice_partial {maxOff : Nat} (h2 : 2 ≤ maxOff) (hmax : maxOff ≤ 32767) {b b' : BMG} (hb : BReach maxOff b)
    (ht : b.graph.Tidy) {tr} (h : b.compactPorts = some (b', tr)) :
    b'.compactPorts = some (b', (List.range b.graph.portCount).map fun n => (n, n)) := by
  unfold BMG.compactPorts at h
  obtain ⟨⟨g', tr'⟩, h1, h3⟩ := Option.map_eq_some_iff.1 h
  have hR : PG.Reach maxOff b.graph := hb.flags.flat h2 hmax
  have h4 := C80_ports_twice_partial hmax hR ht h1
  simp only [Prod.mk.injEq] at h3
  obtain ⟨rfl, rfl⟩ := h3
  unfold BMG.compactPorts
  simp only [h4, Option.map_some, swap_ids]

/-! ## Examples -/

/-- A node with two ports was removed before two nodes that two links join. -/
def gapsM : BMG := builtB [.addNode 1 1, .addNode 0 1, .addNode 1 0, .linkPorts 2 3, .linkPorts 2 3, .removeNode 0]

/-- Two nodes that two links join. -/
def plainM : BMG := builtB [.addNode 0 1, .addNode 1 0, .linkPorts 0 1, .linkPorts 0 1]

theorem orderIso_flags {ρ π : Nat → Nat} {a b : BMG} (h : PG.OrderIso ρ π a.graph b.graph)
    (h1 : ∀ n < a.graph.nodeMeta.length, a.graph.containsNode n = true → Bits.get b.copy (ρ n) = Bits.get a.copy n)
    (h2 : ∀ p < a.graph.portMeta.length, a.graph.containsPort p = true → Bits.get b.multi (π p) = Bits.get a.multi p) :
    BMG.OrderIso ρ π a b :=
  ⟨h, fun n hn => h1 n (node_bound hn) hn, fun p hp => h2 p (port_bound hp) hp⟩

theorem gapsM_iso : BMG.OrderIso (fun n => n - 1) (fun p => p - 2) gapsM plainM := by
  refine orderIso_flags (orderIso_of (((builtB_reach _ : BReach 32767 gapsM).flags.ok (by decide) (by decide)).inv)
    ?_ ?_ ?_ ?_ ?_ ?_ ?_ ?_ ?_) ?_ ?_ <;> decide +kernel

theorem tidy_of {g : PG} (h : ∀ n < g.nodeMeta.length, (g.node? n).all (fun m => m.incoming + m.outgoing ≠ 0) = true) : g.Tidy := by
  rw [tidy_iff]
  intro n m hm h0
  have := h n (PG.node?_lt (by rw [hm]; rfl))
  rw [hm] at this
  simp at this
  omega

theorem gapsM_tidy : gapsM.graph.Tidy := tidy_of (by decide +kernel)

theorem plainM_tidy : plainM.graph.Tidy := tidy_of (by decide +kernel)

example := C82_normal_form_partial (by decide) (by decide) (by decide) (by decide) (builtB_reach _ : BReach 32767 gapsM)
  (builtB_reach _ : BReach 32767 plainM) gapsM_tidy plainM_tidy gapsM_iso

example := C82_same_future_partial (by decide) (by decide) (by decide) (by decide) (builtB_reach _ : BReach 32767 gapsM)
  (builtB_reach _ : BReach 32767 plainM) gapsM_tidy plainM_tidy gapsM_iso

example : plainM.copyCount = 2 ∧ gapsM.graph ≠ plainM.graph ∧ gapsM.copy ≠ plainM.copy ∧ gapsM.multi ≠ plainM.multi ∧
    gapsM.compacted.map (·.graph) = plainM.compacted.map (·.graph) := by decide +kernel

example : gapsM.compactNodes.map (fun x => (x.1.copy.take 4, x.1.graph == gapsM.graph, x.2)) =
      some ([false, false, true, true], false, [(1, 0), (2, 1), (3, 2), (4, 3)]) ∧
    (gapsM.compactNodes.bind fun x => x.1.compactNodes).map (·.2) = some [(0, 0), (1, 1), (2, 2), (3, 3)] := by decide +kernel

example : (gapsM.compactPorts.map fun x => x.1.graph == gapsM.graph) = some false ∧
    (gapsM.compactPorts.bind fun x => x.1.compactPorts).map (·.2.length) = some gapsM.graph.portCount := by decide +kernel

/-- The lengths of the bit vectors depend on the history also after compaction, and so the results are not equal. -/
theorem C82_witness_lengths : BMG.OrderIso (fun n => n - 1) (fun p => p - 2) gapsM plainM ∧
    ∃ c c', gapsM.compacted = some c ∧ plainM.compacted = some c' ∧ c.beq c' = false :=
  ⟨gapsM_iso, _, _, rfl, rfl, by decide +kernel⟩

/-- The shown graph alone does not determine the result: with the same nodes, ports and links shown in the same order, a node
that was made after the copy nodes has another number after compaction. -/
theorem C82_witness_copy_order : ∃ a b : BMG, BReach 32767 a ∧ BReach 32767 b ∧ a.flags.nodes = [0, 1, 2] ∧ b.flags.nodes = [0, 1, 4] ∧
    a.compacted.map (·.flags.nodes) = some [0, 1, 2] ∧ b.compacted.map (·.flags.nodes) = some [0, 1, 4] :=
  ⟨_, _, builtB_reach [.addNode 0 1, .addNode 1 0, .addNode 0 0, .linkPorts 0 1, .linkPorts 0 1],
    builtB_reach [.addNode 0 1, .addNode 1 0, .linkPorts 0 1, .linkPorts 0 1, .addNode 0 0],
    by decide +kernel, by decide +kernel, by decide +kernel, by decide +kernel⟩

example : ∃ b' tr, gapsM.compactNodes = some (b', tr) ∧
    b'.compactNodes = some (b', (List.range gapsM.graph.nodeCount).map fun n => (n, n)) := by
  have hs : gapsM.compactNodes.isSome = true := by decide +kernel
  obtain ⟨⟨b', tr⟩, h⟩ := Option.isSome_iff_exists.1 hs
  exact ⟨b', tr, h, C82_nodes_twice (by decide) (by decide) (builtB_reach _ : BReach 32767 gapsM) h⟩

end Verif.Multi

#print axioms Verif.Multi.C82_normal_form_partial
#print axioms Verif.Multi.C82_same_future_partial
#print axioms Verif.Multi.C82_nodes_twice
#print axioms Verif.Multi.C82_ports_twice_partial
#print axioms Verif.Multi.C82_witness_lengths
#print axioms Verif.Multi.C82_witness_copy_order
