import Verif.Boundary.AccessModel
import Verif.Boundary.Props

/-!
# Properties of boundary ports (C59)

A boundary is two lists of ports. The boundary ports are the positions in the two lists; the
statements use only positions and the lists given to `new`.
-/

namespace Verif.View

open Verif (Direction)
open Verif.Algo (Acyclic)

variable {E : Type} {G : GView E}

/-- A direction and a position below the length of the list of that direction. -/
def BPort.Valid (b : BPort) (inputs outputs : List Nat) : Prop :=
  (b.direction = .incoming ∧ b.index < inputs.length) ∨ (b.direction = .outgoing ∧ b.index < outputs.length)

/-- The port of a boundary port. -/
def BPort.Names (b : BPort) (inputs outputs : List Nat) (p : Nat) : Prop :=
  (b.direction = .incoming ∧ inputs[b.index]? = some p) ∨ (b.direction = .outgoing ∧ outputs[b.index]? = some p)

/-- **C59** `port_index` panics exactly for positions outside the boundary and otherwise gives the
port at that position. -/
theorem C59_port_index (ins outs : List Nat) (b : BPort) :
    (((Boundary.new ins outs).portIndex b).isSome = true ↔ b.Valid ins outs) ∧
    ∀ p, (Boundary.new ins outs).portIndex b = some p ↔ b.Names ins outs p := by
  obtain ⟨i, d⟩ := b
  cases d <;> simp [Boundary.new, Boundary.portIndex, BPort.Valid, BPort.Names]

/-- **C59** `ports` gives the boundary ports of a direction, each once and in the order of the list;
their ports are the list. `port_indices` gives the ports of the inputs, then those of the outputs,
and `num_ports` counts them. -/
theorem C59_ports (ins outs : List Nat) :
    (∀ b, b ∈ (Boundary.new ins outs).portsIn b.direction ↔ b.Valid ins outs) ∧
    (∀ d, ∀ b ∈ (Boundary.new ins outs).portsIn d, b.direction = d) ∧
    (∀ d, ((Boundary.new ins outs).portsIn d).Pairwise fun a b => a.index < b.index) ∧
    (Boundary.new ins outs).inputPorts.map (Boundary.new ins outs).portIndex = ins.map some ∧
    (Boundary.new ins outs).outputPorts.map (Boundary.new ins outs).portIndex = outs.map some ∧
    (Boundary.new ins outs).ports = ins ++ outs ∧
    (Boundary.new ins outs).inputIndices = ins ∧ (Boundary.new ins outs).outputIndices = outs ∧
    (Boundary.new ins outs).numPorts =
      (Boundary.new ins outs).inputPorts.length + (Boundary.new ins outs).outputPorts.length := by
  refine ⟨?_, ?_, ?_, ?_, ?_, rfl, rfl, rfl, ?_⟩
  · rintro ⟨i, d⟩
    cases d <;> simp [Boundary.new, Boundary.portsIn, BPort.Valid]
  · rintro d b hb
    simp only [Boundary.portsIn, List.mem_map] at hb
    obtain ⟨i, -, rfl⟩ := hb; rfl
  · intro d
    unfold Boundary.portsIn
    rw [List.pairwise_map]
    exact List.pairwise_lt_range
  · apply List.ext_getElem?
    intro i
    simp only [Boundary.inputPorts, Boundary.portsIn, Boundary.new, List.map_map, List.getElem?_map]
    by_cases hi : i < ins.length
    · simp [hi, Boundary.portIndex]
    · rw [List.getElem?_eq_none (by simpa using hi), List.getElem?_eq_none (by omega)]; rfl
  · apply List.ext_getElem?
    intro i
    simp only [Boundary.outputPorts, Boundary.portsIn, Boundary.new, List.map_map, List.getElem?_map]
    by_cases hi : i < outs.length
    · simp [hi, Boundary.portIndex]
    · rw [List.getElem?_eq_none (by simpa using hi), List.getElem?_eq_none (by omega)]; rfl
  · simp [Boundary.numPorts, Boundary.inputPorts, Boundary.outputPorts, Boundary.portsIn, Boundary.new]

theorem findPort_iff (ports : List Nat) (p i : Nat) :
    findPort ports p = some i ↔ ports[i]? = some p ∧ ∀ j < i, ports[j]? ≠ some p := by
  unfold findPort
  rw [List.findIdx?_eq_some_iff_getElem]
  constructor
  · rintro ⟨h1, h2, h3⟩
    refine ⟨by rw [List.getElem?_eq_getElem h1]; simpa using h2, fun j hj hc => ?_⟩
    obtain ⟨h4, h5⟩ := List.getElem?_eq_some_iff.1 hc
    exact h3 j hj (by simpa using h5)
  · rintro ⟨h1, h2⟩
    obtain ⟨h3, h4⟩ := List.getElem?_eq_some_iff.1 h1
    refine ⟨h3, by simpa using h4, fun j hj hc => h2 j hj ?_⟩
    rw [List.getElem?_eq_getElem (by omega)]
    simpa using hc

theorem names_side {ins outs : List Nat} {b : BPort} {p : Nat} :
    b.Names ins outs p ↔ ((Boundary.new ins outs).side b.direction)[b.index]? = some p := by
  obtain ⟨i, d⟩ := b
  cases d <;> simp [BPort.Names, Boundary.new, Boundary.side]

/-- **C59** `find_port` panics exactly if the port is not in the list of the direction; otherwise it
gives the first boundary port of that direction which names the port. -/
theorem C59_find_port (ins outs : List Nat) (p : Nat) (d : Direction) :
    (((Boundary.new ins outs).find p d).isSome = true ↔
      (d = .incoming ∧ p ∈ ins) ∨ (d = .outgoing ∧ p ∈ outs)) ∧
    ∀ b, (Boundary.new ins outs).find p d = some b ↔
      b.direction = d ∧ b.Names ins outs p ∧ ∀ j < b.index, ¬ BPort.Names ⟨j, d⟩ ins outs p := by
  have h1 : ((Boundary.new ins outs).find p d).isSome = true ↔ p ∈ (Boundary.new ins outs).side d := by
    unfold Boundary.find
    cases h : findPort ((Boundary.new ins outs).side d) p with
    | none =>
      unfold findPort at h
      simp only [List.findIdx?_eq_none_iff, beq_eq_false_iff_ne] at h
      simp only [Option.isSome_none, Bool.false_eq_true, false_iff]
      exact fun hc => h _ hc rfl
    | some i =>
      simp only [Option.isSome_some, true_iff]
      exact List.mem_of_getElem? ((findPort_iff _ _ _).1 h).1
  refine ⟨h1.trans ?_, ?_⟩
  · cases d <;> simp [Boundary.new, Boundary.side]
  · rintro ⟨i, d'⟩
    simp only [names_side]
    unfold Boundary.find
    cases h : findPort ((Boundary.new ins outs).side d) p with
    | none =>
      simp only [reduceCtorEq, false_iff]
      rintro ⟨rfl, h2, h3⟩
      rw [(findPort_iff _ _ _).2 ⟨h2, h3⟩] at h; cases h
    | some k =>
      simp only [Option.some.injEq, BPort.mk.injEq]
      constructor
      · rintro ⟨rfl, rfl⟩
        exact ⟨rfl, (findPort_iff _ _ _).1 h⟩
      · rintro ⟨rfl, h2, h3⟩
        rw [(findPort_iff _ _ _).2 ⟨h2, h3⟩] at h
        exact ⟨(Option.some.inj h).symm, rfl⟩

/-- **C59** If no port occurs twice, `find_port` is the inverse of `port_index`. -/
theorem C59_find_port_inverse {ins outs : List Nat} (hi : ins.Nodup) (ho : outs.Nodup) (b : BPort) (p : Nat) :
    (Boundary.new ins outs).portIndex b = some p ↔ (Boundary.new ins outs).find p b.direction = some b := by
  rw [(C59_port_index ins outs b).2 p, (C59_find_port ins outs p b.direction).2 b]
  refine ⟨fun h => ⟨rfl, h, fun j hj hc => ?_⟩, fun h => h.2.1⟩
  rw [names_side] at h hc
  have hn : ((Boundary.new ins outs).side b.direction).Nodup := by
    cases b.direction
    · exact hi
    · exact ho
  obtain ⟨h1, h2⟩ := List.getElem?_eq_some_iff.1 h
  obtain ⟨h3, h4⟩ := List.getElem?_eq_some_iff.1 hc
  have := (List.Nodup.getElem_inj_iff hn).1 (h2.trans h4.symm)
  simp only at this; omega

/-- **C59** Two boundaries are compatible exactly if the boundary ports of the one are those of the
other. -/
theorem C59_compatible (ins outs ins' outs' : List Nat) :
    (Boundary.new ins outs).isCompatible (Boundary.new ins' outs') = true ↔
      ∀ b : BPort, b.Valid ins outs ↔ b.Valid ins' outs' := by
  simp only [Boundary.isCompatible, Boundary.new, Bool.and_eq_true, beq_iff_eq]
  constructor
  · rintro ⟨h1, h2⟩ b
    unfold BPort.Valid; rw [h1, h2]
  · intro h
    have key : ∀ a b : Nat, (∀ i, i < a ↔ i < b) → a = b := by
      intro a b h
      have h1 := h a
      have h2 := h b
      omega
    refine ⟨key _ _ fun i => ?_, key _ _ fun i => ?_⟩
    · simpa [BPort.Valid] using h ⟨i, .incoming⟩
    · simpa [BPort.Valid] using h ⟨i, .outgoing⟩

/-- **C59** The boundary made by `from_ports` of a list of ports of the graph has one boundary port
for each member of the list, with the direction of the port in the graph, and the order of the list
is kept among those of one direction. -/
theorem C59_from_ports {ports : List Nat} (hp : ∀ p ∈ ports, ∃ d, G.portDirection p = some d) :
    ∃ B, G.fromPorts ports = some B ∧ B.numPorts = ports.length ∧ B.ports.Perm ports ∧
      (∀ d, (B.portsIn d).map B.portIndex = (ports.filter fun p => decide (G.portDirection p = some d)).map some) ∧
      ∀ b p, B.portIndex b = some p → G.portDirection p = some b.direction := by
  obtain ⟨h1, h2⟩ := C35_from_ports (G := G) ports
  obtain ⟨B, hB⟩ := Option.isSome_iff_exists.1 (h1.2 hp)
  obtain ⟨a, b⟩ := h2 B hB
  have hperm : B.ports.Perm ports := by
    unfold Boundary.ports
    rw [a, b]
    have e : ports.filter (fun p => decide (G.portDirection p = some .outgoing)) =
        ports.filter (fun p => !decide (G.portDirection p = some .incoming)) := by
      apply List.filter_congr
      intro p hpm
      obtain ⟨d, hd⟩ := hp p hpm
      rw [hd]; cases d <;> simp
    rw [e]
    exact List.filter_append_perm _ _
  obtain ⟨-, -, -, g1, g2, -⟩ := C59_ports B.inputs B.outputs
  refine ⟨B, hB, ?_, hperm, ?_, ?_⟩
  · have := hperm.length_eq
    unfold Boundary.ports at this
    rw [List.length_append] at this; exact this
  · intro d
    cases d
    · rw [← a]; exact g1
    · rw [← b]; exact g2
  · rintro ⟨i, d⟩ p h
    cases d
    · have := List.mem_of_getElem? (show B.inputs[i]? = some p from h)
      rw [a] at this; simpa using (List.mem_filter.1 this).2
    · have := List.mem_of_getElem? (show B.outputs[i]? = some p from h)
      rw [b] at this; simpa using (List.mem_filter.1 this).2

/-! ## Orders -/

theorem mem_reachable {O : Ordering} {b c : BPort} {l : List BPort} (h : O.reachablePorts b = some l) :
    c ∈ l ↔ c.direction = .outgoing ∧ O.Has b.index c.index := by
  unfold Ordering.reachablePorts at h
  split at h
  · obtain ⟨s, h1, rfl⟩ := Option.map_eq_some_iff.1 h
    rw [List.mem_map]
    constructor
    · rintro ⟨o, h2, rfl⟩; exact ⟨rfl, s, h1, h2⟩
    · rintro ⟨h2, s', h3, h4⟩
      rw [h1] at h3; cases h3
      exact ⟨c.index, h4, by rw [← h2]⟩
  · cases h

theorem mem_reaching {O : Ordering} (hO : O.Consistent) {b c : BPort} {l : List BPort} (h : O.reachingPorts c = some l) :
    b ∈ l ↔ b.direction = .incoming ∧ O.Has b.index c.index := by
  unfold Ordering.reachingPorts at h
  split at h
  · obtain ⟨s, h1, rfl⟩ := Option.map_eq_some_iff.1 h
    rw [List.mem_map, hO]
    constructor
    · rintro ⟨o, h2, rfl⟩; exact ⟨rfl, s, h1, h2⟩
    · rintro ⟨h2, s', h3, h4⟩
      rw [h1] at h3; cases h3
      exact ⟨b.index, h4, by rw [← h2]⟩
  · cases h

/-- What the two queries of an order with `n` inputs and `m` outputs say if its pairs are those of
`R`. -/
structure Ordering.Shows (O : Ordering) (n m : Nat) (R : BPort → BPort → Prop) : Prop where
  reachable_some : ∀ b, (O.reachablePorts b).isSome = true ↔ b.direction = .incoming ∧ b.index < n
  reaching_some : ∀ b, (O.reachingPorts b).isSome = true ↔ b.direction = .outgoing ∧ b.index < m
  reachable : ∀ b l, O.reachablePorts b = some l → ∀ c, c ∈ l ↔ R b c
  reaching : ∀ c l, O.reachingPorts c = some l → ∀ b, b ∈ l ↔ R b c

theorem shows_of {O : Ordering} (hO : O.Consistent) {n m : Nat} (hn : O.reachable.length = n) (hm : O.reaching.length = m) :
    O.Shows n m fun b c => b.direction = .incoming ∧ c.direction = .outgoing ∧ O.Has b.index c.index := by
  subst hn hm
  refine ⟨?_, ?_, ?_, ?_⟩
  · intro b; unfold Ordering.reachablePorts; split <;> simp_all
  · intro b; unfold Ordering.reachingPorts; split <;> simp_all
  · intro b l h c
    rw [mem_reachable h]
    have : b.direction = .incoming := by
      by_contra hc; unfold Ordering.reachablePorts at h; rw [if_neg hc] at h; cases h
    simp [this]
  · intro c l h b
    rw [mem_reaching hO h]
    have : c.direction = .outgoing := by
      by_contra hc; unfold Ordering.reachingPorts at h; rw [if_neg hc] at h; cases h
    simp [this]

theorem addAll_ok : ∀ (l : List (BPort × BPort)) (O : Ordering), O.Consistent →
    ((O.addAll l).isSome = true ↔ ∀ x ∈ l, x.1.direction = .incoming ∧ x.1.index < O.reachable.length ∧
      x.2.direction = .outgoing ∧ x.2.index < O.reaching.length) ∧
    ∀ O', O.addAll l = some O' → O'.Compatible O ∧ O'.Consistent ∧
      ∀ i o, O'.Has i o ↔ O.Has i o ∨ (⟨i, .incoming⟩, ⟨o, .outgoing⟩) ∈ l
  | [], O, hO => by
    refine ⟨by simp [Ordering.addAll], fun O' h => ?_⟩
    cases h
    exact ⟨⟨rfl, rfl⟩, hO, by simp⟩
  | (x, y) :: l, O, hO => by
    unfold Ordering.addAll
    split
    · next hd =>
      by_cases hx : x.index < O.reachable.length ∧ y.index < O.reaching.length
      · obtain ⟨O1, h1, h2, h3, h4⟩ := addOrder_ok hx.1 hx.2
        rw [h1]
        obtain ⟨g1, g2⟩ := addAll_ok l O1 (h4 hO)
        rw [h2.1, h2.2] at g1
        refine ⟨?_, fun O' h => ?_⟩
        · rw [List.forall_mem_cons]
          show (O1.addAll l).isSome = true ↔ _
          rw [g1]
          exact ⟨fun h => ⟨⟨hd.1, hx.1, hd.2, hx.2⟩, h⟩, fun h => h.2⟩
        · obtain ⟨k1, k2, k3⟩ := g2 O' h
          refine ⟨⟨k1.1.trans h2.1, k1.2.trans h2.2⟩, k2, fun i o => ?_⟩
          rw [k3, h3, List.mem_cons, or_assoc]
          have : (i = x.index ∧ o = y.index) ↔ ((⟨i, .incoming⟩, ⟨o, .outgoing⟩) : BPort × BPort) = (x, y) := by
            obtain ⟨xi, xd⟩ := x
            obtain ⟨yi, yd⟩ := y
            obtain ⟨rfl, rfl⟩ : xd = .incoming ∧ yd = .outgoing := hd
            simp
          rw [this]
      · have h0 : O.addOrder x.index y.index = none := by
          unfold Ordering.addOrder
          split
          · next h1 h2 =>
            exact absurd ⟨(List.getElem?_eq_some_iff.1 h1).1, (List.getElem?_eq_some_iff.1 h2).1⟩ hx
          · rfl
        rw [h0]
        refine ⟨?_, fun O' h => by cases h⟩
        simp only [Option.isSome_none, Bool.false_eq_true, false_iff]
        intro h
        have := h (x, y) (List.mem_cons_self ..)
        exact hx ⟨this.2.1, this.2.2.2⟩
    · next hd =>
      refine ⟨?_, fun O' h => by cases h⟩
      simp only [Option.isSome_none, Bool.false_eq_true, false_iff]
      intro h
      have := h (x, y) (List.mem_cons_self ..)
      exact hd ⟨this.1, this.2.2.1⟩

theorem new_has {n m : Nat} : (∀ i o, ¬ (Ordering.new n m).Has i o) ∧ (Ordering.new n m).Consistent := by
  have h : ∀ i o, ¬ (Ordering.new n m).Has i o := by
    rintro i o ⟨l, h1, h2⟩
    have := (List.mem_replicate.1 (List.mem_of_getElem? h1)).2
    subst this; cases h2
  refine ⟨h, fun i o => ⟨fun hc => absurd hc (h i o), ?_⟩⟩
  rintro ⟨l, h1, h2⟩
  have := (List.mem_replicate.1 (List.mem_of_getElem? h1)).2
  subst this; cases h2

/-- **C59** After every sequence of `add_order` on a new order the queries `reachable_ports` and
`reaching_ports` show exactly the pairs added, from either end; the calls panic exactly if a
boundary port has the wrong direction or is out of range. -/
theorem C59_add_order (n m : Nat) (l : List (BPort × BPort)) :
    (((Ordering.new n m).addAll l).isSome = true ↔
      ∀ x ∈ l, x.1.direction = .incoming ∧ x.1.index < n ∧ x.2.direction = .outgoing ∧ x.2.index < m) ∧
    ∀ O, (Ordering.new n m).addAll l = some O → O.Shows n m fun b c => (b, c) ∈ l := by
  have hl : (Ordering.new n m).reachable.length = n ∧ (Ordering.new n m).reaching.length = m := by
    simp [Ordering.new]
  obtain ⟨h1, h2⟩ := addAll_ok l (Ordering.new n m) new_has.2
  rw [hl.1, hl.2] at h1
  refine ⟨h1, fun O hO => ?_⟩
  obtain ⟨g1, g2, g3⟩ := h2 O hO
  have hs := shows_of g2 (g1.1.trans hl.1) (g1.2.trans hl.2)
  have hdir := h1.1 (by rw [hO]; rfl)
  have e : (fun b c : BPort => b.direction = .incoming ∧ c.direction = .outgoing ∧ O.Has b.index c.index) =
      fun b c => (b, c) ∈ l := by
    funext b c
    apply propext
    rw [g3]
    constructor
    · rintro ⟨hb, hc, h⟩
      rcases h with h | h
      · exact absurd h (new_has.1 _ _)
      · rw [← hb, ← hc] at h; exact h
    · intro h
      obtain ⟨hb, -, hc, -⟩ := hdir _ h
      exact ⟨hb, hc, Or.inr (by rw [← hb, ← hc]; exact h)⟩
  rw [e] at hs; exact hs

/-- **C59** (the conditions are those of `C35_port_ordering_partial`) In the order computed by
`port_ordering` the output found for a port is in `reachable_ports` of the input found for another,
and this one in `reaching_ports` of the output, exactly when there is a path between the nodes. -/
theorem C59_ordering_queries (ok : G.Ok) (hs : G.SingleIn .outgoing) (hac : Acyclic G.Arc) {B : Boundary}
    (hB : ∀ p ∈ B.ports, G.containsPort p = true) (hfree : ∀ p ∈ B.ports, G.portLinks p = [])
    (hi : B.inputs.Nodup) (ho : B.outputs.Nodup) {p q : Nat} (hp : p ∈ B.inputs) (hq : q ∈ B.outputs) :
    ∃ O b c l r, G.portOrdering B = some O ∧ B.find p .incoming = some b ∧ B.find q .outgoing = some c ∧
      O.reachablePorts b = some l ∧ O.reachingPorts c = some r ∧ (c ∈ l ↔ G.Leads p q) ∧ (b ∈ r ↔ G.Leads p q) := by
  obtain ⟨O, h1, h2, h3, h4, h5⟩ := C35_port_ordering_partial ok hs hac hB hfree hi ho
  obtain ⟨b, hb⟩ := Option.isSome_iff_exists.1 ((C59_find_port B.inputs B.outputs p .incoming).1.2 (.inl ⟨rfl, hp⟩))
  obtain ⟨c, hc⟩ := Option.isSome_iff_exists.1 ((C59_find_port B.inputs B.outputs q .outgoing).1.2 (.inr ⟨rfl, hq⟩))
  obtain ⟨b1, b2, -⟩ := ((C59_find_port B.inputs B.outputs p .incoming).2 b).1 hb
  obtain ⟨c1, c2, -⟩ := ((C59_find_port B.inputs B.outputs q .outgoing).2 c).1 hc
  have hs' := shows_of h4 h2 h3
  have b3 : B.inputs[b.index]? = some p := by
    rw [names_side, b1] at b2; exact b2
  have c3 : B.outputs[c.index]? = some q := by
    rw [names_side, c1] at c2; exact c2
  obtain ⟨l, hl⟩ := Option.isSome_iff_exists.1 ((hs'.reachable_some b).2 ⟨b1, (List.getElem?_eq_some_iff.1 b3).1⟩)
  obtain ⟨r, hr⟩ := Option.isSome_iff_exists.1 ((hs'.reaching_some c).2 ⟨c1, (List.getElem?_eq_some_iff.1 c3).1⟩)
  have key : O.Has b.index c.index ↔ G.Leads p q := by
    rw [h5]
    constructor
    · rintro ⟨p', q', g1, g2, g3⟩
      rw [b3] at g1; rw [c3] at g2
      cases g1; cases g2; exact g3
    · intro h; exact ⟨p, q, b3, c3, h⟩
  refine ⟨O, b, c, l, r, h1, hb, hc, hl, hr, ?_, ?_⟩
  · rw [hs'.reachable b l hl]; simp [b1, c1, key]
  · rw [hs'.reaching c r hr]; simp [b1, c1, key]

/-! ## The hypotheses can be met -/

example : (Boundary.new [7, 2] [9]).find 2 .incoming = some ⟨1, .incoming⟩ ∧
    (Boundary.new [7, 2] [9]).find 2 .outgoing = none ∧
    (Boundary.new [7, 2] [9]).portIndex ⟨0, .outgoing⟩ = some 9 ∧
    (Boundary.new [7, 2] [9]).portIndex ⟨1, .outgoing⟩ = none ∧
    (Boundary.new [7, 2] [9]).portsIn .incoming = [⟨0, .incoming⟩, ⟨1, .incoming⟩] := by decide

example := C59_find_port_inverse (ins := [7, 2]) (outs := [9]) (by decide) (by decide) ⟨1, .incoming⟩ 2

/-- With a repeated port `find_port` gives the first position. -/
example : (Boundary.new [7, 2, 7] []).portIndex ⟨2, .incoming⟩ = some 7 ∧
    (Boundary.new [7, 2, 7] []).find 7 .incoming = some ⟨0, .incoming⟩ := by decide

example : (Boundary.new [7, 2] [9]).isCompatible (Boundary.new [1, 1] [3]) = true ∧
    (Boundary.new [7, 2] [9]).isCompatible (Boundary.new [1] [3, 4]) = false := by decide

example : (exV.fromPorts [9, 2, 7]).isSome = true := by decide +kernel

example : ((Ordering.new 2 2).addAll [(⟨0, .incoming⟩, ⟨1, .outgoing⟩), (⟨1, .incoming⟩, ⟨1, .outgoing⟩)]).map
    (fun O => (O.reachablePorts ⟨0, .incoming⟩, O.reachingPorts ⟨1, .outgoing⟩, O.reachingPorts ⟨0, .outgoing⟩)) =
    some (some [⟨1, .outgoing⟩], some [⟨0, .incoming⟩, ⟨1, .incoming⟩], some []) := by decide

example :=
  C59_ordering_queries (G := exV.subgraph [1, 2, 4]) (B := ⟨[2, 4, 10], [3, 5]⟩) (p := 4) (q := 5)
    (show (exV.subgraph [1, 2, 4]).Ok from (C36_with_nodes exV_ok.1 (order := [1, 2, 4]) (by decide +kernel)).2.2.1)
    (fun _ _ p _ => Nat.le_trans (List.length_filter_le _ _) (exV_ok.2.2.2.2 p))
    (fun n hc => exV_acyclic n (Relation.TransGen.mono (fun a b h => (subgraph_arc.1 h).1) _ _ hc))
    (by decide +kernel) (by decide +kernel) (by decide) (by decide) (by decide) (by decide)

example := C59_from_ports (G := exV) (ports := [9, 2, 7])
  (fun p hp => Option.isSome_iff_exists.1 ((by decide +kernel : ∀ p ∈ [9, 2, 7], (exV.portDirection p).isSome = true) p hp))

#print axioms C59_port_index
#print axioms C59_ports
#print axioms C59_find_port
#print axioms C59_find_port_inverse
#print axioms C59_compatible
#print axioms C59_from_ports
#print axioms C59_add_order
#print axioms C59_ordering_queries

end Verif.View
