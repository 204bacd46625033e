import Verif.Undo.Exact

/-!
# C66 and C67 for port graphs
-/

namespace Verif.Undo

open Verif.PG Verif.Equality

/-! ## C66 undoing calls -/

/-- **C66** Linking the two ports again after `unlink_port` restores the state exactly, in either
order of the ports. (`C11_unlink_after_link` says that `unlink_port` undoes `link_ports`.) -/
theorem C66_unlink_link {maxOff : Nat} (hmax : maxOff ≤ 32767) {g g1 : PG} (hg : PG.Reach maxOff g) {p q : Nat}
    (h : g.unlinkPort p = some (some q, g1)) :
    g1.linkPorts p q = some (.ok (p, q), g) ∧ g1.linkPorts q p = some (.ok (q, p), g) :=
  unlink_link (hg.inv hmax) h

example : ∃ g1, exG.unlinkPort 6 = some (some 0, g1) ∧ g1.linkPorts 6 0 = some (.ok (6, 0), exG) ∧ g1 ≠ exG :=
  ⟨((exG.unlinkPort 6).getD (none, exG)).2, rfl, rfl, by decide +kernel⟩

/-- **C66** States that differ only in the lengths of the vector of free lists have the same future:
any sequence of calls panics on both or gives the same answers on both. -/
theorem C66_same_future {maxOff : Nat} {g h : PG} (hs : SameButFree g h) (ops : List PG.Op) :
    (askAll maxOff g ops = none ∧ askAll maxOff h ops = none) ∨
    ∃ as g' h', askAll maxOff g ops = some (as, g') ∧ askAll maxOff h ops = some (as, h') ∧ SameButFree g' h' :=
  askAll_free hs maxOff ops

/-- **C66** They also give the same answers to queries. -/
theorem C66_same_shape {g h : PG} (hs : SameButFree g h) : SameShape g h ∧ g.abs = h.abs ∧ g.nodeCount = h.nodeCount ∧
    g.portCount = h.portCount ∧ g.linkCount = h.linkCount ∧ (∀ n, g.nodePortCapacity n = h.nodePortCapacity n) ∧ g.endpoint = h.endpoint := by
  obtain ⟨pf, rfl, -⟩ := sameBut_iff.1 hs
  exact ⟨⟨fun _ => rfl, fun _ _ _ => rfl, fun _ => rfl⟩, rfl, rfl, rfl, rfl, fun _ => rfl, rfl⟩

/-- The two graphs of `C62_witness_history`, which `==` tells apart, have the same future. -/
theorem again_same : SameButFree again once := by
  refine ⟨by decide +kernel, fun s => ?_⟩
  have h1 : again.portFree = [none, none] := by decide +kernel
  have h2 : once.portFree = [] := by decide +kernel
  rw [h1, h2]
  rcases s with _ | _ | s <;> rfl

example : eqGraph again once = false := by decide +kernel
example := C66_same_shape again_same
example := C66_same_future (maxOff := 32767) again_same [.addNode 1 1, .removeNode 0, .addNode 2 1]

/-- **C66** A node without links whose slots are all in use, removed and added again with the same
numbers of ports, gets the same index; afterwards nothing but the length of the vector of free lists
can differ. -/
theorem C66_remove_add {maxOff : Nat} (hmax : maxOff ≤ 32767) {g : PG} (hg : PG.Reach maxOff g) {n : Nat} (hn : g.containsNode n = true)
    (hcap : g.nodePortCapacity n = g.numPorts n .incoming + g.numPorts n .outgoing)
    (hi : g.numPorts n .incoming ≤ maxOff) (ho : g.numPorts n .outgoing ≤ maxOff)
    (hfree : ∀ d k p, g.portIndex n d k = some p → g.portLink? p = some none) :
    ∃ g1 g2, g.removeNode n = some g1 ∧ g1.addNode maxOff (g.numPorts n .incoming) (g.numPorts n .outgoing) = some (n, g2) ∧
      SameButFree g2 g := by
  have hI := hg.inv hmax
  obtain ⟨m, hm⟩ := Option.isSome_iff_exists.1 (containsNode_iff.1 hn)
  obtain ⟨own, fs, hP, hfull⟩ := hI.slots
  rw [numPorts_eq hm, numPorts_eq hm] at *
  have hcm : g.nodePortCapacity n = m.capacity := by simp [PG.nodePortCapacity, hm]
  rw [hcm] at hcap
  simp only [NodeMeta.numPorts] at *
  refine remove_add hI hm hcap hi ho fun p h1 h2 => ?_
  obtain ⟨d, hp⟩ := hP.pt_used hm h1 (by omega)
  obtain ⟨m', hm', h3, h4⟩ := (hP.ports p n d).1 hp
  rw [hm] at hm'
  cases hm'
  have hat : At g p (n, d, p - m.start d) := ⟨m, hm, by simp only; omega, by simp only; omega⟩
  have := hfree d _ p (at_index.2 hat)
  rw [portLink?_eq hI (by rw [hp]; rfl)] at this
  exact Option.some.inj this

example : ∃ g1 g2, exG.removeNode 3 = some g1 ∧ g1.addNode 32767 1 1 = some (3, g2) ∧ exG.nodePortCapacity 3 = 2 ∧
    (g2.portIndex 3 .outgoing 0) = some 9 :=
  ⟨(exG.removeNode 3).getD exG, (((exG.removeNode 3).getD exG).addNode 32767 1 1 |>.getD (0, exG)).2, rfl, rfl, rfl, rfl⟩

/-- **C66** `remove_node` undoes `add_node`: nodes, ports and links are the same as before, and the
next such `add_node` call gives the same node with the same ports again. -/
theorem C66_add_remove {maxOff : Nat} (hmax : maxOff ≤ 32767) {g g1 : PG} (hg : PG.Reach maxOff g) {i o n : Nat}
    (hi : i ≤ maxOff) (ho : o ≤ maxOff) (h : g.addNode maxOff i o = some (n, g1)) :
    ∃ g2 g3, g1.removeNode n = some g2 ∧ SameShape g2 g ∧ g2.abs = g.abs ∧ g2.nodeCount = g.nodeCount ∧ g2.portCount = g.portCount ∧
      g2.linkCount = g.linkCount ∧ g2.addNode maxOff i o = some (n, g3) ∧ SameButFree g3 g1 := by
  have hI := hg.inv hmax
  have hg1 : PG.Reach maxOff g1 := .step (op := .addNode i o) hg ⟨hi, ho⟩ (by simp [PG.step, h])
  have hI1 := hg1.inv hmax
  obtain ⟨n', f, g1', a1, -, a3, a4, a5, a6, a7, a8, a9, a10, -⟩ := addNode_ok hI hi ho (by omega) (by omega)
  rw [h] at a1
  simp only [Option.some.injEq, Prod.mk.injEq] at a1
  obtain ⟨rfl, rfl⟩ := a1
  have hm : g1.node? n = some ⟨f, i, o, i + o⟩ := by rw [a4]; simp [upd]
  have hn1 : g1.containsNode n = true := by rw [containsNode_iff, hm]; rfl
  have hlk1 : ∀ p, f ≤ p → p < f + (i + o) → g1.lk p = none := by
    intro p h1 h2
    rw [a6]
    simp only
    rw [if_pos (by rw [inRange_iff]; omega)]
  obtain ⟨g2, g3, b1, b2, b3⟩ := remove_add (maxOff := maxOff) hI1 hm rfl hi ho hlk1
  obtain ⟨g2', c1, hI2, c3, c4, c5, c6, c7, -⟩ := removeNode_ok hI1 hm
  rw [b1] at c1
  simp only [Option.some.injEq] at c1
  subst c1
  have hnode : g2.node? = g.node? := by
    rw [c3, a4]
    funext x
    simp only [upd]
    split
    · rename_i hx; rw [hx, a3]
    · rfl
  have hport : g2.port? = g.port? := by
    rw [c4, a5]
    funext p
    simp only
    split
    · rename_i hx
      rw [inRange_iff] at hx
      exact (a7 p hx.1 hx.2).symm
    · rename_i hx
      rw [claim_not]
      intro d
      cases e : (⟨f, i, o, i + o⟩ : NodeMeta).has d p with
      | false => rfl
      | true =>
        exfalso
        apply hx
        rw [inRange_iff]
        have e' : inRange ((⟨f, i, o, i + o⟩ : NodeMeta).start d) ((⟨f, i, o, i + o⟩ : NodeMeta).numPorts d) p = true := e
        rw [inRange_iff] at e'
        cases d <;> simp only [NodeMeta.start, NodeMeta.numPorts] at e' ⊢ <;> omega
  obtain ⟨own, fs, hP, hfull⟩ := hI.slots
  have hlk : ∀ p, (g.port? p).isSome → g2.lk p = g.lk p := by
    intro p hp
    have hnin : ∀ p, (g.port? p).isSome → inRange f (i + o) p = false := by
      intro p hp
      rw [inRange_eq_false]
      intro hx
      rw [a7 p hx.1 hx.2] at hp
      cases hp
    rw [c5 p (by rw [hport]; exact hp)]
    have hl1 : g1.lk p = g.lk p := by rw [a6]; simp only [hnin p hp]; rfl
    simp only [cut, hl1]
    obtain ⟨⟨x, d⟩, hx⟩ := Option.isSome_iff_exists.1 hp
    cases hl : g.lk p with
    | none => simp [hnin p hp]
    | some q =>
      obtain ⟨-, n', hq⟩ := hP.links p x d q hx hl
      simp [hnin p hp, hnin q (by rw [hq]; rfl)]
  have hshape : SameShape g2 g := by
    refine ⟨fun x => ?_, fun x d k => ?_, fun p => ?_⟩
    · simp only [PG.containsNode, hnode]
    · simp only [PG.portIndex, hnode]
    · cases hp : g.port? p with
      | none => simp only [PG.portLink?, hport, hp]
      | some x =>
        rw [portLink?_eq hI (by rw [hp]; rfl), portLink?_eq hI2 (by rw [hport, hp]; rfl), hlk p (by rw [hp]; rfl)]
  have habs : g2.abs = g.abs := by
    have hend : g2.endpoint = g.endpoint := by
      funext p
      simp only [PG.endpoint, PG.portNode, PG.portOffset, hport, hnode]
    unfold PG.abs
    simp only [hend, hshape.port, hshape.link, hshape.node, PG.numPorts, hnode]
  have hlc : g2.linkCount = g.linkCount := by
    have hlt : ∀ g : PG, ∀ d p, g.portMeta.length ≤ p → linkedDir g.port? g.lk d p = false := by
      intro g d p hp
      unfold linkedDir PG.port?
      rw [List.getElem?_eq_none hp]
    have hsame : ∀ p, linkedDir g2.port? g2.lk .outgoing p = linkedDir g.port? g.lk .outgoing p := by
      intro p
      unfold linkedDir
      rw [hport]
      cases e : g.port? p with
      | none => rfl
      | some x => simp only [hlk p (by rw [e]; rfl)]
    rw [hI2.outCount, hI.outCount, show linkedDir g2.port? g2.lk .outgoing = linkedDir g.port? g.lk .outgoing from funext hsame]
    have hpad : ∀ (P : Nat → Bool) (a k : Nat), (∀ p, a ≤ p → P p = false) → cnt (a + k) P = cnt a P := by
      intro P a k hP
      induction k with
      | zero => rfl
      | succ k ih => rw [← Nat.add_assoc, cnt_succ, ih, hP _ (by omega)]; rfl
    have h1 : ∀ p, g.portMeta.length ≤ p → linkedDir g.port? g.lk .outgoing p = false := hlt g .outgoing
    have h2 : ∀ p, g2.portMeta.length ≤ p → linkedDir g.port? g.lk .outgoing p = false := fun p hp => by rw [← hsame]; exact hlt g2 .outgoing p hp
    rcases Nat.le_total g.portMeta.length g2.portMeta.length with hle | hle
    · have := hpad _ _ (g2.portMeta.length - g.portMeta.length) h1
      rwa [Nat.add_sub_cancel' hle] at this
    · have := hpad _ _ (g.portMeta.length - g2.portMeta.length) h2
      rw [Nat.add_sub_cancel' hle] at this
      exact this.symm
  exact ⟨g2, g3, b1, hshape, habs, by omega, by simp only at c7; omega, hlc, b2, b3⟩

example : ∃ g1 g2, exG.addNode 32767 0 1 = some (2, g1) ∧ g1.removeNode 2 = some g2 ∧ g1.containsNode 2 = true ∧ g2.containsNode 2 = false :=
  ⟨((exG.addNode 32767 0 1).getD (0, exG)).2, (((exG.addNode 32767 0 1).getD (0, exG)).2.removeNode 2).getD exG, rfl, rfl, rfl, rfl⟩

/-- **C66** `swap_nodes` of live nodes undoes itself: the state is exactly the same. -/
theorem C66_swap_nodes_twice {maxOff : Nat} (hmax : maxOff ≤ 32767) {g : PG} (hg : PG.Reach maxOff g) {a b : Nat}
    (ha : g.containsNode a = true) (hb : g.containsNode b = true) :
    ∃ g1, g.swapNodes a b = some g1 ∧ g1.swapNodes a b = some g :=
  swap_nodes_twice (hg.inv hmax) ha hb

example : ∃ g1, exG.swapNodes 0 3 = some g1 ∧ g1.swapNodes 0 3 = some exG ∧ g1 ≠ exG :=
  ⟨(exG.swapNodes 0 3).getD exG, rfl, rfl, by decide +kernel⟩

/-- Enlarging a node and then going back is the same as going back at once. -/
theorem resize_resize (A : AGraph) (n i o i' o' : Nat) (hi : i' ≤ i) (ho : o' ≤ o) :
    (A.resize n i o).resize n i' o' = A.resize n i' o' := by
  apply AGraph.ext'
  · intro x
    simp only [AGraph.resize]
    split <;> rfl
  · intro e f
    have key : ∀ e : Endpoint, decide (e.1 = n ∧ (match e.2.1 with | .incoming => i' | .outgoing => o') ≤ e.2.2) = false →
        decide (e.1 = n ∧ (match e.2.1 with | .incoming => i | .outgoing => o) ≤ e.2.2) = false := by
      intro e he
      rw [decide_eq_false_iff_not] at he ⊢
      rintro ⟨h1, h2⟩
      apply he
      refine ⟨h1, ?_⟩
      cases hd : e.2.1 <;> rw [hd] at h2 <;> simp only at h2 ⊢ <;> omega
    unfold AGraph.resize
    simp only
    rw [AGraph.cutEnds_link, AGraph.cutEnds_link]
    rw [AGraph.cutEnds_link]
    exact ⟨fun ⟨⟨h1, _⟩, h2⟩ => ⟨h1, h2⟩, fun ⟨h1, h2⟩ => ⟨⟨h1, key e h2.1, key f h2.2⟩, h2⟩⟩

/-- **C66** Giving a node more ports and then the old numbers again restores the graph, and following
the reports of both calls leads every port to where its endpoint is now. -/
theorem C66_grow_shrink {maxOff : Nat} (hmax : maxOff ≤ 32767) {g g1 g2 : PG} (hg : PG.Reach maxOff g) {n i o : Nat}
    (hn : g.containsNode n = true) (hok : (PG.Op.setNumPorts n i o).ok maxOff g)
    (hi : g.numPorts n .incoming ≤ i) (ho : g.numPorts n .outgoing ≤ o) {tr1 tr2 : List (Nat × PortOp)}
    (h1 : g.setNumPorts n i o = some (g1, tr1))
    (h2 : g1.setNumPorts n (g.numPorts n .incoming) (g.numPorts n .outgoing) = some (g2, tr2)) :
    g2.abs = g.abs ∧ g2.nodeCount = g.nodeCount ∧ g2.portCount = g.portCount ∧
      ∀ p e, g.endpoint p = some e → ∃ q, (PG.track tr1 p).bind (PG.track tr2) = some q ∧ g2.portIndex e.1 e.2.1 e.2.2 = some q := by
  have hI := hg.inv hmax
  have hg1 : PG.Reach maxOff g1 := .step (op := .setNumPorts n i o) hg hok (by simp [PG.step, h1])
  have hI1 := hg1.inv hmax
  obtain ⟨a1, -, a3, a4⟩ := C12_set_num_ports hmax hg hn h1
  have hcnt : g.abs.counts n = some (g.numPorts n .incoming, g.numPorts n .outgoing) := by simp [PG.abs, hn]
  have hcnt1 : g1.abs.counts n = some (i, o) := by rw [a1]; simp [AGraph.resize]
  have hn1 : g1.containsNode n = true := by
    by_contra hc
    simp [PG.abs, hc] at hcnt1
  have hnp : g1.numPorts n .incoming = i ∧ g1.numPorts n .outgoing = o := by
    simpa [PG.abs, hn1] using hcnt1
  obtain ⟨b1, -, b3, b4⟩ := C12_set_num_ports hmax hg1 hn1 h2
  have habs : g2.abs = g.abs := by
    rw [b1, a1, resize_resize _ _ _ _ _ _ hi ho, AGraph.resize_same (abs_wf hI) hcnt]
  refine ⟨habs, by omega, by omega, fun p e hp => ?_⟩
  have hat := (endpoint_at hI).1 hp
  have c1 := (C13_track hmax hg hn h1 hp).1
  -- the endpoint still exists after the first call
  have hk : e.2.2 < g.numPorts e.1 e.2.1 := by
    obtain ⟨m, hm, hk, -⟩ := hat
    rw [numPorts_eq hm]
    exact hk
  have hne : (g.node? e.1).isSome := by
    obtain ⟨m, hm, -⟩ := hat
    rw [hm]; rfl
  have hk1 : ∃ m, g1.node? e.1 = some m ∧ e.2.2 < m.numPorts e.2.1 := by
    have hc1 : g1.abs.counts e.1 = if e.1 = n then some (i, o) else g.abs.counts e.1 := by rw [a1]; rfl
    have hlive : g.containsNode e.1 = true := containsNode_iff.2 hne
    have hlive1 : g1.containsNode e.1 = true := by
      by_contra hc
      have hnone : g1.abs.counts e.1 = none := by simp [PG.abs, hc]
      have hsome : g.abs.counts e.1 ≠ none := by simp [PG.abs, hlive]
      rw [hnone] at hc1
      split at hc1
      · cases hc1
      · exact hsome hc1.symm
    obtain ⟨m, hm⟩ := Option.isSome_iff_exists.1 (containsNode_iff.1 hlive1)
    refine ⟨m, hm, ?_⟩
    rw [← numPorts_eq hm]
    simp only [PG.abs, hlive1, hlive, if_true] at hc1
    split at hc1
    · rename_i hen
      simp only [Option.some.injEq, Prod.mk.injEq] at hc1
      rw [hen] at hk
      revert hk
      cases e.2.1
      · rw [hc1.1]; omega
      · rw [hc1.2]; omega
    · simp only [Option.some.injEq, Prod.mk.injEq] at hc1
      revert hk
      cases e.2.1
      · rw [hc1.1]; exact id
      · rw [hc1.2]; exact id
  obtain ⟨m, hm, hkm⟩ := hk1
  have hat1 : At g1 (m.start e.2.1 + e.2.2) e := ⟨m, hm, hkm, rfl⟩
  have hidx1 := at_index.2 hat1
  rw [hidx1] at c1
  have hp1 : g1.endpoint (m.start e.2.1 + e.2.2) = some e := (endpoint_at hI1).2 hat1
  have c2 := (C13_track hmax hg1 hn1 h2 hp1).1
  -- and after the second
  have hlink : (g2.abs.counts e.1) = g.abs.counts e.1 := by rw [habs]
  have hlive : g.containsNode e.1 = true := containsNode_iff.2 hne
  have hlive2 : g2.containsNode e.1 = true := by
    by_contra hc
    simp [PG.abs, hc, hlive] at hlink
  obtain ⟨m2, hm2⟩ := Option.isSome_iff_exists.1 (containsNode_iff.1 hlive2)
  have hk2 : e.2.2 < m2.numPorts e.2.1 := by
    rw [← numPorts_eq hm2]
    simp only [PG.abs, hlive2, hlive, if_true, Option.some.injEq, Prod.mk.injEq] at hlink
    revert hk
    cases e.2.1
    · rw [hlink.1]; exact id
    · rw [hlink.2]; exact id
  have hidx2 : g2.portIndex e.1 e.2.1 e.2.2 = some (m2.start e.2.1 + e.2.2) := at_index.2 ⟨m2, hm2, hk2, rfl⟩
  refine ⟨m2.start e.2.1 + e.2.2, ?_, hidx2⟩
  rw [c1]
  simp only [Option.bind_some]
  rw [c2, hidx2]

example : ∃ g1 tr1 g2 tr2, exG.setNumPorts 1 4 3 = some (g1, tr1) ∧ g1.setNumPorts 1 2 1 = some (g2, tr2) ∧
    exG.numPorts 1 .incoming = 2 ∧ exG.numPorts 1 .outgoing = 1 ∧ tr1 = [(4, .moved 10), (5, .moved 11), (6, .moved 14)] ∧
    tr2.length = 5 ∧ (PG.track tr1 6).bind (PG.track tr2) = g2.portIndex 1 .outgoing 0 :=
  ⟨((exG.setNumPorts 1 4 3).getD (exG, [])).1, ((exG.setNumPorts 1 4 3).getD (exG, [])).2,
   ((((exG.setNumPorts 1 4 3).getD (exG, [])).1.setNumPorts 1 2 1).getD (exG, [])).1,
   ((((exG.setNumPorts 1 4 3).getD (exG, [])).1.setNumPorts 1 2 1).getD (exG, [])).2,
   by decide +kernel, by decide +kernel, by decide +kernel, by decide +kernel, by decide +kernel, by decide +kernel, by decide +kernel⟩

/-! ## C67 calls that commute -/

/-- **C67** Two calls of `link_ports` or `unlink_port` that touch different ports give the same
answers and exactly the same state in either order. -/
theorem C67_link_calls {maxOff : Nat} (hmax : maxOff ≤ 32767) {g : PG} (hg : PG.Reach maxOff g) (c c' : LinkCall)
    (hdis : ∀ x, ¬ (c.touches g x ∧ c'.touches g x)) :
    ∃ r r' g1 k1 g2, c.call g = some (r, g1) ∧ c'.call g1 = some (r', g2) ∧ c'.call g = some (r', k1) ∧ c.call k1 = some (r, g2) :=
  link_calls (hg.inv hmax) c c' hdis

example : (∀ x, ¬ ((LinkCall.link 9 5).touches exG x ∧ (LinkCall.unlink 6).touches exG x)) ∧
    (((LinkCall.link 9 5).call exG).bind fun x => (LinkCall.unlink 6).call x.2).isSome = true := by
  refine ⟨fun x => ?_, by decide +kernel⟩
  have : exG.portLink? 6 = some (some 0) := by decide +kernel
  simp only [LinkCall.touches, this, Option.some.injEq]
  omega

/-- **C67** The condition is needed: `link_ports(9, 5)` and `unlink_port(5)` touch the same port. -/
theorem C67_witness_same_port : PG.Reach 32767 exG ∧
    (((LinkCall.link 9 5).call exG).bind fun x => (LinkCall.unlink 5).call x.2).map (fun x => x.2.linkCount) = some 3 ∧
    (((LinkCall.unlink 5).call exG).bind fun x => (LinkCall.link 9 5).call x.2).map (fun x => x.2.linkCount) = some 4 :=
  ⟨exG_reach, by decide +kernel, by decide +kernel⟩

#print axioms C66_unlink_link
#print axioms C66_same_future
#print axioms C66_same_shape
#print axioms C66_remove_add
#print axioms C66_add_remove
#print axioms C66_swap_nodes_twice
#print axioms C66_grow_shrink
#print axioms C67_link_calls
#print axioms C67_witness_same_port

end Verif.Undo
