import Verif.PortGraph.Example

/-!
# Properties of `set_num_ports`: C12, C13, C14
-/

namespace Verif.PG

open Verif (Direction)

theorem nextPow2_big {n : Nat} (h1 : 32768 < n) (h2 : n ≤ 131069) : PG.nextPow2 n % 65536 = 0 := by
  obtain ⟨h3, h4, k, hk⟩ := nextPow2_spec n
  rw [hk] at h3 h4 ⊢
  have hk15 : 15 < k := by
    rcases Nat.lt_or_ge 15 k with h | h
    · exact h
    · have := Nat.pow_le_pow_right (n := 2) (by omega) h; omega
  have : 2 ^ k = 2 ^ 16 * 2 ^ (k - 16) := by rw [← Nat.pow_add]; congr 1; omega
  rw [this]; simp

theorem allocPorts_big {g : PG} {n i o : Nat} (hi : i ≤ 65534) (ho : o ≤ 65535) (h1 : 32768 < i + o) :
    g.allocPorts n i o (PG.nextPow2 (i + o) - (i + o)) = none := by
  have hb := nextPow2_big h1 (by omega)
  have hs := (nextPow2_spec (i + o)).1
  have hr : i + o + (PG.nextPow2 (i + o) - (i + o)) = PG.nextPow2 (i + o) := by omega
  have hn : ∀ f, NodeMeta.new? f (i % 65536) (o % 65536) 0 = none := by
    intro f
    unfold NodeMeta.new?
    rw [if_neg]
    omega
  unfold PG.allocPorts
  simp only [hr, hb, hn]
  rw [if_neg (by omega)]
  split
  · split <;> rfl
  · rfl

theorem setNumPorts_big {g : PG} {n i o : Nat} {m : NodeMeta} (hn : g.node? n = some m) (h1 : 32768 < i + o)
    (hne : ¬ (m.incoming = i ∧ m.outgoing = o)) (hc : m.capacity ≤ i + o) : g.setNumPorts n i o = none := by
  unfold PG.setNumPorts
  simp only
  split
  · rename_i hio
    rw [hn]
    simp only
    rw [if_neg hne, if_neg (by omega)]
    split
    · rfl
    · rw [allocPorts_big hio.1 hio.2 h1]
  · rfl

theorem AGraph.resize_same {A : AGraph} (hA : A.WF) {n i o : Nat} (h : A.counts n = some (i, o)) :
    A.resize n i o = A := by
  have hno : ∀ e, A.Has e → ¬ (e.1 = n ∧ (match e.2.1 with | .incoming => i | .outgoing => o) ≤ e.2.2) := by
    rintro ⟨n', d, k⟩ he ⟨h1, h2⟩
    simp only at h1 h2; subst h1
    unfold AGraph.Has AGraph.arity at he
    simp only [h] at he
    cases d <;> simp only at * <;> omega
  apply AGraph.ext'
  · intro n'
    simp only [AGraph.resize]
    split
    · subst_vars; rw [h]
    · rfl
  · intro e f
    unfold AGraph.resize
    simp only
    rw [AGraph.cutEnds_link]
    constructor
    · exact fun h => h.1
    · intro hl
      obtain ⟨h1, h2⟩ := hA.ends _ _ hl
      exact ⟨hl, decide_eq_false (hno e h1), decide_eq_false (hno f h2)⟩

/-- What a returning call of `set_num_ports` on a live node did. -/
theorem setNumPorts_effect {g : PG} (hI : Inv g) {n i o : Nat} {g' : PG} {tr : List (Nat × PortOp)}
    (hn : g.containsNode n = true) (h : g.setNumPorts n i o = some (g', tr)) :
    (g.numPorts n .incoming = i ∧ g.numPorts n .outgoing = o ∧ g' = g ∧ tr = []) ∨
    (∃ m nm tr1 tr2, g.node? n = some m ∧ Inv g' ∧ tr = tr1 ++ tr2 ∧ ResizeEffect g g' n i o m nm ∧
      DropTrace g m i o tr1 ∧ MoveTrace m nm tr2) := by
  obtain ⟨m, hm⟩ := Option.isSome_iff_exists.1 (containsNode_iff.1 hn)
  have hio : i ≤ 65534 ∧ o ≤ 65535 := by
    unfold PG.setNumPorts at h
    split at h
    · assumption
    · cases h
  by_cases hs : m.incoming = i ∧ m.outgoing = o
  · obtain ⟨rfl, rfl⟩ := hs
    rw [setNumPorts_same hm hio.1 hio.2] at h
    cases h
    exact .inl ⟨numPorts_eq hm, numPorts_eq hm, rfl, rfl⟩
  · by_cases hb : i + o ≤ 32768 ∨ i + o < m.capacity
    · obtain ⟨g1, tr1, tr2, nm, h1, h2, h3, h4, h5⟩ := setNumPorts_ok hI hm hs hb hio.1
      rw [h] at h1; cases h1
      exact .inr ⟨m, nm, tr1, tr2, hm, h2, rfl, h3, h4, h5⟩
    · rw [setNumPorts_big hm (by omega) hs (by omega)] at h; cases h

/-! ## C12 -/

theorem C12_set_num_ports {maxOff : Nat} (hmax : maxOff ≤ 32767) {g : PG} (hg : PG.Reach maxOff g) {n i o : Nat}
    {g' : PG} {tr : List (Nat × PortOp)} (hn : g.containsNode n = true) (h : g.setNumPorts n i o = some (g', tr)) :
    g'.abs = g.abs.resize n i o ∧
      (∀ n' d k, n' ≠ n → g'.portIndex n' d k = g.portIndex n' d k) ∧
      g'.nodeCount = g.nodeCount ∧
      g'.portCount + (g.numPorts n .incoming + g.numPorts n .outgoing) = g.portCount + (i + o) := by
  have hI := hg.inv hmax
  rcases setNumPorts_effect hI hn h with ⟨h1, h2, rfl, -⟩ | ⟨m, nm, tr1, tr2, hm, hI', -, hE, -, -⟩
  · refine ⟨(AGraph.resize_same (abs_wf hI) ?_).symm, fun _ _ _ _ => rfl, rfl, by omega⟩
    simp [PG.abs, hn, h1, h2]
  · refine ⟨hE.refines hI hI' hm, ?_, hE.nodeCount, ?_⟩
    · intro n' d k hne
      apply Option.ext
      intro p
      exact at_index.trans ((hE.at_other hne).trans at_index.symm)
    · rw [numPorts_eq hm, numPorts_eq hm]; exact hE.portCount

example := C12_set_num_ports (by decide) exG_reach (n := 0) (i := 1) (o := 3) (g' := ((exG.setNumPorts 0 1 3).getD (exG, [])).1)
  (tr := ((exG.setNumPorts 0 1 3).getD (exG, [])).2) (by decide) rfl

theorem C12_set_num_ports_unknown {g : PG} {n i o : Nat} (hn : g.containsNode n = false) (hi : i ≤ 65534)
    (ho : o ≤ 65535) : g.setNumPorts n i o = some (g, []) :=
  setNumPorts_none (by simpa [PG.containsNode] using hn) hi ho

example := C12_set_num_ports_unknown (g := exG) (n := 2) (i := 1) (o := 3) (by decide) (by decide) (by decide)

/-! ## C13 -/

/-- Following the reports from any port leads to the index its endpoint has afterwards, if it
still exists. Ports of other nodes are not touched. -/
theorem C13_track {maxOff : Nat} (hmax : maxOff ≤ 32767) {g : PG} (hg : PG.Reach maxOff g) {n i o : Nat}
    {g' : PG} {tr : List (Nat × PortOp)} (hn : g.containsNode n = true) (h : g.setNumPorts n i o = some (g', tr))
    {p : Nat} {e : Endpoint} (hp : g.endpoint p = some e) :
    PG.track tr p = g'.portIndex e.1 e.2.1 e.2.2 ∧ (e.1 ≠ n → PG.track tr p = some p) := by
  have hI := hg.inv hmax
  have hat := (endpoint_at hI).1 hp
  rcases setNumPorts_effect hI hn h with ⟨-, -, rfl, rfl⟩ | ⟨m, nm, tr1, tr2, hm, hI', rfl, hE, h1, h2⟩
  · simp only [PG.track, implies_true, and_true]
    exact (at_index.2 hat).symm
  · have h3 := track_resize hE hI hm h1 h2 hat
    refine ⟨h3, fun hne => ?_⟩
    rw [h3]
    exact at_index.2 ((hE.at_other hne).2 hat)

example : PG.track ((exG.setNumPorts 0 1 3).getD (exG, [])).2 3 = some 12 :=
  (C13_track (by decide) exG_reach (n := 0) (i := 1) (o := 3) (g' := ((exG.setNumPorts 0 1 3).getD (exG, [])).1)
    (by decide) rfl (e := (0, .outgoing, 1)) (by decide)).1

theorem removedPorts_append (l l' : List (Nat × PortOp)) :
    PG.removedPorts (l ++ l') = PG.removedPorts l ++ PG.removedPorts l' := by
  induction l with
  | nil => rfl
  | cons x l ih =>
    obtain ⟨q, op⟩ := x
    cases op <;> simp [PG.removedPorts, ih]

theorem removedPorts_all {l : List (Nat × PortOp)} (h : ∀ x ∈ l, ∃ o, x.2 = .removed o) :
    PG.removedPorts l = l.map (·.1) := by
  induction l with
  | nil => rfl
  | cons x l ih =>
    obtain ⟨q, op⟩ := x
    obtain ⟨o, ho⟩ := h _ (List.mem_cons_self ..)
    simp only at ho; subst ho
    simp [PG.removedPorts, ih fun y hy => h y (List.mem_cons_of_mem _ hy)]

theorem removedPorts_moved (l : List (Nat × Nat)) :
    PG.removedPorts (l.map fun x => (x.1, .moved x.2)) = [] := by
  induction l with
  | nil => rfl
  | cons x l ih => simpa [PG.removedPorts] using ih

theorem MoveTrace.removed {m nm tr} (h : MoveTrace m nm tr) : PG.removedPorts tr = [] := by
  rcases h with ⟨-, rfl⟩ | ⟨-, ⟨-, rfl⟩ | ⟨-, rfl⟩⟩ <;> exact removedPorts_moved _

theorem MoveTrace.mem {m nm tr} (h : MoveTrace m nm tr) {x} (hx : x ∈ tr) :
    ∃ d y, y ∈ (m.ports d).zip (nm.ports d) ∧ x = (y.1, .moved y.2) := by
  rcases h with ⟨-, rfl⟩ | ⟨-, ⟨-, rfl⟩ | ⟨-, rfl⟩⟩
  all_goals
    simp only [List.mem_map, List.mem_append, List.mem_reverse] at hx
    obtain ⟨y, hy, rfl⟩ := hx
  · rcases hy with hy | hy <;> exact ⟨_, y, hy, rfl⟩
  · exact ⟨_, y, hy, rfl⟩
  · exact ⟨_, y, hy, rfl⟩

/-- `Removed` is reported once for each dropped port, incoming ones first, in order of offset. -/
theorem C13_removed {maxOff : Nat} (hmax : maxOff ≤ 32767) {g : PG} (hg : PG.Reach maxOff g) {n i o : Nat}
    {g' : PG} {tr : List (Nat × PortOp)} (hn : g.containsNode n = true) (h : g.setNumPorts n i o = some (g', tr)) :
    PG.removedPorts tr = (g.ports n .incoming).drop i ++ (g.ports n .outgoing).drop o := by
  have hI := hg.inv hmax
  rcases setNumPorts_effect hI hn h with ⟨e1, e2, rfl, rfl⟩ | ⟨m, nm, tr1, tr2, hm, hI', rfl, hE, h1, h2⟩
  · obtain ⟨m, hm⟩ := Option.isSome_iff_exists.1 (containsNode_iff.1 hn)
    rw [numPorts_eq hm] at e1 e2
    simp only [PG.removedPorts, PG.ports, hm, NodeMeta.ports]
    rw [List.drop_eq_nil_of_le (by simp [e1]), List.drop_eq_nil_of_le (by simp [e2])]; rfl
  · rw [removedPorts_append, removedPorts_all h1.all, h1.length, h2.removed, List.append_nil]
    simp [PG.droppedPorts, PG.ports, hm]

example : PG.removedPorts ((exG.setNumPorts 0 1 3).getD (exG, [])).2 = [1] :=
  C13_removed (by decide) exG_reach (n := 0) (i := 1) (o := 3) (g' := ((exG.setNumPorts 0 1 3).getD (exG, [])).1) (by decide) rfl

theorem droppedPorts_nodup (m : NodeMeta) (i o : Nat) : (PG.droppedPorts m i o).Nodup := by
  unfold PG.droppedPorts
  rw [List.nodup_append]
  refine ⟨?_, ?_, ?_⟩
  · exact (List.nodup_range' (step := 1) ..).sublist (List.drop_sublist ..)
  · exact (List.nodup_range' (step := 1) ..).sublist (List.drop_sublist ..)
  · intro a ha b hb
    have ha := List.mem_of_mem_drop ha
    have hb := List.mem_of_mem_drop hb
    simp [NodeMeta.ports, List.mem_range', NodeMeta.start, NodeMeta.numPorts] at ha hb
    omega

/-- The reported partner of a removed port is its partner before the call; a port whose partner
was reported removed before it is reported as unlinked. -/
theorem C13_removed_partner {maxOff : Nat} (hmax : maxOff ≤ 32767) {g : PG} (hg : PG.Reach maxOff g) {n i o : Nat}
    {g' : PG} {tr pre post : List (Nat × PortOp)} {p : Nat} {l : Option Nat} (hn : g.containsNode n = true)
    (h : g.setNumPorts n i o = some (g', tr)) (htr : tr = pre ++ (p, .removed l) :: post) :
    ∃ l0, g.portLink? p = some l0 ∧ l = (match l0 with
      | none => none
      | some q => if q ∈ PG.removedPorts pre then none else some q) := by
  have hI := hg.inv hmax
  rcases setNumPorts_effect hI hn h with ⟨e1, e2, rfl, rfl⟩ | ⟨m, nm, tr1, tr2, hm, hI', rfl, hE, h1, h2⟩
  · simp at htr
  · have hlen : pre.length < tr1.length := by
      rcases Nat.lt_or_ge pre.length tr1.length with hh | hh
      · exact hh
      · exfalso
        have : (p, PortOp.removed l) ∈ tr2 := by
          have := congrArg (List.drop tr1.length) htr
          rw [List.drop_left, List.drop_append_of_le_length hh] at this
          rw [this]; simp
        obtain ⟨d, y, -, hy⟩ := h2.mem this
        simp at hy
    have hget : tr1[pre.length]? = some (p, .removed l) := by
      have := congrArg (fun l => l[pre.length]?) htr
      simp only [List.getElem?_append_left hlen] at this
      rw [this]; simp
    have hpre : PG.removedPorts pre = (PG.droppedPorts m i o).take pre.length := by
      have : pre = tr1.take pre.length := by
        have := congrArg (List.take pre.length) htr
        rw [List.take_append_of_le_length (by omega), List.take_left] at this
        exact this.symm
      rw [← h1.length, ← List.map_take, ← this]
      apply removedPorts_all
      intro x hx
      rw [this] at hx
      exact h1.all x (List.mem_of_mem_take hx)
    rw [h1, Option.map_eq_some_iff] at hget
    obtain ⟨p', hp', he⟩ := hget
    simp only [Prod.mk.injEq, PortOp.removed.injEq] at he
    obtain ⟨rfl, rfl⟩ := he
    have hmem : p' ∈ PG.droppedPorts m i o := List.mem_of_getElem? hp'
    have hport : (g.port? p').isSome := by
      obtain ⟨own, fs, hP, hfull⟩ := hI.slots
      rcases mem_droppedPorts.1 hmem with ⟨h1, -⟩ | ⟨h1, -⟩ <;> rw [(hP.ports_has hm).2 h1] <;> rfl
    refine ⟨g.lk p', portLink?_eq hI hport, ?_⟩
    have hnot : p' ∉ (PG.droppedPorts m i o).take pre.length := by
      have hnd := droppedPorts_nodup m i o
      have hsplit := List.take_append_drop pre.length (PG.droppedPorts m i o)
      rw [← hsplit, List.nodup_append] at hnd
      intro hc
      refine hnd.2.2 _ hc p' ?_ rfl
      apply List.mem_of_getElem? (i := 0)
      rw [List.getElem?_drop]; exact hp'
    rw [hpre]
    unfold cut
    rw [if_neg (by simpa using hnot)]
    cases g.lk p' with
    | none => rfl
    | some q => simp [hport]

example := C13_removed_partner (by decide) exG_reach (n := 0) (i := 1) (o := 3) (g' := ((exG.setNumPorts 0 1 3).getD (exG, [])).1)
  (by decide) rfl (pre := []) (p := 1) (l := some 3) (post := [(0, .moved 10), (2, .moved 11), (3, .moved 12)]) (by decide)

/-- A reported move is a move of a surviving port of the node, to its new index. -/
theorem C13_moved {maxOff : Nat} (hmax : maxOff ≤ 32767) {g : PG} (hg : PG.Reach maxOff g) {n i o : Nat}
    {g' : PG} {tr : List (Nat × PortOp)} {p q : Nat} (hn : g.containsNode n = true)
    (h : g.setNumPorts n i o = some (g', tr)) (hm : (p, .moved q) ∈ tr) :
    ∃ d k, g.portIndex n d k = some p ∧ g'.portIndex n d k = some q := by
  have hI := hg.inv hmax
  rcases setNumPorts_effect hI hn h with ⟨e1, e2, rfl, rfl⟩ | ⟨m, nm, tr1, tr2, hnm, hI', rfl, hE, h1, h2⟩
  · simp at hm
  · rcases List.mem_append.1 hm with hm | hm
    · obtain ⟨o, ho⟩ := h1.all _ hm
      simp at ho
    · obtain ⟨d, y, hy, he⟩ := h2.mem hm
      simp only [Prod.mk.injEq, PortOp.moved.injEq] at he
      obtain ⟨rfl, rfl⟩ := he
      obtain ⟨k, a, b, c, e⟩ := mem_zip_ports.1 hy
      refine ⟨d, k, at_index.2 ((at_node hnm).2 ⟨a, c⟩), at_index.2 (hE.at_self.2 ⟨?_, e⟩)⟩
      rw [← hE.count]; exact b

example := C13_moved (by decide) exG_reach (n := 0) (i := 1) (o := 3) (g' := ((exG.setNumPorts 0 1 3).getD (exG, [])).1)
  (tr := ((exG.setNumPorts 0 1 3).getD (exG, [])).2) (by decide) rfl (p := 2) (q := 11) (by decide)

theorem map_fst_zip (l l' : List Nat) : (l.zip l').map (·.1) = l.take l'.length := by
  induction l generalizing l' with
  | nil => simp
  | cons a l ih => cases l' with
    | nil => rfl
    | cons b l' => simp [ih]

theorem ports_disjoint {m : NodeMeta} {p : Nat} (h1 : p ∈ m.ports .incoming) (h2 : p ∈ m.ports .outgoing) : False := by
  simp [NodeMeta.ports, List.mem_range', NodeMeta.start, NodeMeta.numPorts] at h1 h2
  omega

theorem MoveTrace.nodup {m nm tr} (h : MoveTrace m nm tr) : (tr.map (·.1)).Nodup := by
  have hp : ∀ d, ((m.ports d).take (nm.ports d).length).Nodup := fun d =>
    (List.nodup_range' (step := 1) ..).sublist (List.take_sublist ..)
  rcases h with ⟨-, rfl⟩ | ⟨-, ⟨-, rfl⟩ | ⟨-, rfl⟩⟩
  · rw [List.map_map]
    simp only [List.map_append, Function.comp_def]
    rw [map_fst_zip, map_fst_zip, List.nodup_append]
    refine ⟨hp _, hp _, ?_⟩
    rintro a ha b hb rfl
    exact ports_disjoint (List.mem_of_mem_take ha) (List.mem_of_mem_take hb)
  · rw [List.map_map]
    simp only [Function.comp_def]
    rw [map_fst_zip]; exact hp _
  · rw [List.map_map]
    simp only [Function.comp_def, List.map_reverse]
    rw [map_fst_zip]; exact (List.reverse_perm _).nodup_iff.2 (hp _)

/-- No port is reported twice, and only ports of the node are reported. -/
theorem C13_reported_once {maxOff : Nat} (hmax : maxOff ≤ 32767) {g : PG} (hg : PG.Reach maxOff g) {n i o : Nat}
    {g' : PG} {tr : List (Nat × PortOp)} (hn : g.containsNode n = true) (h : g.setNumPorts n i o = some (g', tr)) :
    (tr.map (·.1)).Nodup ∧ ∀ p ∈ tr.map (·.1), g.portNode p = some n := by
  have hI := hg.inv hmax
  rcases setNumPorts_effect hI hn h with ⟨e1, e2, rfl, rfl⟩ | ⟨m, nm, tr1, tr2, hm, hI', rfl, hE, h1, h2⟩
  · simp
  · have hmem : ∀ d p, p ∈ m.ports d → At g p (n, d, p - m.start d) := by
      intro d p hp
      simp only [NodeMeta.ports, List.mem_range'_1] at hp
      exact (at_node hm).2 ⟨by omega, by omega⟩
    have hzip : ∀ d y, y ∈ (m.ports d).zip (nm.ports d) → y.1 ∈ m.ports d ∧ y.1 - m.start d < nm.numPorts d := by
      rintro d ⟨a, b⟩ hy
      obtain ⟨k, k1, k2, k3, k4⟩ := mem_zip_ports.1 hy
      simp only [NodeMeta.ports, List.mem_range'_1]
      omega
    have hnum : ∀ d, nm.numPorts d = match d with | .incoming => i | .outgoing => o := by
      intro d; cases d
      · exact hE.hinc
      · exact hE.hout
    have hnode : ∀ d p, p ∈ m.ports d → g.portNode p = some n := by
      intro d p hp
      simp [PG.portNode, (hmem d p hp).port hI]
    rw [List.map_append, h1.length]
    constructor
    · rw [List.nodup_append]
      refine ⟨droppedPorts_nodup m i o, h2.nodup, ?_⟩
      rintro a ha b hb rfl
      simp only [List.mem_map] at hb
      obtain ⟨x, hx, rfl⟩ := hb
      obtain ⟨d, y, hy, rfl⟩ := h2.mem hx
      obtain ⟨y1, y2⟩ := hzip d y hy
      rw [hnum] at y2
      simp only [PG.droppedPorts, List.mem_append] at ha
      rcases ha with ha | ha
      · have ha' := List.mem_of_mem_drop ha
        cases d with
        | outgoing => exact ports_disjoint ha' y1
        | incoming =>
          rw [NodeMeta.ports, List.drop_range', List.mem_range'_1] at ha
          simp only at y2 ha
          omega
      · have ha' := List.mem_of_mem_drop ha
        cases d with
        | incoming => exact ports_disjoint y1 ha'
        | outgoing =>
          rw [NodeMeta.ports, List.drop_range', List.mem_range'_1] at ha
          simp only at y2 ha
          omega
    · intro p hp
      simp only [List.mem_append] at hp
      rcases hp with hp | hp
      · simp only [PG.droppedPorts, List.mem_append] at hp
        rcases hp with hp | hp
        · exact hnode _ _ (List.mem_of_mem_drop hp)
        · exact hnode _ _ (List.mem_of_mem_drop hp)
      · simp only [List.mem_map] at hp
        obtain ⟨x, hx, rfl⟩ := hp
        obtain ⟨d, y, hy, rfl⟩ := h2.mem hx
        exact hnode d _ (hzip d y hy).1

example := C13_reported_once (by decide) exG_reach (n := 0) (i := 1) (o := 3) (g' := ((exG.setNumPorts 0 1 3).getD (exG, [])).1)
  (tr := ((exG.setNumPorts 0 1 3).getD (exG, [])).2) (by decide) rfl

/-! ## C14 -/

/-- `set_num_ports` returns exactly if the counts do not change, or they fit the capacity, or
their sum is at most 32768. Missing for the full claim: larger sums panic. -/
theorem C14_no_panic_partial {maxOff : Nat} (hmax : maxOff ≤ 32767) {g : PG} (hg : PG.Reach maxOff g) {n i o : Nat}
    (hn : g.containsNode n = true) (hi : i ≤ 65534) (ho : o ≤ 65535) :
    (g.setNumPorts n i o).isSome = true ↔
      (i + o ≤ 32768 ∨ i + o < g.nodePortCapacity n ∨ (g.numPorts n .incoming = i ∧ g.numPorts n .outgoing = o)) := by
  have hI := hg.inv hmax
  obtain ⟨m, hm⟩ := Option.isSome_iff_exists.1 (containsNode_iff.1 hn)
  rw [capacity_eq hm, numPorts_eq hm, numPorts_eq hm]
  change _ ↔ (i + o ≤ 32768 ∨ i + o < m.capacity ∨ (m.incoming = i ∧ m.outgoing = o))
  by_cases hs : m.incoming = i ∧ m.outgoing = o
  · obtain ⟨rfl, rfl⟩ := hs
    simp [setNumPorts_same hm hi ho]
  · by_cases hb : i + o ≤ 32768 ∨ i + o < m.capacity
    · obtain ⟨g1, tr1, tr2, nm, h1, -⟩ := setNumPorts_ok hI hm hs hb hi
      rw [h1]; simp; omega
    · rw [setNumPorts_big hm (by omega) hs (by omega)]; simp; omega

example := (C14_no_panic_partial (by decide) exG_reach (n := 0) (i := 30000) (o := 2768) (by decide) (by decide) (by decide)).2 (.inl (by decide))

/-- Giving a live node of capacity at most 32768 more than 32768 ports panics, if that changes its
incoming count. -/
theorem C14_large_counts_panic {g : PG} {n i o : Nat} (hn : g.containsNode n = true)
    (hc : g.nodePortCapacity n ≤ 32768) (ht : 32768 < i + o) (hi : i ≠ g.numPorts n .incoming) : g.setNumPorts n i o = none := by
  obtain ⟨m, hm⟩ := Option.isSome_iff_exists.1 (containsNode_iff.1 hn)
  rw [capacity_eq hm] at hc
  rw [numPorts_eq hm] at hi
  refine setNumPorts_big hm ht ?_ (by omega)
  rintro ⟨h, -⟩
  exact hi h.symm

example := C14_large_counts_panic (g := exG) (n := 0) (i := 30000) (o := 2769) (by decide) (by decide) (by decide) (by decide)

/-- Asking for zero ports on a node with ports leaves it owning one port slot. -/
theorem C14_witness_zero_ports :
    ((exG.setNumPorts 0 0 0).map fun r => (r.1.numPorts 0 .incoming, r.1.numPorts 0 .outgoing, r.1.nodePortCapacity 0))
      = some (0, 0, 1) := by decide

example : exG.containsNode 0 = true ∧ ((exG.setNumPorts 0 1 3).map (·.2)) = some
    [(1, .removed (some 3)), (0, .moved 10), (2, .moved 11), (3, .moved 12)] := by decide

/-- A shrink in place. -/
example : exG2.containsNode 0 = true ∧ 4 < exG2.nodePortCapacity 0 ∧ ((exG2.setNumPorts 0 2 2).isSome) = true := by decide

end Verif.PG

#print axioms Verif.PG.C12_set_num_ports
#print axioms Verif.PG.C12_set_num_ports_unknown
#print axioms Verif.PG.C13_track
#print axioms Verif.PG.C13_removed
#print axioms Verif.PG.C13_removed_partner
#print axioms Verif.PG.C13_moved
#print axioms Verif.PG.C13_reported_once
#print axioms Verif.PG.C14_no_panic_partial
#print axioms Verif.PG.C14_large_counts_panic
#print axioms Verif.PG.C14_witness_zero_ports
