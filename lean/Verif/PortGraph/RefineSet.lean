import Verif.PortGraph.Refine

/-! Refinement for `set_num_ports`, and the meaning of its callbacks. -/

namespace Verif.PG

open Verif (Direction)

variable {g g' : PG} {n inc out : Nat} {m nm : NodeMeta}

/-- New count in direction `d`. -/
def newCount (inc out : Nat) : Direction → Nat
  | .incoming => inc
  | .outgoing => out

theorem ResizeEffect.count (hE : ResizeEffect g g' n inc out m nm) (d) : nm.numPorts d = newCount inc out d := by
  cases d <;> simp [NodeMeta.numPorts, newCount, hE.hinc, hE.hout]

theorem ResizeEffect.at_other (hE : ResizeEffect g g' n inc out m nm) {p n' d k} (hne : n' ≠ n) :
    At g' p (n', d, k) ↔ At g p (n', d, k) := by
  apply at_congr
  rw [hE.node]; simp [upd, hne]

theorem ResizeEffect.at_self (hE : ResizeEffect g g' n inc out m nm) {p d k} :
    At g' p (n, d, k) ↔ k < newCount inc out d ∧ p = nm.start d + k := by
  unfold At
  rw [hE.node]
  simp [upd, hE.count]

theorem at_node (hn : g.node? n = some m) {p d k} :
    At g p (n, d, k) ↔ k < m.numPorts d ∧ p = m.start d + k := by
  unfold At
  simp [hn]

/-- The endpoint is dropped. -/
def Dropped (n inc out : Nat) (e : Endpoint) : Prop := e.1 = n ∧ newCount inc out e.2.1 ≤ e.2.2

instance (n inc out : Nat) (e : Endpoint) : Decidable (Dropped n inc out e) := by unfold Dropped; infer_instance

theorem has_iff_node (hI : Inv g) (hn : g.node? n = some m) {p e} (hp : At g p e) :
    (∃ d, m.has d p = true) ↔ e.1 = n := by
  obtain ⟨own, fs, hP, hfull⟩ := hI.slots
  have h := hp.port hI
  constructor
  · rintro ⟨d, hd⟩
    rw [(hP.ports_has hn).2 hd] at h
    simp at h; exact h.1.symm
  · rintro rfl
    exact ⟨e.2.1, (hP.ports_has hn).1 h⟩

theorem shift_ne (hI : Inv g) (hn : g.node? n = some m) {p e} (hp : At g p e) (hne : e.1 ≠ n) :
    shift m nm p = p := by
  have : ∀ d, m.has d p = false := by
    intro d
    cases h : m.has d p with
    | false => rfl
    | true => exact absurd ((has_iff_node hI hn hp).1 ⟨d, h⟩) hne
  simp [shift, this]

theorem shift_self (hn : g.node? n = some m) {p d k} (hp : At g p (n, d, k)) :
    shift m nm p = nm.start d + k := by
  obtain ⟨h1, h2⟩ := (at_node hn).1 hp
  have hd : m.has d p = true := NodeMeta.has_iff.2 ⟨by omega, by omega⟩
  cases d with
  | incoming => rw [shift, if_pos hd]; omega
  | outgoing => rw [shift, if_neg (by rw [NodeMeta.has_disj hd]; simp), if_pos hd]; omega

theorem mem_dropped (hI : Inv g) (hn : g.node? n = some m) {p e} (hp : At g p e) :
    p ∈ PG.droppedPorts m inc out ↔ Dropped n inc out e := by
  rw [mem_droppedPorts]
  obtain ⟨n', d, k⟩ := e
  constructor
  · intro h
    have hnn : n' = n := by
      apply (has_iff_node hI hn hp).1
      rcases h with h | h
      · exact ⟨_, h.1⟩
      · exact ⟨_, h.1⟩
    subst hnn
    refine ⟨rfl, ?_⟩
    obtain ⟨h1, h2⟩ := (at_node hn).1 hp
    have hd : m.has d p = true := NodeMeta.has_iff.2 ⟨by omega, by omega⟩
    rcases h with h | h
    · have := NodeMeta.has_unique hd h.1; subst this; simp only [newCount]; omega
    · have := NodeMeta.has_unique hd h.1; subst this; simp only [newCount]; omega
  · rintro ⟨rfl, hk⟩
    obtain ⟨h1, h2⟩ := (at_node hn).1 hp
    have hd : m.has d p = true := NodeMeta.has_iff.2 ⟨by omega, by omega⟩
    simp only at *
    cases d
    · left; simp only [newCount] at hk; exact ⟨hd, by omega⟩
    · right; simp only [newCount] at hk; exact ⟨hd, by omega⟩

/-- Surviving ports are found at their shifted index. -/
theorem ResizeEffect.shift_at (hE : ResizeEffect g g' n inc out m nm) (hI : Inv g) (hn : g.node? n = some m)
    {p e} (hp : At g p e) (hd : ¬ Dropped n inc out e) : At g' (shift m nm p) e := by
  obtain ⟨n', d, k⟩ := e
  by_cases hne : n' = n
  · subst hne
    rw [shift_self hn hp, hE.at_self]
    simp only [Dropped, true_and] at hd
    exact ⟨by omega, rfl⟩
  · rw [shift_ne hI hn hp hne, hE.at_other hne]; exact hp

/-- Links at a surviving endpoint. -/
theorem ResizeEffect.link_old (hE : ResizeEffect g g' n inc out m nm) (hI : Inv g) (hI' : Inv g')
    (hn : g.node? n = some m) {p e} (hp : At g p e) (hd : ¬ Dropped n inc out e) :
    g'.lk (shift m nm p) = (droppedLk g m inc out p).map (shift m nm) := by
  have hat' := hE.shift_at hI hn hp hd
  have hport' := hat'.port hI'
  rw [hE.link _ (by rw [hport']; rfl)]
  obtain ⟨n', d, k⟩ := e
  obtain ⟨own', fs', hP', hfull'⟩ := hI'.slots
  have hnm : g'.node? n = some nm := by rw [hE.node]; simp [upd]
  by_cases hne : n' = n
  · subst hne
    obtain ⟨h1, h2⟩ := (at_node hn).1 hp
    have hs := shift_self (nm := nm) hn hp
    simp only [Dropped, true_and] at hd
    have hc := hE.count d
    have hh : nm.has d (shift m nm p) = true := NodeMeta.has_iff.2 ⟨by omega, by omega⟩
    unfold relinked
    cases d with
    | incoming =>
      rw [if_pos hh, if_pos (by omega)]
      congr 2; omega
    | outgoing =>
      rw [if_neg (by rw [NodeMeta.has_disj hh]; simp), if_pos hh, if_pos (by omega)]
      congr 2; omega
  · have hs := shift_ne (nm := nm) hI hn hp hne
    rw [hs] at hport' hat' ⊢
    have hno : ∀ d, nm.has d p = false := by
      intro d'
      cases h : nm.has d' p with
      | false => rfl
      | true => exact absurd ((has_iff_node hI' hnm hat').1 ⟨d', h⟩) hne
    have hr1 : inRange m.first m.capacity p = false := by
      rw [← Bool.not_eq_true, slab_iff hI hn (hp.port hI)]; exact hne
    have hr2 : inRange nm.first nm.capacity p = false := by
      rw [← Bool.not_eq_true, slab_iff hI' hnm hport']; exact hne
    unfold relinked
    rw [hno, hno, hr1, hr2, hp.port hI]
    simp

/-- New endpoints are unlinked. -/
theorem ResizeEffect.link_new (hE : ResizeEffect g g' n inc out m nm) (hI' : Inv g')
    (hn : g.node? n = some m) {p e} (hp : At g' p e) (hd : ¬ g.abs.Has e) : g'.lk p = none := by
  have hport' := hp.port hI'
  rw [hE.link _ (by rw [hport']; rfl)]
  obtain ⟨n', d, k⟩ := e
  have hnn : n' = n := by
    by_cases h : n' = n
    · exact h
    · exact absurd ((hE.at_other h).1 hp).hasEnd hd
  subst hnn
  obtain ⟨h1, h2⟩ := hE.at_self.1 hp
  have hc := hE.count d
  have hk : m.numPorts d ≤ k := by
    apply Nat.le_of_not_lt
    intro hc
    exact hd (abs_has.2 ⟨m.start d + k, (at_node hn).2 ⟨hc, rfl⟩⟩)
  have hh : nm.has d p = true := NodeMeta.has_iff.2 ⟨by omega, by omega⟩
  unfold relinked
  cases d with
  | incoming => rw [if_pos hh, if_neg (by omega)]
  | outgoing => rw [if_neg (by rw [NodeMeta.has_disj hh]; simp), if_pos hh, if_neg (by omega)]

theorem ResizeEffect.at_old (hE : ResizeEffect g g' n inc out m nm) (hI : Inv g) (hn : g.node? n = some m)
    {p e} (hp : At g' p e) : ¬ Dropped n inc out e ∧ (g.abs.Has e → ∃ p0, At g p0 e ∧ p = shift m nm p0) := by
  obtain ⟨n', d, k⟩ := e
  by_cases hne : n' = n
  · subst hne
    obtain ⟨h1, h2⟩ := hE.at_self.1 hp
    constructor
    · simp only [Dropped, true_and]; omega
    · intro hh
      obtain ⟨p0, hp0⟩ := abs_has.1 hh
      exact ⟨p0, hp0, by rw [shift_self hn hp0]; exact h2⟩
  · constructor
    · simp [Dropped, hne]
    · intro _
      have hp0 := (hE.at_other hne).1 hp
      exact ⟨p, hp0, (shift_ne hI hn hp0 hne).symm⟩

theorem ResizeEffect.refines (hE : ResizeEffect g g' n inc out m nm) (hI : Inv g) (hI' : Inv g')
    (hn : g.node? n = some m) : g'.abs = g.abs.resize n inc out := by
  apply AGraph.ext'
  · intro n'
    rw [abs_counts, hE.node]
    simp only [AGraph.resize, upd]
    split
    · simp [hE.hinc, hE.hout]
    · rw [abs_counts]
  · intro e f
    show _ ↔ (g.abs.cutEnds (fun e => decide
      (e.1 = n ∧ (match e.2.1 with | .incoming => inc | .outgoing => out) ≤ e.2.2))).link e = some f
    have hdec : ∀ e : Endpoint, decide (e.1 = n ∧ (match e.2.1 with | .incoming => inc | .outgoing => out) ≤ e.2.2) =
        decide (Dropped n inc out e) := by
      rintro ⟨a, d, k⟩
      rw [decide_eq_decide]
      cases d <;> simp [Dropped, newCount]
    rw [AGraph.cutEnds_link, abs_link hI', hdec, hdec]
    simp only [decide_eq_false_iff_not]
    constructor
    · rintro ⟨p, q, ha, hl, hb⟩
      by_cases hh : g.abs.Has e
      · obtain ⟨hd, hex⟩ := hE.at_old hI hn ha
        obtain ⟨p0, hp0, rfl⟩ := hex hh
        rw [hE.link_old hI hI' hn hp0 hd, Option.map_eq_some_iff] at hl
        obtain ⟨q0, hq0, rfl⟩ := hl
        rw [droppedLk, cut_some (by rw [hp0.port hI]; rfl)] at hq0
        simp only [decide_eq_false_iff_not] at hq0
        obtain ⟨-, n', hq'⟩ := lk_at hI (hp0.port hI) hq0.1
        obtain ⟨m', hm', -, hat⟩ := port_at hI hq'
        have hnd : ¬ Dropped n inc out (n', e.2.1.reverse, q0 - m'.start e.2.1.reverse) := by
          rw [← mem_dropped hI hn hat]; exact hq0.2.2
        have := hb.inj hI' (hE.shift_at hI hn hat hnd)
        subst this
        exact ⟨(abs_link hI).2 ⟨p0, q0, hp0, hq0.1, hat⟩, hd, hnd⟩
      · rw [hE.link_new hI' hn ha hh] at hl; simp at hl
    · rintro ⟨hl, he, hf⟩
      obtain ⟨p, q, ha, hl, hb⟩ := (abs_link hI).1 hl
      refine ⟨_, _, hE.shift_at hI hn ha he, ?_, hE.shift_at hI hn hb hf⟩
      rw [hE.link_old hI hI' hn ha he]
      have : droppedLk g m inc out p = some q := by
        rw [droppedLk, cut_some (by rw [ha.port hI]; rfl)]
        simp only [decide_eq_false_iff_not]
        exact ⟨hl, by rwa [mem_dropped hI hn ha], by rwa [mem_dropped hI hn hb]⟩
      rw [this]; rfl

/-! ### Following the callbacks -/

theorem track_append (l l' : List (Nat × PortOp)) (p) :
    PG.track (l ++ l') p = (PG.track l p).bind (PG.track l') := by
  induction l generalizing p with
  | nil => rfl
  | cons x l ih =>
    obtain ⟨q, op⟩ := x
    cases op with
    | moved r =>
      simp only [List.cons_append, PG.track]
      split <;> rw [ih]
    | removed o =>
      simp only [List.cons_append, PG.track]
      split
      · rfl
      · rw [ih]

theorem track_removed {l : List (Nat × PortOp)} (h : ∀ x ∈ l, ∃ o, x.2 = .removed o) (p) :
    PG.track l p = if p ∈ l.map (·.1) then none else some p := by
  induction l with
  | nil => rfl
  | cons x l ih =>
    obtain ⟨q, op⟩ := x
    obtain ⟨o, ho⟩ := h _ (List.mem_cons_self ..)
    simp only at ho; subst ho
    simp only [PG.track, List.map_cons, List.mem_cons]
    rw [ih fun y hy => h y (List.mem_cons_of_mem _ hy)]
    by_cases h1 : p = q
    · simp [h1]
    · rw [if_neg h1]; simp only [h1, false_or]

theorem track_moved_not {l : List (Nat × Nat)} {p} (h : ∀ x ∈ l, x.1 ≠ p) :
    PG.track (l.map fun x => (x.1, .moved x.2)) p = some p := by
  induction l with
  | nil => rfl
  | cons x l ih =>
    have := h x (List.mem_cons_self ..)
    simp only [List.map_cons, PG.track]
    rw [if_neg (Ne.symm this), ih fun y hy => h y (List.mem_cons_of_mem _ hy)]

theorem track_moved {l : List (Nat × Nat)} {p r} (hpw : l.Pairwise fun x y => x.1 ≠ y.1 ∧ x.2 ≠ y.1)
    (h : (p, r) ∈ l) : PG.track (l.map fun x => (x.1, .moved x.2)) p = some r := by
  induction l with
  | nil => simp at h
  | cons x l ih =>
    obtain ⟨h1, h2⟩ := List.pairwise_cons.1 hpw
    simp only [List.map_cons, PG.track]
    rcases List.mem_cons.1 h with h3 | h3
    · subst h3
      rw [if_pos rfl]
      exact track_moved_not fun y hy => Ne.symm (h1 y hy).2
    · rw [if_neg (Ne.symm (h1 _ h3).1), ih h2 h3]

theorem mem_zip_ports {m nm : NodeMeta} {d p r} : (p, r) ∈ (m.ports d).zip (nm.ports d) ↔
    ∃ k, k < m.numPorts d ∧ k < nm.numPorts d ∧ p = m.start d + k ∧ r = nm.start d + k := by
  simp only [NodeMeta.ports]
  rw [List.mem_iff_getElem?]
  constructor
  · rintro ⟨k, hk⟩
    rw [List.getElem?_zip_eq_some, List.getElem?_eq_some_iff, List.getElem?_eq_some_iff] at hk
    obtain ⟨⟨h1, h2⟩, h3, h4⟩ := hk
    simp at h1 h2 h3 h4
    exact ⟨k, h1, h3, h2.symm, h4.symm⟩
  · rintro ⟨k, h1, h2, rfl, rfl⟩
    refine ⟨k, ?_⟩
    rw [List.getElem?_zip_eq_some, List.getElem?_eq_some_iff, List.getElem?_eq_some_iff]
    simp [h1, h2]

theorem pairwise_zip_ports {m nm : NodeMeta} {d} (h : nm.start d ≤ m.start d) :
    ((m.ports d).zip (nm.ports d)).Pairwise fun x y => x.1 ≠ y.1 ∧ x.2 ≠ y.1 := by
  rw [List.pairwise_iff_getElem]
  intro i j hi hj hij
  simp [NodeMeta.ports]
  omega

theorem pairwise_zip_ports_rev {m nm : NodeMeta} {d} (h : m.start d ≤ nm.start d) :
    ((m.ports d).zip (nm.ports d)).reverse.Pairwise fun x y => x.1 ≠ y.1 ∧ x.2 ≠ y.1 := by
  rw [List.pairwise_reverse, List.pairwise_iff_getElem]
  intro i j hi hj hij
  simp [NodeMeta.ports]
  omega

theorem has_of_zip {m nm : NodeMeta} {d x} (h : x ∈ (m.ports d).zip (nm.ports d)) :
    m.has d x.1 = true ∧ nm.has d x.2 = true := by
  obtain ⟨k, h1, h2, h3, h4⟩ := (mem_zip_ports (p := x.1) (r := x.2)).1 h
  exact ⟨NodeMeta.has_iff.2 ⟨by omega, by omega⟩, NodeMeta.has_iff.2 ⟨by omega, by omega⟩⟩

/-- Following the moves. -/
theorem MoveTrace.track {tr} (h : MoveTrace m nm tr) {p : Nat} (hs : ∀ d, m.has d p = true → p - m.start d < nm.numPorts d) :
    PG.track tr p = some (shift m nm p) := by
  have hno : (∀ d, m.has d p = false) ∨ ∃ d, m.has d p = true := by
    by_cases h : ∃ d, m.has d p = true
    · exact Or.inr h
    · left; intro d
      cases e : m.has d p with
      | false => rfl
      | true => exact absurd ⟨d, e⟩ h
  have hval : ∀ d, m.has d p = true → shift m nm p = nm.start d + (p - m.start d) ∧
      (p, shift m nm p) ∈ (m.ports d).zip (nm.ports d) := by
    intro d hd
    have e : shift m nm p = nm.start d + (p - m.start d) := by
      cases d with
      | incoming => rw [shift, if_pos hd]
      | outgoing => rw [shift, if_neg (by rw [NodeMeta.has_disj hd]; simp), if_pos hd]
    refine ⟨e, mem_zip_ports.2 ⟨p - m.start d, ?_, hs d hd, ?_, e⟩⟩ <;> have := NodeMeta.has_iff.1 hd <;> omega
  rcases h with ⟨hdisj, rfl⟩ | ⟨hf, ⟨hlt, rfl⟩ | ⟨hle, rfl⟩⟩
  · rcases hno with hno | ⟨d, hd⟩
    · rw [track_moved_not, shift]
      · simp [hno]
      · intro x hx hc
        rcases List.mem_append.1 hx with hx | hx
        · have := (has_of_zip hx).1; rw [hc, hno] at this; simp at this
        · have := (has_of_zip hx).1; rw [hc, hno] at this; simp at this
    · apply track_moved
      · rw [List.pairwise_append]
        have hpw : ∀ d, ((m.ports d).zip (nm.ports d)).Pairwise fun x y => x.1 ≠ y.1 ∧ x.2 ≠ y.1 := by
          intro d
          rw [List.pairwise_iff_getElem]
          intro i j hi hj hij
          constructor
          · simp [NodeMeta.ports]; omega
          · intro hc
            have h1 := (has_of_zip (List.getElem_mem hj)).1
            have h2 := (has_of_zip (List.getElem_mem hi)).2
            rw [hc, hdisj _ _ _ h1] at h2; simp at h2
        refine ⟨hpw _, hpw _, ?_⟩
        intro x hx y hy
        have h1 := has_of_zip hx
        have h2 := has_of_zip hy
        constructor
        · intro hc; rw [hc] at h1
          have := NodeMeta.has_unique h1.1 h2.1; simp at this
        · intro hc; rw [hc, hdisj _ _ _ h2.1] at h1; simp at h1
      · rw [List.mem_append]
        cases d
        · left; exact (hval _ hd).2
        · right; exact (hval _ hd).2
  all_goals
    have hst : nm.start .incoming = m.start .incoming := by simp [NodeMeta.start, hf]
    by_cases hd : m.has .outgoing p = true
  · apply track_moved
    · apply pairwise_zip_ports; simp only [NodeMeta.start]; omega
    · exact (hval _ hd).2
  · rw [track_moved_not]
    · simp only [Bool.not_eq_true] at hd
      simp only [shift, hd]
      split
      · rename_i hi
        have := NodeMeta.has_iff.1 hi
        congr 1; omega
      · simp
    · intro x hx hc
      exact hd (hc ▸ (has_of_zip hx).1)
  · apply track_moved
    · apply pairwise_zip_ports_rev; simp only [NodeMeta.start]; omega
    · rw [List.mem_reverse]; exact (hval _ hd).2
  · rw [track_moved_not]
    · simp only [Bool.not_eq_true] at hd
      simp only [shift, hd]
      split
      · rename_i hi
        have := NodeMeta.has_iff.1 hi
        congr 1; omega
      · simp
    · intro x hx hc
      rw [List.mem_reverse] at hx
      exact hd (hc ▸ (has_of_zip hx).1)

theorem DropTrace.length {tr} (h : DropTrace g m inc out tr) : tr.map (·.1) = PG.droppedPorts m inc out := by
  apply List.ext_getElem?
  intro i
  rw [List.getElem?_map, h i]
  cases (PG.droppedPorts m inc out)[i]? <;> rfl

theorem DropTrace.all {tr} (h : DropTrace g m inc out tr) : ∀ x ∈ tr, ∃ o, x.2 = .removed o := by
  intro x hx
  obtain ⟨i, hi⟩ := List.mem_iff_getElem?.1 hx
  rw [h i, Option.map_eq_some_iff] at hi
  obtain ⟨p, -, rfl⟩ := hi
  exact ⟨_, rfl⟩

/-- Following the whole trace. -/
theorem track_resize (hE : ResizeEffect g g' n inc out m nm) (hI : Inv g) (hn : g.node? n = some m)
    {tr1 tr2} (h1 : DropTrace g m inc out tr1) (h2 : MoveTrace m nm tr2) {p e} (hp : At g p e) :
    PG.track (tr1 ++ tr2) p = g'.portIndex e.1 e.2.1 e.2.2 := by
  rw [track_append, track_removed h1.all, h1.length]
  obtain ⟨n', d, k⟩ := e
  by_cases hd : Dropped n inc out (n', d, k)
  · rw [if_pos ((mem_dropped hI hn hp).2 hd)]
    symm
    simp only [Option.bind_none]
    rw [Option.eq_none_iff_forall_ne_some]
    intro q hq
    exact (hE.at_old hI hn (at_index.1 hq)).1 hd
  · rw [if_neg (by rwa [mem_dropped hI hn hp])]
    simp only [Option.bind_some]
    rw [h2.track]
    · exact (at_index.2 (hE.shift_at hI hn hp hd)).symm
    · intro d' hd'
      have hnn := (has_iff_node hI hn hp).1 ⟨d', hd'⟩
      simp only at hnn; subst hnn
      obtain ⟨a, b⟩ := (at_node hn).1 hp
      have hdd : m.has d p = true := NodeMeta.has_iff.2 ⟨by omega, by omega⟩
      have := NodeMeta.has_unique hd' hdd; subst this
      simp only [Dropped, true_and] at hd
      rw [hE.count]; omega

end Verif.PG
