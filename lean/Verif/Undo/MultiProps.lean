import Verif.Undo.Exact
import Verif.Undo.MultiSpec
import Verif.Multi.Props

/-!
# C69 Undoing and reordering calls on a multigraph
-/

namespace Verif.Undo

open Verif.PG Verif.Multi Verif.View

variable {maxOff : Nat} {m : MG}

/-! ## Lemmas -/

/-- A link between subports is a link between flat ports, and undone by `unlink_subport`. -/
theorem link_subs (h : MOk m) {i j : Nat} {e f : Subport} (hi : Sub m i e) (hj : Sub m j f) {r : Nat × Nat} {g' : PG}
    (hl : m.graph.linkPorts i j = some (.ok r, g')) (h' : MOk { m with graph := g' })
    (hs : ∀ q z, Sub { m with graph := g' } q z ↔ Sub m q z) :
    ({ m with graph := g' } : MG).unlinkSubport e = some (some f, m) ∧
    ({ m with graph := g' } : MG).unlinkSubport f = some (some e, m) := by
  obtain ⟨h1, h2⟩ := link_unlink h.inv hl
  constructor
  · unfold MG.unlinkSubport
    rw [h'.index_eq ((hs _ _).2 hi)]
    simp only
    rw [h1]
    simp only
    rw [show ({ m with graph := m.graph } : MG) = m from rfl, h.fromIndex_eq hj]
    rfl
  · unfold MG.unlinkSubport
    rw [h'.index_eq ((hs _ _).2 hj)]
    simp only
    rw [h2]
    simp only
    rw [show ({ m with graph := m.graph } : MG) = m from rfl, h.fromIndex_eq hi]
    rfl

/-- The answer for subports. -/
def named (m : MG) : LinkRes → SubRes
  | .link (.ok _) => .link (.ok ())
  | .link (.error er) => .link (.error er)
  | .unlink none => .unlink none
  | .unlink (some l) => .unlink ((m.fromIndex l).join)

/-- The call on the flat ports behind the subports. -/
theorem flat_call (h : MOk m) (c : SubCall) (hc : ∀ e ∈ c.names, m.obs.sub e) : ∃ c' : LinkCall,
    (∀ x, c'.touches m.graph x → ∃ z, Sub m x z ∧ c.touches m.obs z) ∧
    ∀ k : MG, MOk k → (∀ q z, Sub k q z ↔ Sub m q z) → ∃ r g', c'.call k.graph = some (r, g') ∧
      c.call k = some (named m r, { k with graph := g' }) ∧ MOk { k with graph := g' } ∧
      ∀ q z, Sub { k with graph := g' } q z ↔ Sub m q z := by
  cases c with
  | link e f =>
    obtain ⟨i, hi⟩ := (obs_sub h).1 (hc e (by simp [SubCall.names]))
    obtain ⟨j, hj⟩ := (obs_sub h).1 (hc f (by simp [SubCall.names]))
    refine ⟨.link i j, ?_, ?_⟩
    · rintro x (rfl | rfl)
      · exact ⟨e, hi, .inl rfl⟩
      · exact ⟨f, hj, .inr rfl⟩
    · intro k hk hs
      obtain ⟨r, k', h1, h2, -, -, h3, -⟩ := linkSubports_eff hk ((hs _ _).2 hi) ((hs _ _).2 hj)
      have h1' := h1
      unfold MG.linkSubports at h1
      rw [hk.index_eq ((hs _ _).2 hi), hk.index_eq ((hs _ _).2 hj)] at h1
      simp only [Option.map_eq_some_iff] at h1
      obtain ⟨⟨x, g'⟩, h4, h5⟩ := h1
      simp only [Prod.mk.injEq] at h5
      obtain ⟨rfl, rfl⟩ := h5
      refine ⟨.link x, g', ?_, ?_, h2, fun q z => by rw [h3, hs]⟩
      · simp [LinkCall.call, h4]
      · simp only [SubCall.call, h1', Option.map_some]
        cases x <;> rfl
  | unlink e =>
    obtain ⟨i, hi⟩ := (obs_sub h).1 (hc e (by simp [SubCall.names]))
    refine ⟨.unlink i, ?_, ?_⟩
    · rintro x (rfl | hx)
      · exact ⟨e, hi, .inl rfl⟩
      · obtain ⟨f, hf⟩ := h.lk_sub (show Lk m.graph i x from hx) (h.sub_flag hi) (by simp)
        exact ⟨f, hf, .inr ((obs_link h).2 ⟨i, x, hi, hf, hx⟩)⟩
    · intro k hk hs
      obtain ⟨r, k', h1, h2, -, -, h3, -⟩ := unlinkSubport_eff hk ((hs _ _).2 hi)
      have h1' := h1
      unfold MG.unlinkSubport at h1
      rw [hk.index_eq ((hs _ _).2 hi)] at h1
      simp only at h1
      split at h1
      · cases h1
      · rename_i g' h4
        simp only [Option.some.injEq, Prod.mk.injEq] at h1
        obtain ⟨rfl, rfl⟩ := h1
        refine ⟨.unlink none, g', by simp [LinkCall.call, h4], by simp [SubCall.call, h1', named], h2, fun q z => by rw [h3, hs]⟩
      · rename_i l g' h4
        obtain ⟨r0, h5, h6⟩ := Option.map_eq_some_iff.1 h1
        simp only [Prod.mk.injEq] at h6
        obtain ⟨rfl, rfl⟩ := h6
        refine ⟨.unlink (some l), g', by simp [LinkCall.call, h4], ?_, h2, fun q z => by rw [h3, hs]⟩
        obtain ⟨n, d, k0, hat, -⟩ := (hs _ _).2 hi
        have hkl : Lk k.graph i l := by
          obtain ⟨g2, h7, -⟩ := unlink_flat hk.inv hat
          rw [h4] at h7
          simp only [Option.some.injEq, Prod.mk.injEq] at h7
          unfold Lk
          rw [unlinked hk.inv hat, ← h7.1]
        obtain ⟨f, hf⟩ := hk.lk_sub hkl (hk.sub_flag ((hs _ _).2 hi)) (by simp)
        rw [h2.fromIndex_eq ((h3 _ _).2 hf)] at h5
        cases h5
        simp only [SubCall.call, h1', Option.map_some, named]
        rw [h.fromIndex_eq ((hs _ _).1 hf)]
        rfl

/-! ## C69 -/

/-- **C69** `unlink_subport`, at either end, undoes `link_subports` exactly. -/
theorem C69_link_unlink (h2m : 2 ≤ maxOff) (hmax : maxOff ≤ 32767) (h : MReach maxOff m) {e f : Subport} {m1 : MG}
    (he : m.obs.sub e) (hf : m.obs.sub f) (hl : m.linkSubports e f = some (.ok (), m1)) :
    m1.unlinkSubport e = some (some f, m) ∧ m1.unlinkSubport f = some (some e, m) := by
  have hM := h.ok h2m hmax
  obtain ⟨i, hi⟩ := (obs_sub hM).1 he
  obtain ⟨j, hj⟩ := (obs_sub hM).1 hf
  obtain ⟨r, m', h1, h2, -, -, h3, -⟩ := linkSubports_eff hM hi hj
  rw [hl] at h1
  simp only [Option.some.injEq, Prod.mk.injEq] at h1
  obtain ⟨rfl, rfl⟩ := h1
  unfold MG.linkSubports at hl
  rw [hM.index_eq hi, hM.index_eq hj] at hl
  simp only [Option.map_eq_some_iff] at hl
  obtain ⟨⟨x, g'⟩, h4, h5⟩ := hl
  simp only [Prod.mk.injEq] at h5
  obtain ⟨h5, rfl⟩ := h5
  cases x with
  | error er => simp [Except.map] at h5
  | ok x => exact link_subs hM hi hj h4 h2 h3

/-- **C69** `link_subports` of the two ends, in either order, undoes `unlink_subport` exactly. -/
theorem C69_unlink_link (h2m : 2 ≤ maxOff) (hmax : maxOff ≤ 32767) (h : MReach maxOff m) {e f : Subport} {m1 : MG}
    (he : m.obs.sub e) (hl : m.unlinkSubport e = some (some f, m1)) :
    m1.linkSubports e f = some (.ok (), m) ∧ m1.linkSubports f e = some (.ok (), m) := by
  have hM := h.ok h2m hmax
  obtain ⟨i, hi⟩ := (obs_sub hM).1 he
  obtain ⟨r, m', h1, h2, -, -, h3, -, h4⟩ := unlinkSubport_eff hM hi
  rw [hl] at h1
  simp only [Option.some.injEq, Prod.mk.injEq] at h1
  obtain ⟨rfl, rfl⟩ := h1
  obtain ⟨i', j, h5, hj, h6⟩ := (h4 f).1 rfl
  obtain rfl := hM.sub_inj hi h5
  unfold MG.unlinkSubport at hl
  rw [hM.index_eq hi] at hl
  simp only at hl
  split at hl
  · cases hl
  · simp at hl
  · rename_i l g' h7
    obtain ⟨r0, h8, h9⟩ := Option.map_eq_some_iff.1 hl
    simp only [Prod.mk.injEq] at h9
    obtain ⟨-, rfl⟩ := h9
    obtain ⟨n, d, k, hat, -⟩ := id hi
    have hlj : l = j := by
      obtain ⟨g2, h10, -⟩ := unlink_flat hM.inv hat
      rw [h7] at h10
      simp only [Option.some.injEq, Prod.mk.injEq] at h10
      have := ((lk_iff hM.inv).1 h6).2
      rw [← h10.1] at this
      exact Option.some.inj this
    subst hlj
    obtain ⟨h10, h11⟩ := unlink_link hM.inv h7
    constructor
    · unfold MG.linkSubports
      rw [h2.index_eq ((h3 _ _).2 hi), h2.index_eq ((h3 _ _).2 hj)]
      simp only [h10]
      rfl
    · unfold MG.linkSubports
      rw [h2.index_eq ((h3 _ _).2 hi), h2.index_eq ((h3 _ _).2 hj)]
      simp only [h11]
      rfl

/-- **C69** `unlink_subport` of an end of the link that `link_ports` made removes that link; nothing
is left but the subports that were added for it. A second `link_ports` takes the same subports and
leads to exactly the same state. -/
theorem C69_link_ports (h2m : 2 ≤ maxOff) (hmax : maxOff ≤ 32767) (h : MReach maxOff m) {a b : Nat}
    (hok : (MOp.linkPorts a b).ok maxOff m) {e f : Subport} {m1 : MG}
    (hl : m.linkPorts maxOff a b = some (.ok (e, f), m1)) :
    ∃ m2, m1.unlinkSubport e = some (some f, m2) ∧ m1.unlinkSubport f = some (some e, m2) ∧
      m.obs.SameNodes m2.obs ∧ m.obs.SamePorts m2.obs ∧ m.obs.SameLinks m2.obs ∧
      (∀ z, m2.obs.sub z ↔ m.obs.sub z ∨ z = e ∨ z = f) ∧ m2.linkPorts maxOff a b = some (.ok (e, f), m1) := by
  have hM := h.ok h2m hmax
  obtain ⟨ha', hb', hra, hrb⟩ := hok
  obtain ⟨x, ha⟩ := (port_vat hM).1 ha'
  obtain ⟨y, hb⟩ := (port_vat hM).1 hb'
  have hd : x.2.1 ≠ y.2.1 := by
    intro hd
    obtain ⟨i, j, m', h1, -⟩ := linkPorts_same hM h2m hmax ha hb (room_of hM hra) (room_of hM hrb) hd
    rw [hl] at h1; cases h1
  obtain ⟨e0, f0, m0, q1, -, -, -, -, -, -, -, -, -, -, q2⟩ := linkPorts_eff hM h2m hmax ha hb (room_of hM hra) (room_of hM hrb) hd
  rw [hl] at q1
  simp only [Option.some.injEq, Prod.mk.injEq, Except.ok.injEq] at q1
  obtain ⟨⟨rfl, rfl⟩, rfl⟩ := q1
  have hab : a ≠ b := by
    rintro rfl
    exact hd (by rw [ha.1.inj hM.inv hb.1])
  obtain ⟨e', i, m1', h1, F1⟩ := getFree_eff hM h2m hmax ha (room_of hM hra)
  obtain ⟨f', j, m2, h2, F2⟩ := getFree_eff F1.ok h2m hmax ((F1.at_iff _ _).2 hb) (F1.room (Ne.symm hab) (room_of hM hrb))
  have hea : e'.1 ≠ b := by rw [F1.port]; exact hab
  have hi2 : Sub m2 i e' := (F2.subs i e' hea).2 F1.sub
  have hif := F2.frees i e' hea F1.sub F1.free
  have hl' := hl
  unfold MG.linkPorts at hl
  rw [h1] at hl
  simp only at hl
  rw [h2] at hl
  simp only at hl
  split at hl
  · cases hl
  · simp at hl
  · rename_i r g' h3
    simp only [Option.some.injEq, Prod.mk.injEq, Except.ok.injEq] at hl
    obtain ⟨⟨rfl, rfl⟩, rfl⟩ := hl
    have hdir : m2.graph.portDirection i ≠ m2.graph.portDirection j := by
      obtain ⟨n1, c1, d1, k1, l1, a1, a2, a3⟩ := F2.ok.sub_vis hi2
      obtain ⟨n2, c2, d2, k2, l2, b1, b2, b3⟩ := F2.ok.sub_vis F2.sub
      rw [At.portDirection F2.ok.inv a3, At.portDirection F2.ok.inv b3]
      rw [F1.port] at a1
      rw [F2.port] at b1
      rw [((F1.at_iff _ _).1 ((F2.at_iff _ _).1 ⟨a1, a2⟩)).1.inj hM.inv ha.1 |>.symm,
        ((F1.at_iff _ _).1 ((F2.at_iff _ _).1 ⟨b1, b2⟩)).1.inj hM.inv hb.1 |>.symm] at hd
      simpa using hd
    obtain ⟨g2, c1, c2, c3, c4, c5⟩ := link_sub F2.ok hi2 F2.sub hdir hif F2.free
    rw [h3] at c1
    simp only [Option.some.injEq, Prod.mk.injEq] at c1
    obtain ⟨-, rfl⟩ := c1
    obtain ⟨u1, u2⟩ := link_subs F2.ok hi2 F2.sub h3 c2 c4
    refine ⟨m2, u1, u2, ?_, ?_, ?_, ?_, ?_⟩
    · exact sameNodes fun x => by rw [F2.node, F1.node]
    · exact samePorts hM F2.ok fun q f => by rw [F2.at_iff, F1.at_iff]
    · exact sameLinks hM F2.ok fun z w => by rw [F2.shows, F1.shows]
    · intro z
      rw [obs_sub F2.ok, obs_sub hM, ← q2 z]
      exact exists_congr fun q => (c4 q z).symm
    · have va : VAt m2 a x := (F2.at_iff _ _).2 ((F1.at_iff _ _).2 ha)
      have vb : VAt m2 b y := (F2.at_iff _ _).2 ((F1.at_iff _ _).2 hb)
      have g1 := getFree_found (maxOff := maxOff) F2.ok va F1.port hi2 hif (by
        intro k hk
        obtain ⟨y, hy⟩ := F1.least k hk
        exact ⟨y, by rw [F2.shows, F1.shows]; exact hy⟩)
      have g2 := getFree_found (maxOff := maxOff) F2.ok vb F2.port F2.sub F2.free (by
        intro k hk
        obtain ⟨y, hy⟩ := F2.least k hk
        exact ⟨y, by rw [F2.shows]; exact hy⟩)
      unfold MG.linkPorts
      rw [g1]
      simp only
      rw [g2]
      simp only
      rw [h3]

/-- **C69** `remove_node` after `add_node`: the same multigraph as before is shown. -/
theorem C69_add_remove (h2m : 2 ≤ maxOff) (hmax : maxOff ≤ 32767) (h : MReach maxOff m) {i o n : Nat} {m1 : MG}
    (hi : i ≤ maxOff) (ho : o ≤ maxOff) (ha : m.addNode maxOff i o = some (n, m1)) :
    ∃ m2, m1.removeNode n = some m2 ∧ SameObs m.obs m2.obs := by
  have hW := obs_wf (h.ok h2m hmax)
  obtain ⟨r, m', h1, h2, h3⟩ := C39_calls_partial h2m hmax h (op := .addNode i o) ⟨hi, ho⟩
  simp only [MG.step, ha, Option.map_some, Option.some.injEq, Prod.mk.injEq] at h1
  obtain ⟨rfl, rfl⟩ := h1
  obtain ⟨a1, a2, a3, a4, a5, a6, a7⟩ := h2
  obtain ⟨r, m2, b1, b2, b3⟩ := C39_calls_partial h2m hmax h3 (op := .removeNode n) (.inl ((a2 n).2 (.inl rfl)))
  obtain ⟨m2', b4, b5⟩ := Option.map_eq_some_iff.1 b1
  obtain ⟨rfl, rfl⟩ := Prod.mk.inj b5
  obtain ⟨c1, c2, c3, c4⟩ := b2
  have hn : ∀ p e, m.obs.pos p e → e.1 ≠ n := fun p e hp hc => a1 (hc ▸ hW.pos_node p e hp)
  have hW1 := obs_wf (h3.ok h2m hmax)
  have old : ∀ z, m.obs.sub z → ∀ x, m1.obs.pos z.1 x → x.1 ≠ n := by
    intro z hz x hx
    obtain ⟨y, hy⟩ := hW.sub_port z hz
    rw [hW1.pos_fun _ _ _ hx ((a3 _ _ (hn _ _ hy)).2 hy)]
    exact hn _ _ hy
  refine ⟨m2', b4, ?_, ?_, ?_, ?_⟩
  · intro x
    rw [c1, a2]
    constructor
    · rintro ⟨rfl | hx, hne⟩
      · exact absurd rfl hne
      · exact hx
    · intro hx
      exact ⟨.inr hx, by rintro rfl; exact a1 hx⟩
  · intro p e
    rw [c2]
    constructor
    · rintro ⟨hp, hne⟩; exact (a3 p e hne).1 hp
    · intro hp; exact ⟨(a3 p e (hn p e hp)).2 hp, hn p e hp⟩
  · intro e f
    rw [c3, a6]
    refine ⟨fun hx => hx.1, fun hx => ⟨hx, old _ (hW.link_sub e f hx), old _ (hW.link_sub f e (hW.link_sym e f hx))⟩⟩
  · intro z
    rw [c4, a7]
    constructor
    · rintro ⟨hz | ⟨-, d, k, hp⟩, hx⟩
      · exact hz
      · exact absurd rfl (hx _ hp)
    · intro hz; exact ⟨.inl hz, old z hz⟩

/-- **C69** `swap_nodes` twice restores the state exactly. -/
theorem C69_swap_nodes (h2m : 2 ≤ maxOff) (hmax : maxOff ≤ 32767) (h : MReach maxOff m) {a b : Nat}
    (ha : m.containsNode a = true) (hb : m.containsNode b = true) :
    ∃ m1, m.swapNodes a b = some m1 ∧ m1.swapNodes a b = some m := by
  have hM := h.ok h2m hmax
  obtain ⟨a1, a2⟩ := contains_iff.1 ha
  obtain ⟨b1, b2⟩ := contains_iff.1 hb
  obtain ⟨g1, h1, h2⟩ := swap_nodes_twice hM.inv a1 b1
  have hsw : swapFlag m.copy a b = m.copy := by
    funext x; unfold swapFlag
    split
    · rename_i h; rw [h, a2, b2]
    · split
      · rename_i h; rw [h, a2, b2]
      · rfl
  refine ⟨{ m with graph := g1 }, ?_, ?_⟩
  · unfold MG.swapNodes
    rw [h1, hsw]; rfl
  · unfold MG.swapNodes
    simp only [h2, hsw]
    rfl

/-- **C69** Two calls of `link_subports` or `unlink_subport` that touch different subports give the
same answers and exactly the same state in either order. -/
theorem C69_commute (h2m : 2 ≤ maxOff) (hmax : maxOff ≤ 32767) (h : MReach maxOff m) (c c' : SubCall)
    (hc : ∀ e ∈ c.names, m.obs.sub e) (hc' : ∀ e ∈ c'.names, m.obs.sub e)
    (hdis : ∀ z, ¬ (c.touches m.obs z ∧ c'.touches m.obs z)) :
    ∃ r r' m1 k1 m2, c.call m = some (r, m1) ∧ c'.call m1 = some (r', m2) ∧ c'.call m = some (r', k1) ∧ c.call k1 = some (r, m2) := by
  have hM := h.ok h2m hmax
  obtain ⟨d, t, w⟩ := flat_call hM c hc
  obtain ⟨d', t', w'⟩ := flat_call hM c' hc'
  obtain ⟨r, r', g1, k1, g2, e1, e2, e3, e4⟩ := link_calls hM.inv d d' (by
    rintro x ⟨hx, hx'⟩
    obtain ⟨z, hz, h1⟩ := t x hx
    obtain ⟨z', hz', h2⟩ := t' x hx'
    obtain rfl := hM.sub_fun hz hz'
    exact hdis z ⟨h1, h2⟩)
  obtain ⟨s1, f1, a1, a2, a3, a4⟩ := w m hM fun _ _ => Iff.rfl
  rw [e1] at a1; cases a1
  obtain ⟨s2, f2, b1, b2, -⟩ := w' _ a3 a4
  rw [e2] at b1; cases b1
  obtain ⟨s3, f3, c1, c2, c3, c4⟩ := w' m hM fun _ _ => Iff.rfl
  rw [e3] at c1; cases c1
  obtain ⟨s4, f4, d1, d2, -⟩ := w _ c3 c4
  rw [e4] at d1; cases d1
  exact ⟨_, _, _, _, _, a2, b2, c2, d2⟩

/-! ## The hypotheses hold, and where they are needed -/

/-- `exM` after `unlink_subport((0, 1))`. -/
def exU : MG := built [.addNode 0 1, .addNode 1 1, .addNode 2 0, .linkPorts 0 1, .linkPorts 0 3, .linkPorts 2 3, .linkPorts 0 1, .unlinkSubport (0, 1)]

example : MReach 32767 exM ∧ exM.obs.sub (0, 1) ∧ (exM.unlinkSubport (0, 1)).map (·.1) = some (some (3, 0)) :=
  ⟨built_reach _, ⟨by decide +kernel, [(0, 0), (0, 1), (0, 2)], by decide +kernel, by decide⟩, by decide +kernel⟩

example : MReach 32767 exU ∧ exU.obs.sub (0, 1) ∧ exU.obs.sub (4, 0) ∧
    (exU.linkSubports (0, 1) (4, 0)).map (fun x => x.1.isOk) = some true ∧
    (exU.linkSubports (0, 1) (4, 0)).bind (fun x => x.2.portLinks? 0) = some [((0, 0), (1, 0)), ((0, 1), (4, 0)), ((0, 2), (1, 1))] ∧
    (exU.linkSubports (0, 1) (4, 0)).bind (fun x => (x.2.unlinkSubport (4, 0)).map fun y => y.1) = some (some (0, 1)) :=
  ⟨built_reach _, ⟨by decide +kernel, [(0, 0), (0, 1), (0, 2)], by decide +kernel, by decide⟩,
    ⟨by decide +kernel, [(4, 0)], by decide +kernel, by decide⟩, by decide +kernel, by decide +kernel, by decide +kernel⟩

/-- The subport added by `link_ports(2, 4)` stays. -/
theorem C69_witness_subports : MReach 32767 exM ∧ exM.subportsAt? 2 = some [(2, 0)] ∧
    (exM.linkPorts 32767 2 4).map (fun x => x.1.toOption) = some (some ((2, 1), (4, 0))) ∧
    ((exM.linkPorts 32767 2 4).bind fun x => (x.2.unlinkSubport (2, 1)).map fun y => y.1) = some (some (4, 0)) ∧
    ((exM.linkPorts 32767 2 4).bind fun x => (x.2.unlinkSubport (2, 1)).bind fun y => y.2.portLinks? 2) = some [((2, 0), (3, 1))] ∧
    ((exM.linkPorts 32767 2 4).bind fun x => (x.2.unlinkSubport (2, 1)).bind fun y => y.2.subportsAt? 2) = some [(2, 0), (2, 1)] :=
  ⟨built_reach _, by decide +kernel, by decide +kernel, by decide +kernel, by decide +kernel, by decide +kernel⟩

example : (exM.addNode 32767 2 1).map (fun x => (x.1, (x.2.removeNode x.1).map fun m => (m.nodes, m.portsIter, m.linkCount))) =
    some (6, some (exM.nodes, exM.portsIter, exM.linkCount)) := by decide +kernel

example : exM.containsNode 0 = true ∧ exM.containsNode 2 = true ∧
    (exM.swapNodes 0 2).bind (fun m => m.links? 2 .outgoing) =
      some [((0, 0), (1, 0)), ((0, 1), (3, 0)), ((0, 2), (1, 1))] := ⟨by decide +kernel, by decide +kernel, by decide +kernel⟩

/-- `unlink_subport((0, 1))` and `unlink_subport((2, 0))` touch different subports. -/
example : (∀ e ∈ (SubCall.unlink (0, 1)).names, exM.obs.sub e) ∧ (∀ e ∈ (SubCall.unlink (2, 0)).names, exM.obs.sub e) ∧
    ∀ z, ¬ ((SubCall.unlink (0, 1)).touches exM.obs z ∧ (SubCall.unlink (2, 0)).touches exM.obs z) := by
  refine ⟨?_, ?_, ?_⟩
  · intro e he
    simp only [SubCall.names, List.mem_singleton] at he
    subst he
    exact ⟨by decide +kernel, [(0, 0), (0, 1), (0, 2)], by decide +kernel, by decide⟩
  · intro e he
    simp only [SubCall.names, List.mem_singleton] at he
    subst he
    exact ⟨by decide +kernel, [(2, 0)], by decide +kernel, by decide⟩
  · rintro z ⟨h1, h2⟩
    have l1 : exM.portLinks? 0 = some [((0, 0), (1, 0)), ((0, 1), (3, 0)), ((0, 2), (1, 1))] := by decide +kernel
    have l2 : exM.portLinks? 2 = some [((2, 0), (3, 1))] := by decide +kernel
    have a1 : z = (0, 1) ∨ z = (3, 0) := by
      rcases h1 with h1 | ⟨-, L, h3, h4⟩
      · exact .inl h1
      · rw [l1] at h3; cases h3; simp at h4; exact .inr h4
    have a2 : z = (2, 0) ∨ z = (3, 1) := by
      rcases h2 with h2 | ⟨-, L, h3, h4⟩
      · exact .inl h2
      · rw [l2] at h3; cases h3; simp at h4; exact .inr h4
    rcases a1 with rfl | rfl <;> simp at a2

/-- Calls of `link_ports` at the same port do not commute: which subports are linked depends on the
order. -/
theorem C69_witness_order : MReach 32767 exU ∧
    ((exU.linkPorts 32767 0 4).bind fun x => (x.2.linkPorts 32767 0 3).map fun y => y.2.portLinks? 0) =
      some (some [((0, 0), (1, 0)), ((0, 1), (4, 0)), ((0, 2), (1, 1)), ((0, 3), (3, 0))]) ∧
    ((exU.linkPorts 32767 0 3).bind fun x => (x.2.linkPorts 32767 0 4).map fun y => y.2.portLinks? 0) =
      some (some [((0, 0), (1, 0)), ((0, 1), (3, 0)), ((0, 2), (1, 1)), ((0, 3), (4, 0))]) :=
  ⟨built_reach _, by decide +kernel, by decide +kernel⟩

example := C69_link_unlink (by decide) (by decide) (built_reach _ : MReach 32767 exU) (e := (0, 1)) (f := (4, 0))
  (m1 := ((exU.linkSubports (0, 1) (4, 0)).getD (.ok (), exU)).2) ⟨by decide +kernel, [(0, 0), (0, 1), (0, 2)], by decide +kernel, by decide⟩
  ⟨by decide +kernel, [(4, 0)], by decide +kernel, by decide⟩ rfl

example := C69_unlink_link (by decide) (by decide) (built_reach _ : MReach 32767 exM) (e := (0, 1)) (f := (3, 0))
  (m1 := ((exM.unlinkSubport (0, 1)).getD (none, exM)).2) ⟨by decide +kernel, [(0, 0), (0, 1), (0, 2)], by decide +kernel, by decide⟩ rfl

example := C69_link_ports (by decide) (by decide) (built_reach _ : MReach 32767 exM) (a := 2) (b := 4) (check_ok (by decide +kernel))
  (e := (2, 1)) (f := (4, 0)) (m1 := ((exM.linkPorts 32767 2 4).getD (.ok ((0, 0), (0, 0)), exM)).2) rfl

example := C69_add_remove (by decide) (by decide) (built_reach _ : MReach 32767 exM) (i := 2) (o := 1) (n := 6)
  (m1 := ((exM.addNode 32767 2 1).getD (0, exM)).2) (by decide) (by decide) rfl

example := C69_swap_nodes (by decide) (by decide) (built_reach _ : MReach 32767 exM) (a := 0) (b := 2) (by decide +kernel) (by decide +kernel)

#print axioms C69_link_unlink
#print axioms C69_unlink_link
#print axioms C69_link_ports
#print axioms C69_add_remove
#print axioms C69_swap_nodes
#print axioms C69_commute
#print axioms C69_witness_subports
#print axioms C69_witness_order

end Verif.Undo
