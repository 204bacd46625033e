import Verif.Multi.Link

/-!
# Effects of `link_ports`, `link_subports` and `unlink_subport`
-/

namespace Verif.Multi

open Verif (Direction)
open Verif.PG Verif.View

variable {m : MG} {D : Nat → Prop}

/-- The least offset without link. -/
theorem find_free {g : PG} (hI : Inv g) {c s k : Nat} {d : Direction} :
    ((g.ports c d).zipIdx.find? fun x => g.portLink? x.1 == some none) = some (s, k) ↔
      At g s (c, d, k) ∧ (∀ q, ¬ Lk g s q) ∧ ∀ j q, j < k → At g q (c, d, j) → ∃ r, Lk g q r := by
  have hfree : ∀ q j, At g q (c, d, j) → ((g.portLink? q == some none) = true ↔ ∀ r, ¬ Lk g q r) := by
    intro q j hq
    rw [beq_iff_eq, no_link hI hq]
  rw [List.find?_eq_some_iff_getElem]
  constructor
  · rintro ⟨h1, i, hi, h2, h3⟩
    simp only [List.getElem_zipIdx, Nat.zero_add, Prod.mk.injEq] at h2
    obtain ⟨h2, rfl⟩ := h2
    have hs : At g s (c, d, i) := getElem?_ports.1 (by
      rw [← h2]; exact List.getElem?_eq_getElem _)
    refine ⟨hs, (hfree s i hs).1 h1, ?_⟩
    intro j q hj hq
    have h4 := h3 j hj
    have h5 := getElem?_ports.2 hq
    obtain ⟨h6, h7⟩ := List.getElem?_eq_some_iff.1 h5
    simp only [List.getElem_zipIdx, h7] at h4
    apply Classical.byContradiction
    intro hc
    have := (hfree q j hq).2 (by intro r hr; exact hc ⟨r, hr⟩)
    simp only [this] at h4
    cases h4
  · rintro ⟨h1, h2, h3⟩
    refine ⟨(hfree s k h1).2 h2, ?_⟩
    obtain ⟨h6, h7⟩ := List.getElem?_eq_some_iff.1 (getElem?_ports.2 h1)
    refine ⟨k, by simpa using h6, by simp [h7], ?_⟩
    intro j hj
    have hj' : j < (g.ports c d).length := by omega
    have h8 : At g (g.ports c d)[j] (c, d, j) := getElem?_ports.1 (List.getElem?_eq_getElem hj')
    obtain ⟨r, hr⟩ := h3 j _ hj h8
    simp only [List.getElem_zipIdx]
    cases hc : (g.portLink? (g.ports c d)[j] == some none) with
    | false => rfl
    | true => exact absurd hr ((hfree _ j h8).1 hc r)

/-- A subport `(p, j)` is linked iff it shows a link. -/
theorem lk_shows (h : MOk m) {q : Nat} {e : Subport} (hs : Sub m q e) :
    (∃ r, Lk m.graph q r) ↔ ∃ y, ShowsR m e y := by
  constructor
  · rintro ⟨r, hr⟩
    obtain ⟨y, hy⟩ := h.lk_sub hr (h.sub_flag hs) (by simp)
    exact ⟨y, q, r, hs, hy, hr⟩
  · rintro ⟨y, q', r, h1, h2, h3⟩
    obtain rfl := h.sub_inj hs h1
    exact ⟨r, h3⟩

/-- When a subport of the port is free, the first one is chosen and nothing changes. -/
theorem getFree_found (h : MOk m) {maxOff p s : Nat} {e : Subport} {x : Endpoint} (hp : VAt m p x) (he : e.1 = p)
    (hs : Sub m s e) (hfree : ∀ q, ¬ Lk m.graph s q) (hleast : ∀ k, k < e.2 → ∃ y, ShowsR m (p, k) y) :
    m.getFree maxOff p = some (.ok (e, s), m) := by
  obtain ⟨n, d, k⟩ := x
  obtain ⟨p', j⟩ := e
  simp only at he hleast
  subst he
  unfold MG.getFree
  rw [At.portDirection h.inv hp.1]
  cases hm : m.multi p' with
  | false =>
    obtain ⟨rfl, rfl⟩ := (h.sub_single ⟨_, hp⟩ hm).1 hs
    rw [(no_link h.inv hp.1).2 hfree]
  | true =>
    obtain ⟨c, cp, hC, hl⟩ := h.copy_of_main hp.1 hp.2 hm
    have hsa := (h.sub_multi hC hl).1 hs
    rw [show m.graph.portLink? p' = _ from hl]
    simp only
    rw [At.portNode h.inv hC.port]
    simp only
    rw [(find_free h.inv (s := s) (k := j)).2 ⟨hsa, hfree, ?_⟩]
    · simp only [newMulti]
      have := h.sub_lt hs
      simp only at this
      rw [if_pos this]; rfl
    · intro i q hi hq
      exact (lk_shows h ((h.sub_multi hC hl).2 hq)).2 (hleast i hi)

/-- There is room for one more subport at the port, or a subport without link. -/
def Room (m : MG) (p : Nat) : Prop :=
  (∀ q j, Sub m q (p, j) → j + 3 ≤ 32768) ∨ ∃ q j, Sub m q (p, j) ∧ ∀ r, ¬ Lk m.graph q r

/-- Effect of `get_free_multiport` on a shown port. -/
theorem getFree_eff (h : MOk m) {maxOff : Nat} (h2m : 2 ≤ maxOff) (hmax : maxOff ≤ 32767) {p : Nat} {x : Endpoint}
    (hp : VAt m p x) (hroom : Room m p) :
    ∃ e s m', m.getFree maxOff p = some (.ok (e, s), m') ∧ Freed m m' p e s := by
  obtain ⟨n, d, k⟩ := id x
  have same : ∀ e s, e.1 = p → Sub m s e → (∀ q, ¬ Lk m.graph s q) → (∀ k, k < e.2 → ∃ y, ShowsR m (p, k) y) →
      ∃ e s m', m.getFree maxOff p = some (.ok (e, s), m') ∧ Freed m m' p e s := by
    intro e s h1 h2 h3 h4
    exact ⟨e, s, m, getFree_found h hp h1 h2 h3 h4, h, fun _ => Iff.rfl, fun _ _ => Iff.rfl, fun _ _ => Iff.rfl, h1, h2, h3, h4,
      fun _ _ _ => Iff.rfl, fun _ _ _ _ h => h, fun j => ⟨fun hs => .inl hs, fun hs => hs.elim id fun he => ⟨s, he ▸ h2⟩⟩⟩
  obtain ⟨n, d, k⟩ := x
  cases hm : m.multi p with
  | false =>
    have hs := (h.sub_single ⟨_, hp⟩ hm).2 ⟨rfl, rfl⟩
    by_cases hl : ∃ l, Lk m.graph p l
    · obtain ⟨l, hl⟩ := hl
      obtain ⟨s, m', h1, h2⟩ := makeCopy_eff h h2m hmax hp.1 hp.2 hm hl
      refine ⟨_, s, m', ?_, h2⟩
      unfold MG.getFree
      rw [At.portDirection h.inv hp.1, hm, show m.graph.portLink? p = _ from hl]
      exact h1
    · exact same (p, 0) p rfl hs (fun q hq => hl ⟨q, hq⟩) (by simp)
  | true =>
    obtain ⟨c, cp, hC, hl⟩ := h.copy_of_main hp.1 hp.2 hm
    cases hf : (m.graph.ports c d).zipIdx.find? fun x => m.graph.portLink? x.1 == some none with
    | some y =>
      obtain ⟨s, j⟩ := y
      obtain ⟨h1, h2, h3⟩ := (find_free h.inv).1 hf
      refine same (p, j) s rfl ((h.sub_multi hC hl).2 h1) h2 ?_
      intro i hi
      have hlt := at_iff_lt.1 ⟨_, h1⟩
      obtain ⟨q, hq⟩ := at_iff_lt.2 (show i < m.graph.numPorts c d by simp only at hi; omega)
      exact (lk_shows h ((h.sub_multi hC hl).2 hq)).1 (h3 i q hi hq)
    | none =>
      have hall : ∀ q j, At m.graph q (c, d, j) → ∃ r, Lk m.graph q r := by
        intro q j hq
        apply Classical.byContradiction
        intro hc
        rw [List.find?_eq_none] at hf
        obtain ⟨h6, h7⟩ := List.getElem?_eq_some_iff.1 (getElem?_ports.2 hq)
        have := hf (q, j) (List.mem_iff_getElem.2 ⟨j, by simpa using h6, by simp [h7]⟩)
        apply this
        simp only
        rw [beq_iff_eq, no_link h.inv hq]
        intro r hr; exact hc ⟨r, hr⟩
      have h2 := hC.two
      obtain ⟨q, hq⟩ := at_iff_lt.2 (show m.graph.numPorts c d - 1 < m.graph.numPorts c d by omega)
      have hr : m.graph.numPorts c d - 1 + 3 ≤ 32768 := by
        rcases hroom with hr | ⟨q', j', h6, h7⟩
        · exact hr q _ ((h.sub_multi hC hl).2 hq)
        · obtain ⟨r, hr⟩ := hall q' j' ((h.sub_multi hC hl).1 h6)
          exact absurd hr (h7 r)
      obtain ⟨s, m1, h3, h4⟩ := addPort_eff h hC hl (by omega) hall
      refine ⟨_, s, _, ?_, h4⟩
      unfold MG.getFree
      rw [At.portDirection h.inv hp.1, hm, show m.graph.portLink? p = _ from hl]
      simp only
      rw [At.portNode h.inv hC.port]
      simp only
      rw [hf]
      simp only
      rw [h3]
      simp only [newMulti]
      rw [if_pos (by omega)]
      rfl

/-- Adding a subport elsewhere leaves the room. -/
theorem Freed.room {m' : MG} {a b s : Nat} {e : Subport} (F : Freed m m' a e s) (hab : b ≠ a) (hr : Room m b) : Room m' b := by
  rcases hr with hr | ⟨q, j, h1, h2⟩
  · exact .inl fun q k hq => hr q k ((F.subs q _ hab).1 hq)
  · exact .inr ⟨q, j, (F.subs q _ hab).2 h1, F.frees q _ hab h1 h2⟩

/-- Effect of a failing flat `link_ports`. -/
theorem link_same_dir {g : PG} (hI : Inv g) {i j : Nat} {e f : Endpoint} (hi : At g i e) (hj : At g j f)
    (hd : e.2.1 = f.2.1) : g.linkPorts i j = some (.error (.incompatibleDirections i j e.2.1), g) := by
  unfold PG.linkPorts
  rw [hi.port hI]
  simp only
  rw [hj.port hI]
  simp [hd]

/-- Effect of `link_ports` on two shown ports with different directions. -/
theorem linkPorts_eff (h : MOk m) {maxOff : Nat} (h2m : 2 ≤ maxOff) (hmax : maxOff ≤ 32767) {a b : Nat} {x y : Endpoint}
    (ha : VAt m a x) (hb : VAt m b y) (hra : Room m a) (hrb : Room m b) (hd : x.2.1 ≠ y.2.1) :
    ∃ e f m', m.linkPorts maxOff a b = some (.ok (e, f), m') ∧ MOk m' ∧ (∀ x, VNode m' x ↔ VNode m x) ∧
      (∀ q f, VAt m' q f ↔ VAt m q f) ∧ e.1 = a ∧ f.1 = b ∧
      (∀ z, ¬ ShowsR m e z) ∧ (∀ z, ¬ ShowsR m f z) ∧
      (∀ k, k < e.2 → ∃ y, ShowsR m (a, k) y) ∧ (∀ k, k < f.2 → ∃ y, ShowsR m (b, k) y) ∧
      (∀ z w, ShowsR m' z w ↔ ShowsR m z w ∨ (z = e ∧ w = f) ∨ (z = f ∧ w = e)) ∧
      (∀ z, (∃ i, Sub m' i z) ↔ (∃ i, Sub m i z) ∨ z = e ∨ z = f) := by
  have hab : a ≠ b := by
    rintro rfl
    exact hd (by rw [ha.1.inj h.inv hb.1])
  obtain ⟨e, i, m1, h1, F1⟩ := getFree_eff h h2m hmax ha hra
  obtain ⟨f, j, m2, h2, F2⟩ := getFree_eff F1.ok h2m hmax ((F1.at_iff _ _).2 hb) (F1.room (Ne.symm hab) hrb)
  have hea : e.1 ≠ b := by rw [F1.port]; exact hab
  have hi2 : Sub m2 i e := (F2.subs i e hea).2 F1.sub
  have hif := F2.frees i e hea F1.sub F1.free
  have hdir : m2.graph.portDirection i ≠ m2.graph.portDirection j := by
    obtain ⟨n1, c1, d1, k1, l1, a1, a2, a3⟩ := F2.ok.sub_vis hi2
    obtain ⟨n2, c2, d2, k2, l2, b1, b2, b3⟩ := F2.ok.sub_vis F2.sub
    rw [At.portDirection F2.ok.inv a3, At.portDirection F2.ok.inv b3]
    rw [F1.port] at a1
    rw [F2.port] at b1
    rw [((F1.at_iff _ _).1 ((F2.at_iff _ _).1 ⟨a1, a2⟩)).1.inj h.inv ha.1 |>.symm,
      ((F1.at_iff _ _).1 ((F2.at_iff _ _).1 ⟨b1, b2⟩)).1.inj h.inv hb.1 |>.symm] at hd
    simpa using hd
  obtain ⟨g', c1, c2, c3, c4, c5⟩ := link_sub F2.ok hi2 F2.sub hdir hif F2.free
  refine ⟨e, f, { m2 with graph := g' }, ?_, c2, ?_, ?_, F1.port, F2.port, ?_, ?_, F1.least, ?_, ?_, ?_⟩
  · unfold MG.linkPorts
    rw [h1]
    simp only
    rw [h2]
    simp only
    rw [c1]
  · intro x
    rw [← F1.node, ← F2.node]
    unfold VNode
    simp only [c3.node]
  · intro q f
    rw [← F1.at_iff, ← F2.at_iff]
    unfold VAt
    simp only [c3.at_iff]
  · intro z hz
    rw [← F1.shows] at hz
    obtain ⟨r, hr⟩ := (lk_shows F1.ok F1.sub).2 ⟨z, hz⟩
    exact F1.free r hr
  · intro z hz
    rw [← F1.shows, ← F2.shows] at hz
    obtain ⟨r, hr⟩ := (lk_shows F2.ok F2.sub).2 ⟨z, hz⟩
    exact F2.free r hr
  · intro k hk
    obtain ⟨y, hy⟩ := F2.least k hk
    exact ⟨y, (F1.shows _ _).1 hy⟩
  · intro z w
    rw [c5, F2.shows, F1.shows]
  · rintro ⟨q, j⟩
    have e1 : (∃ i, Sub { m2 with graph := g' } i (q, j)) ↔ ∃ i, Sub m2 i (q, j) := exists_congr fun i => c4 i (q, j)
    rw [e1]
    have hfb := F2.port
    have hea' := F1.port
    by_cases hqb : q = b
    · subst hqb
      rw [F2.new j, exists_congr fun i => F1.subs i (q, j) (Ne.symm hab)]
      refine or_congr Iff.rfl ⟨.inr, fun hx => hx.resolve_left fun he => hea (by rw [← he])⟩
    · rw [exists_congr fun i => F2.subs i (q, j) hqb]
      have hf : (q, j) ≠ f := fun he => hqb (by rw [← he] at hfb; exact hfb)
      by_cases hqa : q = a
      · subst hqa
        rw [F1.new j]
        refine or_congr Iff.rfl ⟨.inl, fun hx => hx.resolve_right hf⟩
      · rw [exists_congr fun i => F1.subs i (q, j) hqa]
        have he : (q, j) ≠ e := fun he => hqa (by rw [← he] at hea'; exact hea')
        simp [hf, he]

/-- Effect of `link_ports` on two shown ports with the same direction: an error, and nothing shown changes. -/
theorem linkPorts_same (h : MOk m) {maxOff : Nat} (h2m : 2 ≤ maxOff) (hmax : maxOff ≤ 32767) {a b : Nat} {x y : Endpoint}
    (ha : VAt m a x) (hb : VAt m b y) (hra : Room m a) (hrb : Room m b) (hd : x.2.1 = y.2.1) :
    ∃ i j m', m.linkPorts maxOff a b = some (.error (.incompatibleDirections i j x.2.1), m') ∧ MOk m' ∧
      (∀ x, VNode m' x ↔ VNode m x) ∧ (∀ q f, VAt m' q f ↔ VAt m q f) ∧ (∀ z w, ShowsR m' z w ↔ ShowsR m z w) ∧
      ∃ k l, (∀ j, j < k → ∃ y, ShowsR m (a, j) y) ∧ (∀ j, j < l → ∃ y, ShowsR m (b, j) y) ∧
        (∀ z, ¬ ShowsR m (a, k) z) ∧ (∀ z, ¬ ShowsR m (b, l) z) ∧
        ∀ z, (∃ i, Sub m' i z) ↔ (∃ i, Sub m i z) ∨ z = (a, k) ∨ z = (b, l) := by
  obtain ⟨e, i, m1, h1, F1⟩ := getFree_eff h h2m hmax ha hra
  have free1 : ∀ z, ¬ ShowsR m e z := by
    intro z hz
    rw [← F1.shows] at hz
    obtain ⟨r, hr⟩ := (lk_shows F1.ok F1.sub).2 ⟨z, hz⟩
    exact F1.free r hr
  have sub1 : ∀ z, (∃ i, Sub m1 i z) ↔ (∃ i, Sub m i z) ∨ z = e := by
    rintro ⟨q, k⟩
    by_cases hqa : q = a
    · subst hqa; exact F1.new k
    · rw [exists_congr fun i => F1.subs i (q, k) hqa]
      refine ⟨.inl, fun hx => hx.resolve_right fun he => hqa ?_⟩
      have := F1.port
      rw [← he] at this; exact this
  obtain ⟨f, j, m2, h2, i1, i2, i3, i4, i5, i6, i7, i8, i9, i10⟩ : ∃ f j m2, m1.getFree maxOff b = some (.ok (f, j), m2) ∧ MOk m2 ∧
      (∀ x, VNode m2 x ↔ VNode m1 x) ∧ (∀ q f, VAt m2 q f ↔ VAt m1 q f) ∧ (∀ z w, ShowsR m2 z w ↔ ShowsR m1 z w) ∧
      f.1 = b ∧ Sub m2 i e ∧ Sub m2 j f ∧ (∀ j, j < f.2 → ∃ y, ShowsR m (b, j) y) ∧ (∀ z, ¬ ShowsR m f z) ∧
      ∀ z, (∃ i, Sub m2 i z) ↔ (∃ i, Sub m i z) ∨ z = e ∨ z = f := by
    by_cases hab : a = b
    · subst hab
      exact ⟨e, i, m1, getFree_found F1.ok ((F1.at_iff _ _).2 ha) F1.port F1.sub F1.free
        (by intro k hk; obtain ⟨y, hy⟩ := F1.least k hk; exact ⟨y, (F1.shows _ _).2 hy⟩),
        F1.ok, fun _ => Iff.rfl, fun _ _ => Iff.rfl, fun _ _ => Iff.rfl, F1.port, F1.sub, F1.sub, F1.least, free1, fun z => by rw [sub1, or_self]⟩
    · obtain ⟨f, j, m2, h2, F2⟩ := getFree_eff F1.ok h2m hmax ((F1.at_iff _ _).2 hb) (F1.room (Ne.symm hab) hrb)
      refine ⟨f, j, m2, h2, F2.ok, F2.node, F2.at_iff, F2.shows, F2.port,
        (F2.subs i e (by rw [F1.port]; exact hab)).2 F1.sub, F2.sub, ?_, ?_, ?_⟩
      · intro k hk
        obtain ⟨y, hy⟩ := F2.least k hk
        exact ⟨y, (F1.shows _ _).1 hy⟩
      · intro z hz
        rw [← F1.shows, ← F2.shows] at hz
        obtain ⟨r, hr⟩ := (lk_shows F2.ok F2.sub).2 ⟨z, hz⟩
        exact F2.free r hr
      · rintro ⟨q, k⟩
        by_cases hqb : q = b
        · subst hqb
          rw [F2.new k, sub1, or_assoc]
        · rw [exists_congr fun i => F2.subs i (q, k) hqb, sub1]
          refine or_congr Iff.rfl ⟨.inl, fun hx => hx.resolve_right fun he => hqb ?_⟩
          have := F2.port
          rw [← he] at this; exact this
  obtain ⟨n1, c1, d1, k1, l1, a1, a2, a3⟩ := i1.sub_vis i6
  obtain ⟨n2, c2, d2, k2, l2, b1, b2, b3⟩ := i1.sub_vis i7
  rw [F1.port] at a1
  rw [i5] at b1
  have e1 := ((F1.at_iff _ _).1 ((i3 _ _).1 ⟨a1, a2⟩)).1.inj h.inv ha.1
  have e2 := ((F1.at_iff _ _).1 ((i3 _ _).1 ⟨b1, b2⟩)).1.inj h.inv hb.1
  subst e1 e2
  refine ⟨i, j, m2, ?_, i1, fun x => by rw [i2, F1.node], fun q f => by rw [i3, F1.at_iff], fun z w => by rw [i4, F1.shows],
    e.2, f.2, F1.least, i8, ?_, ?_, ?_⟩
  rotate_left
  · rw [← F1.port]; exact free1
  · rw [← i5]; exact i9
  · intro z
    rw [i10 z, show (a, e.2) = e by rw [← F1.port], show (b, f.2) = f by rw [← i5]]
  unfold MG.linkPorts
  rw [h1]
  simp only
  rw [h2]
  simp only
  rw [link_same_dir i1.inv a3 b3 hd]

/-- Effect of `link_ports` when the first port does not exist. -/
theorem linkPorts_unknown_a {maxOff : Nat} {a b : Nat} (ha : m.graph.port? a = none) :
    m.linkPorts maxOff a b = some (.error (.unknownPort a), m) := by
  unfold MG.linkPorts MG.getFree
  simp [PG.portDirection, ha]

/-- The first free subport of a port. -/
theorem least_free (h : MOk m) {p : Nat} : ∀ k s, Sub m s (p, k) → (∀ q, ¬ Lk m.graph s q) →
    ∃ k s, Sub m s (p, k) ∧ (∀ q, ¬ Lk m.graph s q) ∧ ∀ j, j < k → ∃ y, ShowsR m (p, j) y := by
  intro k
  induction k using Nat.strongRecOn with
  | _ k ih =>
    intro s hs hf
    by_cases hall : ∀ j, j < k → ∃ y, ShowsR m (p, j) y
    · exact ⟨k, s, hs, hf, hall⟩
    · simp only [not_forall] at hall
      obtain ⟨j, hj, hno⟩ := hall
      obtain ⟨q, hq⟩ : ∃ q, Sub m q (p, j) := by
        rcases h.sub_iff.1 hs with ⟨h1, ⟨x, h2, h3, h4⟩ | ⟨c, d, cp, h2, h3, h4⟩⟩
        · cases h4; omega
        · simp only at h2 h4
          obtain ⟨q, hq⟩ := at_iff_lt.2 (Nat.lt_trans hj (at_iff_lt.1 ⟨_, h2⟩))
          exact ⟨q, (h.sub_multi h3 (h4.sym h.inv)).2 hq⟩
      exact ih j hj q hq fun r hr => hno ((lk_shows h hq).1 ⟨r, hr⟩)

/-- Effect of `link_ports` when the second port does not exist and the first has a free subport. -/
theorem linkPorts_unknown_b (h : MOk m) {maxOff : Nat} {a b : Nat} {x : Endpoint} (ha : VAt m a x)
    {k s : Nat} (hs : Sub m s (a, k)) (hf : ∀ q, ¬ Lk m.graph s q) (hb : m.graph.port? b = none) :
    m.linkPorts maxOff a b = some (.error (.unknownPort b), m) := by
  obtain ⟨k', s', h1, h2, h3⟩ := least_free h k s hs hf
  unfold MG.linkPorts
  rw [getFree_found h ha rfl h1 h2 h3]
  simp only
  unfold MG.getFree
  simp [PG.portDirection, hb]

/-- Effect of `link_subports` on two subports. -/
theorem linkSubports_eff (h : MOk m) {i j : Nat} {e f : Subport} (hi : Sub m i e) (hj : Sub m j f) :
    ∃ r m', m.linkSubports e f = some (r, m') ∧ MOk m' ∧ (∀ x, VNode m' x ↔ VNode m x) ∧
      (∀ q f, VAt m' q f ↔ VAt m q f) ∧ (∀ q x, Sub m' q x ↔ Sub m q x) ∧
      ((m.graph.portDirection e.1 ≠ m.graph.portDirection f.1 ∧ (∀ z, ¬ ShowsR m e z) ∧ ∀ z, ¬ ShowsR m f z) →
        r = .ok () ∧ ∀ z w, ShowsR m' z w ↔ ShowsR m z w ∨ (z = e ∧ w = f) ∨ (z = f ∧ w = e)) ∧
      (¬ (m.graph.portDirection e.1 ≠ m.graph.portDirection f.1 ∧ (∀ z, ¬ ShowsR m e z) ∧ ∀ z, ¬ ShowsR m f z) →
        m' = m ∧ ∃ er, r = .error er) := by
  have hdir : ∀ q x, Sub m q x → m.graph.portDirection q = m.graph.portDirection x.1 := by
    intro q x hx
    obtain ⟨n1, c1, d1, k1, l1, a1, a2, a3⟩ := h.sub_vis hx
    rw [At.portDirection h.inv a1, At.portDirection h.inv a3]
  have hfree : ∀ q x, Sub m q x → ((∀ z, ¬ ShowsR m x z) ↔ ∀ r, ¬ Lk m.graph q r) := by
    intro q x hx
    rw [← not_exists, ← not_exists, lk_shows h hx]
  unfold MG.linkSubports
  rw [h.index_eq hi, h.index_eq hj]
  simp only
  by_cases hc : m.graph.portDirection e.1 ≠ m.graph.portDirection f.1 ∧ (∀ z, ¬ ShowsR m e z) ∧ ∀ z, ¬ ShowsR m f z
  · obtain ⟨h1, h2, h3⟩ := id hc
    obtain ⟨g', c1, c2, c3, c4, c5⟩ := link_sub h hi hj (by rw [hdir i e hi, hdir j f hj]; exact h1)
      ((hfree i e hi).1 h2) ((hfree j f hj).1 h3)
    rw [c1]
    refine ⟨.ok (), { m with graph := g' }, rfl, c2, ?_, ?_, c4, fun _ => ⟨rfl, c5⟩, fun hn => absurd hc hn⟩
    · intro x; unfold VNode; simp only [c3.node]
    · intro q f; unfold VAt; simp only [c3.at_iff]
  · have herr : ∃ er, m.graph.linkPorts i j = some (.error er, m.graph) := by
      obtain ⟨n1, d1, k1, a1, -⟩ := id hi
      obtain ⟨n2, d2, k2, a2, -⟩ := id hj
      by_cases hd : d1 = d2
      · exact ⟨_, link_same_dir h.inv a1 a2 hd⟩
      · have hd' : m.graph.portDirection e.1 ≠ m.graph.portDirection f.1 := by
          rw [← hdir i e hi, ← hdir j f hj, At.portDirection h.inv a1, At.portDirection h.inv a2]
          simpa using hd
        rw [hfree i e hi, hfree j f hj] at hc
        have hlen : ∀ q x, At m.graph q x → ∃ o, m.graph.portLink[q]? = some o ∧ (o = none ↔ ∀ r, ¬ Lk m.graph q r) := by
          intro q x hq
          have h1 := unlinked h.inv hq
          have h2 := no_link h.inv hq
          unfold PG.portLink? at h1 h2
          rw [hq.port h.inv] at h1 h2
          simp only at h1 h2
          refine ⟨_, h1, ?_⟩
          rw [h1] at h2
          simpa using h2
        obtain ⟨o1, b1, b2⟩ := hlen i _ a1
        obtain ⟨o2, b3, b4⟩ := hlen j _ a2
        unfold PG.linkPorts
        rw [a1.port h.inv, a2.port h.inv]
        simp only [hd, if_false]
        rw [b1]
        cases o1 with
        | some v => exact ⟨_, rfl⟩
        | none =>
          simp only
          rw [b3]
          cases o2 with
          | some v => exact ⟨_, rfl⟩
          | none => exact absurd ⟨hd', b2.1 rfl, b4.1 rfl⟩ hc
    obtain ⟨er, herr⟩ := herr
    rw [herr]
    exact ⟨.error er, m, rfl, h, fun _ => Iff.rfl, fun _ _ => Iff.rfl, fun _ _ => Iff.rfl, fun hn => absurd hn hc, fun _ => ⟨rfl, er, rfl⟩⟩

/-- Effect of `unlink_subport`. -/
theorem unlinkSubport_eff (h : MOk m) {i : Nat} {e : Subport} (hi : Sub m i e) :
    ∃ r m', m.unlinkSubport e = some (r, m') ∧ MOk m' ∧ (∀ x, VNode m' x ↔ VNode m x) ∧
      (∀ q f, VAt m' q f ↔ VAt m q f) ∧ (∀ q x, Sub m' q x ↔ Sub m q x) ∧
      (∀ z w, ShowsR m' z w ↔ ShowsR m z w ∧ z ≠ e ∧ w ≠ e) ∧ (∀ f, r = some f ↔ ShowsR m e f) := by
  obtain ⟨g', c1, c2, c3, c4, c5⟩ := unlink_sub h hi
  have hvn : ∀ x, VNode { m with graph := g' } x ↔ VNode m x := by intro x; unfold VNode; simp only [c3.node]
  have hva : ∀ q f, VAt { m with graph := g' } q f ↔ VAt m q f := by intro q f; unfold VAt; simp only [c3.at_iff]
  obtain ⟨n1, d1, k1, a1, -⟩ := id hi
  unfold MG.unlinkSubport
  rw [h.index_eq hi]
  simp only
  rw [c1]
  cases hl : m.graph.lk i with
  | none =>
    refine ⟨none, _, rfl, c2, hvn, hva, c4, c5, ?_⟩
    intro f
    simp only [reduceCtorEq, false_iff]
    intro hs
    obtain ⟨r, hr⟩ := (lk_shows h hi).2 ⟨f, hs⟩
    have := ((lk_iff h.inv).1 hr).2
    rw [hl] at this; cases this
  | some l =>
    have hl' : Lk m.graph i l := by unfold Lk; rw [unlinked h.inv a1, hl]
    obtain ⟨f, hf⟩ := h.lk_sub hl' (h.sub_flag hi) (by simp)
    simp only
    rw [c2.fromIndex_eq ((c4 l f).2 hf)]
    refine ⟨some f, _, rfl, c2, hvn, hva, c4, c5, ?_⟩
    have hsh : ShowsR m e f := ⟨i, l, hi, hf, hl'⟩
    intro f'
    constructor
    · intro he; cases he; exact hsh
    · intro hs; rw [ShowsR.fun h hsh hs]

/-- Effect of `clear`. -/
theorem clear_eff (m : MG) : MOk m.clear ∧ (∀ x, ¬ VNode m.clear x) ∧ (∀ p e, ¬ VAt m.clear p e) ∧
    ∀ x y, ¬ ShowsR m.clear x y := by
  have hok : MOk m.clear := ofGraph_ok (Inv.clear m.graph)
  have hn : ∀ x, ¬ VNode m.clear x := by
    rintro x ⟨h1, -⟩
    rw [show m.clear.graph = PG.empty from clear_eq m.graph] at h1
    simp [PG.containsNode, PG.node?, PG.empty] at h1
  have ha : ∀ p e, ¬ VAt m.clear p e := fun p e h => hn e.1 ⟨At.contains h.1, h.2⟩
  refine ⟨hok, hn, ha, fun x y hs => ?_⟩
  obtain ⟨⟨e, he⟩, -⟩ := shows_vat hok hs
  exact ha _ _ he

end Verif.Multi
