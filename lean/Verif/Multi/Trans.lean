import Verif.Multi.ViewOk

/-!
# Operations that move, add or drop whole ports of the flat graph
-/

namespace Verif.Multi

open Verif (Direction)
open Verif.PG Verif.View

/-- `m'` is obtained from `m` by renaming nodes with `ρ`, moving the kept ports with `π` and adding
unlinked ports. -/
structure Trans (m m' : MG) (ρ π : Nat → Nat) (keep new : Endpoint → Prop) : Prop where
  inv : Inv m'.graph
  node_inj : ∀ x y, m.graph.containsNode x = true → m.graph.containsNode y = true → ρ x = ρ y → x = y
  fwd : ∀ p e, At m.graph p e → keep e → At m'.graph (π p) (mapE ρ e)
  back : ∀ p' e', At m'.graph p' e' →
    (∃ p e, At m.graph p e ∧ keep e ∧ p' = π p ∧ e' = mapE ρ e) ∨ (new e' ∧ ∀ q, ¬ Lk m'.graph p' q)
  lk : ∀ p e q f, At m.graph p e → keep e → At m.graph q f → keep f → (Lk m'.graph (π p) (π q) ↔ Lk m.graph p q)
  flag : ∀ p e, At m.graph p e → keep e → m'.multi (π p) = m.multi p
  flag_new : ∀ p' e', At m'.graph p' e' → new e' → m'.multi p' = false
  flag_live : ∀ p', m'.multi p' = true → ∃ e', At m'.graph p' e'
  copy : ∀ x, m.graph.containsNode x = true → m'.copy (ρ x) = m.copy x
  copy_back : ∀ x', m'.copy x' = true → ∃ x, m.graph.containsNode x = true ∧ ρ x = x'
  keep_copy : ∀ e, m.copy e.1 = true → keep e
  new_copy : ∀ c d k, new (c, d, k) → m'.copy c = true → ∃ cp, At m'.graph cp (c, d.reverse, 0) ∧ m'.multi cp = true

/-- The copy ports whose main port is dropped. -/
def Dropping (m : MG) (D : Nat → Prop) (π : Nat → Nat) (keep : Endpoint → Prop) (x' : Nat) : Prop :=
  ∃ x, x' = π x ∧ (D x ∨ ∃ p e, At m.graph p e ∧ ¬ keep e ∧ m.multi p = true ∧ Lk m.graph p x)

namespace Trans

variable {m m' : MG} {ρ π : Nat → Nat} {keep new : Endpoint → Prop} {D : Nat → Prop}

theorem map_inj (T : Trans m m' ρ π keep new) {p q : Nat} {e f : Endpoint} (hp : At m.graph p e) (hq : At m.graph q f)
    (h : mapE ρ e = mapE ρ f) : e = f := by
  obtain ⟨n, x⟩ := e
  obtain ⟨n', x'⟩ := f
  simp only [mapE, Prod.mk.injEq] at h
  obtain ⟨h4, rfl⟩ := h
  have := T.node_inj n n' (At.contains hp) (At.contains hq) h4
  rw [this]

theorem inj (T : Trans m m' ρ π keep new) {p q : Nat} {e f : Endpoint} (hp : At m.graph p e) (he : keep e)
    (hq : At m.graph q f) (hf : keep f) (h : π p = π q) : p = q := by
  have h1 := T.fwd p e hp he
  have h2 := T.fwd q f hq hf
  rw [h] at h1
  have := T.map_inj hp hq (h1.inj T.inv h2)
  subst this
  exact hp.unique hq

theorem lk_back (T : Trans m m' ρ π keep new) {p' q' : Nat} (h : Lk m'.graph p' q') :
    ∃ p e q f, At m.graph p e ∧ keep e ∧ At m.graph q f ∧ keep f ∧ p' = π p ∧ q' = π q ∧ Lk m.graph p q := by
  obtain ⟨e', f', h1, h2, -⟩ := h.at T.inv
  rcases T.back _ _ h1 with ⟨p, e, h3, h4, h5, -⟩ | ⟨-, h3⟩
  · rcases T.back _ _ h2 with ⟨q, f, h6, h7, h8, -⟩ | ⟨-, h6⟩
    · refine ⟨p, e, q, f, h3, h4, h6, h7, h5, h8, ?_⟩
      subst h5 h8
      exact (T.lk p e q f h3 h4 h6 h7).1 h
    · exact absurd (h.sym T.inv) (h6 _)
  · exact absurd h (h3 _)

/-- Marked ports are kept ports. -/
theorem multi_back (T : Trans m m' ρ π keep new) {p' : Nat} (h : m'.multi p' = true) :
    ∃ p e, At m.graph p e ∧ keep e ∧ p' = π p ∧ m.multi p = true ∧ At m'.graph p' (mapE ρ e) := by
  obtain ⟨e', he'⟩ := T.flag_live p' h
  rcases T.back _ _ he' with ⟨p, e, h3, h4, rfl, rfl⟩ | ⟨h3, -⟩
  · exact ⟨p, e, h3, h4, rfl, by rw [← T.flag p e h3 h4, h], he'⟩
  · rw [T.flag_new _ _ he' h3] at h; cases h

theorem copyOf (T : Trans m m' ρ π keep new) {c : Nat} {d : Direction} {cp : Nat} (hC : CopyOf m c d cp) :
    CopyOf m' (ρ c) d (π cp) where
  copy := by rw [T.copy c (At.contains hC.port), hC.copy]
  port := T.fwd _ _ hC.port (T.keep_copy _ hC.copy)
  flag := by rw [T.flag _ _ hC.port (T.keep_copy _ hC.copy), hC.flag]
  one := by
    have h1 := at_iff_lt.1 ⟨_, T.fwd _ _ hC.port (T.keep_copy _ hC.copy)⟩
    have h2 : ∀ k, k < m'.graph.numPorts (ρ c) d.reverse → k = 0 := by
      intro k hk
      obtain ⟨q', hq'⟩ := at_iff_lt.2 hk
      rcases T.back _ _ hq' with ⟨q, ⟨c0, d0, k0⟩, h3, -, -, h4⟩ | ⟨h3, -⟩
      · simp only [mapE, Prod.mk.injEq] at h4
        obtain ⟨h4, rfl, rfl⟩ := h4
        have := T.node_inj _ _ (At.contains hC.port) (At.contains h3) h4
        simp only at this
        subst this
        have := at_iff_lt.1 ⟨_, h3⟩
        rw [hC.one] at this
        omega
      · obtain ⟨cp', h4, h5⟩ := T.new_copy _ _ _ h3 (by rw [T.copy c (At.contains hC.port), hC.copy])
        rw [reverse_reverse] at h4
        obtain ⟨q, ⟨c0, d0, k0⟩, h6, h7, rfl, h8, h9⟩ := T.multi_back h5
        have := h4.inj T.inv h9
        simp only [mapE, Prod.mk.injEq] at this
        obtain ⟨h10, rfl, rfl⟩ := this
        have := T.node_inj _ _ (At.contains hC.port) (At.contains h6) h10
        simp only at this
        subst this
        rw [hC.subs _ _ h6] at h8; cases h8
    simp only [mapE] at h1
    apply Nat.le_antisymm _ h1
    apply Nat.le_of_not_lt
    intro hc
    have := h2 1 hc
    omega
  two := by
    obtain ⟨q, hq⟩ := at_iff_lt.2 (show 1 < m.graph.numPorts c d from hC.two)
    exact at_iff_lt.1 ⟨_, T.fwd _ _ hq (T.keep_copy _ hC.copy)⟩
  subs q' k hq' := by
    rcases T.back _ _ hq' with ⟨q, ⟨c0, d0, k0⟩, h3, h4, rfl, h5⟩ | ⟨h3, -⟩
    · simp only [mapE, Prod.mk.injEq] at h5
      obtain ⟨h5, rfl, rfl⟩ := h5
      have := T.node_inj _ _ (At.contains hC.port) (At.contains h3) h5
      simp only at this
      subst this
      rw [T.flag _ _ h3 h4, hC.subs _ _ h3]
    · exact T.flag_new _ _ hq' h3

/-- The invariant is kept, except for the count of the subports. -/
theorem minv (T : Trans m m' ρ π keep new) (h : MInv m D) (hc : m'.copyCount = m.copyCount)
    (hs : Counted (SubPort m') m'.subCount) : MInv m' (Dropping m D π keep) where
  inv := T.inv
  copyLive c' hc' := by
    obtain ⟨x, h1, rfl⟩ := T.copy_back c' hc'
    rw [T.copy x h1] at hc'
    obtain ⟨d, cp, hC⟩ := h.shape x hc'
    exact At.contains (T.copyOf hC).port
  partner p' hp' hD := by
    obtain ⟨p, e, h1, h2, rfl, h3, h4⟩ := T.multi_back hp'
    obtain ⟨q, f, g1, g2, g3, g4⟩ := h.multi_at h3 (fun hd => hD ⟨p, rfl, .inl hd⟩) h1
    have hk : keep f := by
      apply Classical.byContradiction
      intro hk
      exact hD ⟨p, rfl, .inr ⟨q, f, g1, hk, g3, g2.sym h.inv⟩⟩
    refine ⟨π q, _, _, h4, T.fwd q f g1 hk, (T.lk _ _ _ _ h1 h2 g1 hk).2 g2, by rw [T.flag q f g1 hk, g3], ?_⟩
    simp only [mapE]
    rw [T.copy _ (At.contains g1), T.copy _ (At.contains h1), g4]
  orphan x' hx' := by
    obtain ⟨x, rfl, hx⟩ := hx'
    have key : ∃ e, At m.graph x e ∧ m.copy e.1 = true ∧ m.multi x = true ∧
        ∀ q f, At m.graph q f → keep f → ¬ Lk m.graph x q := by
      rcases hx with hx | ⟨p, e, h1, h2, h3, h4⟩
      · obtain ⟨e, h1, h2, h3, h4⟩ := h.orphan x hx
        exact ⟨e, h1, h2, h3, fun q _ _ _ => h4 q⟩
      · have hv : m.copy e.1 = false := by
          cases hc : m.copy e.1 with
          | false => rfl
          | true => exact absurd (T.keep_copy e hc) h2
        obtain ⟨-, f, -, h5, -⟩ := h4.at h.inv
        have h6 := h.lk_copy h4 h3 h1 h5
        refine ⟨f, h5, by simpa [hv] using h6, by rw [← h.lk_multi h4, h3], ?_⟩
        intro q f' hq hk hl
        obtain rfl := hl.fun (h4.sym h.inv)
        rw [hq.inj h.inv h1] at hk
        exact h2 hk
    obtain ⟨e, h1, h2, h3, h4⟩ := key
    have hk := T.keep_copy e h2
    refine ⟨_, T.fwd x e h1 hk, ?_, by rw [T.flag x e h1 hk, h3], ?_⟩
    · simp only [mapE]; rw [T.copy _ (At.contains h1), h2]
    · intro q' hl
      obtain ⟨x0, e0, q, f, g1, g2, g3, g4, g5, -, g6⟩ := T.lk_back hl
      obtain rfl := T.inj h1 hk g1 g2 g5
      exact h4 q f g3 g4 g6
  shape c' hc' := by
    obtain ⟨x, h1, rfl⟩ := T.copy_back c' hc'
    rw [T.copy x h1] at hc'
    obtain ⟨d, cp, hC⟩ := h.shape x hc'
    exact ⟨d, _, T.copyOf hC⟩
  copies := by
    rw [hc]
    refine (h.copies.image (π := ρ) (fun x y hx hy => T.node_inj x y (h.copyLive x hx) (h.copyLive y hy))).congr ?_
    intro c'
    constructor
    · intro hc'
      obtain ⟨x, h1, rfl⟩ := T.copy_back c' hc'
      exact ⟨x, by rw [← T.copy x h1, hc'], rfl⟩
    · rintro ⟨x, hx, rfl⟩
      rw [T.copy x (h.copyLive x hx), hx]
  subs := hs

/-- The subports of the copy nodes afterwards. -/
theorem subPort_iff (T : Trans m m' ρ π keep new) {q' : Nat} :
    SubPort m' q' ↔ (∃ q, SubPort m q ∧ q' = π q) ∨ ∃ e', At m'.graph q' e' ∧ new e' ∧ m'.copy e'.1 = true := by
  constructor
  · rintro ⟨h1, e', h2, h3⟩
    rcases T.back _ _ h2 with ⟨q, e, h4, h5, rfl, rfl⟩ | ⟨h4, -⟩
    · left
      refine ⟨q, ⟨by rw [← T.flag q e h4 h5, h1], e, h4, ?_⟩, rfl⟩
      simp only [mapE] at h3
      rw [← T.copy _ (At.contains h4), h3]
    · exact .inr ⟨e', h2, h4, h3⟩
  · rintro (⟨q, ⟨h1, e, h2, h3⟩, rfl⟩ | ⟨e', h1, h2, h3⟩)
    · have hk := T.keep_copy e h3
      refine ⟨by rw [T.flag q e h2 hk, h1], _, T.fwd q e h2 hk, ?_⟩
      simp only [mapE]; rw [T.copy _ (At.contains h2), h3]
    · exact ⟨T.flag_new _ _ h1 h2, e', h1, h3⟩

/-- The count of the subports when no port is added to a copy node. -/
theorem subs_same (T : Trans m m' ρ π keep new) (h : MInv m D) (hn : ∀ e, new e → m'.copy e.1 = false)
    (hs : m'.subCount = m.subCount) : Counted (SubPort m') m'.subCount := by
  rw [hs]
  refine (h.subs.image (π := π) ?_).congr ?_
  · rintro x y ⟨-, e, h1, h2⟩ ⟨-, f, h3, h4⟩ he
    exact T.inj h1 (T.keep_copy e h2) h3 (T.keep_copy f h4) he
  · intro q'
    rw [T.subPort_iff]
    constructor
    · rintro (h1 | ⟨e', -, h2, h3⟩)
      · exact h1
      · rw [hn e' h2] at h3; cases h3
    · exact .inl

theorem sub_fwd (T : Trans m m' ρ π keep new) (h : MInv m D) {q p k : Nat} {e : Endpoint} (hs : Sub m q (p, k))
    (hp : At m.graph p e) (hk : keep e) : Sub m' (π q) (π p, k) ∧ ∃ f, At m.graph q f ∧ keep f := by
  rcases h.sub_iff.1 hs with ⟨h1, ⟨⟨n, d, k'⟩, h2, h3, h4⟩ | ⟨c, d, cp, h2, h3, h4⟩⟩
  · cases h4
    cases hp.inj h.inv h2
    refine ⟨⟨ρ n, d, k', T.fwd _ _ h2 hk, by rw [T.flag _ _ h2 hk, h1], .inl ⟨?_, rfl⟩⟩, _, h2, hk⟩
    rw [T.copy n (At.contains h2)]; exact h3
  · have hkq := T.keep_copy (c, d, k) h3.copy
    have hC := T.copyOf h3
    refine ⟨⟨ρ c, d, k, T.fwd _ _ h2 hkq, by rw [T.flag _ _ h2 hkq, h1], .inr ⟨hC.copy, π cp, π p, hC.port, ?_, rfl⟩⟩, _, h2, hkq⟩
    exact (T.lk _ _ _ _ h3.port (T.keep_copy _ h3.copy) hp hk).2 h4

theorem sub_back (T : Trans m m' ρ π keep new) (h : MInv m D) {x : Nat} {ex : Endpoint} {nm : Subport}
    (a1 : At m.graph x ex) (a2 : keep ex) (a4 : Sub m' (π x) nm) :
    ∃ p k e, Sub m x (p, k) ∧ At m.graph p e ∧ keep e ∧ nm = (π p, k) := by
  obtain ⟨n', d, k, b1, b2, b3⟩ := a4
  have b4 := T.fwd x ex a1 a2
  have b5 := b1.inj T.inv b4
  obtain ⟨n, d0, k0⟩ := ex
  simp only [mapE, Prod.mk.injEq] at b5
  obtain ⟨rfl, rfl, rfl⟩ := b5
  have hm : m.multi x = false := by rw [← T.flag _ _ a1 a2, b2]
  rw [T.copy n (At.contains a1)] at b3
  rcases b3 with ⟨b7, rfl⟩ | ⟨b7, cp', p', b8, b9, rfl⟩
  · exact ⟨x, 0, _, ⟨n, d, k, a1, hm, .inl ⟨b7, rfl⟩⟩, a1, a2, rfl⟩
  · obtain ⟨cp, hC⟩ := h.sub_copy b7 a1 hm
    have hC' := T.copyOf hC
    obtain rfl := b8.unique hC'.port
    obtain ⟨cp0, e0, p, f, c1, c2, c3, c4, c5, rfl, c6⟩ := T.lk_back b9
    obtain rfl := T.inj c1 c2 hC.port (T.keep_copy _ hC.copy) c5.symm
    exact ⟨p, k, f, ⟨n, d, k, a1, hm, .inr ⟨b7, cp0, p, hC.port, c6, rfl⟩⟩, c3, c4, rfl⟩

/-- The subports afterwards, when new ports are on no copy node. -/
theorem subs_iff (T : Trans m m' ρ π keep new) (h : MInv m D) (hn : ∀ e, new e → m'.copy e.1 = false) {z : Subport} :
    (∃ q, Sub m' q z) ↔ (∃ p k e, (∃ q, Sub m q (p, k)) ∧ At m.graph p e ∧ keep e ∧ z = (π p, k)) ∨
      (z.2 = 0 ∧ ∃ e, At m'.graph z.1 e ∧ new e) := by
  constructor
  · rintro ⟨q', hs⟩
    obtain ⟨n, d, k, h1, h2, h3⟩ := id hs
    rcases T.back _ _ h1 with ⟨q, e, h4, h5, rfl, -⟩ | ⟨h4, -⟩
    · obtain ⟨p, k', e', h6, h7, h8, h9⟩ := T.sub_back h h4 h5 hs
      exact .inl ⟨p, k', e', ⟨q, h6⟩, h7, h8, h9⟩
    · rcases h3 with ⟨-, rfl⟩ | ⟨h3, -⟩
      · exact .inr ⟨rfl, _, h1, h4⟩
      · rw [show m'.copy n = false from hn _ h4] at h3; cases h3
  · rintro (⟨p, k, e, ⟨q, hs⟩, h1, h2, rfl⟩ | ⟨h1, ⟨n, d, k⟩, h2, h3⟩)
    · exact ⟨_, (T.sub_fwd h hs h1 h2).1⟩
    · obtain ⟨z1, z2⟩ := z
      simp only at h1 h2
      subst h1
      exact ⟨z1, n, d, k, h2, T.flag_new _ _ h2 h3, .inl ⟨hn _ h3, rfl⟩⟩

/-- The links shown afterwards. -/
theorem shows (T : Trans m m' ρ π keep new) (h : MInv m D) {e' f' : Subport} : ShowsR m' e' f' ↔
    ∃ p k r l, ShowsR m (p, k) (r, l) ∧ (∃ e, At m.graph p e ∧ keep e) ∧ (∃ e, At m.graph r e ∧ keep e) ∧
      e' = (π p, k) ∧ f' = (π r, l) := by
  constructor
  · rintro ⟨q', r', h1, h2, h3⟩
    obtain ⟨q, eq, r, er, g1, g2, g3, g4, rfl, rfl, g5⟩ := T.lk_back h3
    obtain ⟨p, k, e, s1, s2, s3, rfl⟩ := T.sub_back h g1 g2 h1
    obtain ⟨p', k', e'', t1, t2, t3, rfl⟩ := T.sub_back h g3 g4 h2
    exact ⟨p, k, p', k', ⟨q, r, s1, t1, g5⟩, ⟨e, s2, s3⟩, ⟨e'', t2, t3⟩, rfl, rfl⟩
  · rintro ⟨p, k, r, l, ⟨q, q2, h1, h2, h3⟩, ⟨e, h4, h5⟩, ⟨f, h6, h7⟩, rfl, rfl⟩
    obtain ⟨s1, x, s2, s3⟩ := T.sub_fwd h h1 h4 h5
    obtain ⟨t1, y, t2, t3⟩ := T.sub_fwd h h2 h6 h7
    exact ⟨π q, π q2, s1, t1, (T.lk _ _ _ _ s2 s3 t2 t3).2 h3⟩

end Trans

end Verif.Multi
