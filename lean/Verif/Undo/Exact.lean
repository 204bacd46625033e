import Verif.Undo.LinkLemmas

/-!
# Calls that restore the state exactly, for all states with the invariant

Lemmas for C66, C67 and C69.
-/

namespace Verif.Undo

open Verif.PG Verif.Equality

theorem unlink_link {g g1 : PG} (hI : PG.Inv g) {p q : Nat}
    (h : g.unlinkPort p = some (some q, g1)) :
    g1.linkPorts p q = some (.ok (p, q), g) ∧ g1.linkPorts q p = some (.ok (q, p), g) := by
  have hlen := hI.len
  obtain ⟨own, fs, hP, hfull⟩ := hI.slots
  unfold PG.unlinkPort at h
  split at h
  · cases h
  · rename_i x hp
    obtain ⟨n, d⟩ := x
    have hplt := PG.port?_lt (g := g) (p := p) (by rw [hp]; rfl)
    split at h
    · cases h
    · cases h
    · rename_i q' hl
      split at h
      · rename_i hc
        simp only [Option.some.injEq, Prod.mk.injEq] at h
        obtain ⟨rfl, rfl⟩ := h
        have hlk : g.lk p = some q' := by unfold PG.lk; rw [hl]; rfl
        obtain ⟨hlq, n', hq⟩ := hP.links p n d q' hp hlk
        have hql : g.portLink[q']? = some (some p) := by rw [PG.getElem?_portLink hc.1, hlq]
        have hne : p ≠ q' := by
          rintro rfl
          rw [hp] at hq
          simp only [Option.some.injEq, Prod.mk.injEq] at hq
          exact Direction.reverse_ne d hq.2.symm
        obtain ⟨G, hG⟩ : ∃ G : PG, { g with portLink := (g.portLink.set p none).set q' none, linkCount := g.linkCount - 1 } = G := ⟨_, rfl⟩
        have hGp : ∀ x, G.port? x = g.port? x := by intro x; rw [← hG]; rfl
        have e1 : G.portLink[p]? = some none := by
          rw [← hG]
          show ((g.portLink.set p none).set q' none)[p]? = _
          rw [List.getElem?_set_ne hne.symm, List.getElem?_set_self (by omega)]
        have e2 : G.portLink[q']? = some none := by
          rw [← hG]
          show ((g.portLink.set p none).set q' none)[q']? = _
          rw [List.getElem?_set_self (by simpa using hc.1)]
        have c1 : (G.portLink.set p (some q')).set q' (some p) = g.portLink := by
          rw [← hG]
          show ((((g.portLink.set p none).set q' none).set p (some q')).set q' (some p)) = _
          rw [List.set_comm _ _ hne.symm, List.set_set, List.set_set, set_same hl, set_same hql]
        have c2 : (G.portLink.set q' (some p)).set p (some q') = g.portLink := by
          rw [List.set_comm _ _ hne.symm, c1]
        have fin : ({ G with portLink := g.portLink, linkCount := G.linkCount + 1 } : PG) = g := by
          have h0 := hc.2
          rw [← hG]
          cases g
          simp only [PG.mk.injEq, true_and, and_true] at h0 ⊢
          omega
        rw [hG]
        constructor
        · unfold PG.linkPorts
          rw [hGp, hGp, hp, hq]
          simp only
          rw [if_neg (Ne.symm (Direction.reverse_ne d)), e1, e2]
          simp only
          rw [c1, fin]
        · unfold PG.linkPorts
          rw [hGp, hGp, hp, hq]
          simp only
          rw [if_neg (Direction.reverse_ne d), e1, e2]
          simp only
          rw [c2, fin]
      · cases h

theorem link_unlink {g : PG} (hI : PG.Inv g) {a b : Nat} {r : Nat × Nat} {g' : PG} (h : g.linkPorts a b = some (.ok r, g')) :
    g'.unlinkPort a = some (some b, g) ∧ g'.unlinkPort b = some (some a, g) := by
  have hlen := hI.len
  unfold PG.linkPorts at h
  split at h
  · cases h
  rename_i na da hp
  split at h
  · cases h
  rename_i nb db hq
  split at h
  · cases h
  rename_i hd
  split at h
  · cases h
  · cases h
  rename_i ga
  split at h
  · cases h
  · cases h
  rename_i gb
  simp only [Option.some.injEq, Prod.mk.injEq] at h
  obtain ⟨-, rfl⟩ := h
  have hab : a ≠ b := by
    rintro rfl
    rw [hp] at hq
    simp only [Option.some.injEq, Prod.mk.injEq] at hq
    exact hd hq.2
  have hla := PG.port?_lt (g := g) (p := a) (by simp [hp])
  have hlb := PG.port?_lt (g := g) (p := b) (by simp [hq])
  have hpt : ∀ q, ({ g with portLink := (g.portLink.set a (some b)).set b (some a), linkCount := g.linkCount + 1 } : PG).port? q
      = g.port? q := fun _ => rfl
  have e1 : ((g.portLink.set a (some b)).set b (some a))[a]? = some (some b) := by
    rw [List.getElem?_set_ne hab.symm, List.getElem?_set_self (by omega)]
  have e2 : ((g.portLink.set a (some b)).set b (some a))[b]? = some (some a) := by
    rw [List.getElem?_set_self (by simp; omega)]
  have c1 : (((g.portLink.set a (some b)).set b (some a)).set a none).set b none = g.portLink := by
    rw [List.set_comm _ _ hab, List.set_set, List.set_comm _ _ hab.symm, List.set_set, set_same ga, set_same gb]
  have c2 : (((g.portLink.set a (some b)).set b (some a)).set b none).set a none = g.portLink := by
    rw [List.set_set, List.set_comm _ _ hab.symm, List.set_set, set_same ga, set_same gb]
  constructor
  · simp only [PG.unlinkPort, hpt, hp, e1]
    rw [if_pos ⟨by simp; omega, by omega⟩]
    simp only [c1]; rfl
  · simp only [PG.unlinkPort, hpt, hq, e2]
    rw [if_pos ⟨by simp; omega, by omega⟩]
    simp only [c2]; rfl

theorem swap_nodes_twice {g : PG} (hI : PG.Inv g) {a b : Nat}
    (ha : g.containsNode a = true) (hb : g.containsNode b = true) :
    ∃ g1, g.swapNodes a b = some g1 ∧ g1.swapNodes a b = some g := by
  obtain ⟨ma, hma⟩ := Option.isSome_iff_exists.1 (containsNode_iff.1 ha)
  obtain ⟨mb, hmb⟩ := Option.isSome_iff_exists.1 (containsNode_iff.1 hb)
  have exact_ : ∀ {g : PG} (_ : PG.Inv g) {ma mb : NodeMeta}, g.node? a = some ma → g.node? b = some mb →
      ∃ g', g.swapNodes a b = some g' ∧ g' = { g with nodeMeta := (g.nodeMeta.set a (.node mb)).set b (.node ma), portMeta := g'.portMeta } ∧
        g'.portMeta.length = g.portMeta.length := by
    intro g hI ma mb hma hmb
    obtain ⟨own, fs, hP, hfull⟩ := hI.slots
    have hba := hP.bound a ma hma
    have hbb := hP.bound b mb hmb
    obtain ⟨g1, h1, he1, hl1, -⟩ := claimPorts_ok (g := { g with nodeMeta := (g.nodeMeta.set a (.node mb)).set b (.node ma) }) (n := a) (m := mb)
      (by show _ ≤ g.portMeta.length; omega)
    obtain ⟨g2, h2, he2, hl2, -⟩ := claimPorts_ok (g := g1) (n := b) (m := ma) (by rw [hl1]; show _ ≤ g.portMeta.length; omega)
    refine ⟨g2, ?_, ?_, by rw [hl2, hl1]⟩
    · unfold PG.swapNodes
      rw [PG.node?_eq.1 hma, PG.node?_eq.1 hmb]
      simp only [PG.swapClaim, h1, h2]
    · rw [he2, he1]
  obtain ⟨g1, h1, hI1, hn1, hp1, -⟩ := swapNodes_ok hI hma hmb
  obtain ⟨g1', e1, f1, l1⟩ := exact_ hI hma hmb
  rw [h1] at e1
  simp only [Option.some.injEq] at e1
  subst e1
  have hma1 : g1.node? a = some mb := by rw [hn1]; simp [swapIdx, hmb]
  have hmb1 : g1.node? b = some ma := by
    rw [hn1]
    by_cases hab : b = a
    · subst hab; simp [swapIdx, hma]
    · simp [swapIdx, hab, hma]
  obtain ⟨g2, h2, hI2, -, hp2, -⟩ := swapNodes_ok hI1 hma1 hmb1
  obtain ⟨g2', e2, f2, l2⟩ := exact_ hI1 hma1 hmb1
  rw [h2] at e2
  simp only [Option.some.injEq] at e2
  subst e2
  refine ⟨g1, h1, ?_⟩
  rw [h2]
  have hpm : g2.portMeta = g.portMeta := by
    have hpt : g2.port? = g.port? := by
      rw [hp2, hp1]
      funext p
      simp only
      cases g.port? p with
      | none => rfl
      | some x => simp only [Option.map_some, swapIdx_swapIdx]
    apply List.ext_getElem?
    intro p
    have := congrFun hpt p
    unfold PG.port? at this
    rcases Nat.lt_or_ge p g.portMeta.length with hlt | hge
    · rw [List.getElem?_eq_getElem hlt, List.getElem?_eq_getElem (by omega)] at this ⊢
      revert this
      generalize g2.portMeta[p] = x
      generalize g.portMeta[p] = y
      intro this
      cases x <;> cases y <;> simp only [Option.some.injEq, Prod.mk.injEq, reduceCtorEq] at this
      · rfl
      · rw [this.1, this.2]
    · rw [List.getElem?_eq_none hge, List.getElem?_eq_none (by omega)]
  have hnm : g2.nodeMeta = g.nodeMeta := by
    have g2n : g2.nodeMeta = (g1.nodeMeta.set a (.node ma)).set b (.node mb) := by rw [f2]
    have g1n : g1.nodeMeta = (g.nodeMeta.set a (.node mb)).set b (.node ma) := by rw [f1]
    rw [g2n, g1n]
    have ha' := PG.node?_eq.1 hma
    have hb' := PG.node?_eq.1 hmb
    by_cases hab : a = b
    · subst hab
      rw [List.set_set, List.set_set, List.set_set]
      exact set_same hb'
    · rw [List.set_comm _ _ (Ne.symm hab), List.set_set, List.set_set, set_same ha', set_same hb']
  have hrest : g2 = { g with nodeMeta := g2.nodeMeta, portMeta := g2.portMeta } := by
    rw [f2, f1]
  rw [hrest, hpm, hnm]

theorem link_calls {g : PG} (hI : PG.Inv g) (c c' : LinkCall)
    (hdis : ∀ x, ¬ (c.touches g x ∧ c'.touches g x)) :
    ∃ r r' g1 k1 g2, c.call g = some (r, g1) ∧ c'.call g1 = some (r', g2) ∧ c'.call g = some (r', k1) ∧ c.call k1 = some (r, g2) := by
  have hreach : ∀ (c : LinkCall) {k k' : PG} {r}, PG.Inv k → c.call k = some (r, k') → PG.Inv k' := by
    intro c k k' r hk h
    cases c with
    | link a b =>
      simp only [LinkCall.call, Option.map_eq_some_iff, Prod.mk.injEq] at h
      obtain ⟨x, hx, -, rfl⟩ := h
      obtain ⟨k', h1, h2⟩ := step_ok (Nat.le_refl 32767) hk (op := .linkPorts a b) trivial
      simp only [PG.step, hx, Option.map_some, Option.some.injEq] at h1
      rw [h1]; exact h2
    | unlink p =>
      simp only [LinkCall.call, Option.map_eq_some_iff, Prod.mk.injEq] at h
      obtain ⟨x, hx, -, rfl⟩ := h
      obtain ⟨k', h1, h2⟩ := step_ok (Nat.le_refl 32767) hk (op := .unlinkPort p) trivial
      simp only [PG.step, hx, Option.map_some, Option.some.injEq] at h1
      rw [h1]; exact h2
  obtain ⟨r, W, u, d, w1, w2⟩ := call_local hI c
  obtain ⟨r', W', u', d', w1', w2'⟩ := call_local hI c'
  obtain ⟨e1, l1⟩ := w2 g hI rfl fun _ _ => rfl
  obtain ⟨e1', l1'⟩ := w2' g hI rfl fun _ _ => rfl
  obtain ⟨e2', l2'⟩ := w2' (after g W u d) (hreach c hI e1) rfl fun x hx =>
    writes_other (fun w hw hwx => hdis x ⟨by rw [← hwx]; exact w1 w hw, hx⟩) _
  obtain ⟨e2, l2⟩ := w2 (after g W' u' d') (hreach c' hI e1') rfl fun x hx =>
    writes_other (fun w hw hwx => hdis x ⟨hx, by rw [← hwx]; exact w1' w hw⟩) _
  refine ⟨r, r', _, _, _, e1, e2', e1', ?_⟩
  rw [e2]
  have hw := writes_comm (V := W) (W := W') (fun v hv w hw hvw => hdis v.1 ⟨w1 v hv, hvw ▸ w1' w hw⟩) g.portLink
  simp only [Option.some.injEq, Prod.mk.injEq, true_and]
  unfold after at l2 l2' ⊢
  simp only at l2 l2' ⊢
  rw [hw]
  congr 1
  omega

end Verif.Undo
