import Verif.PortGraph.OpsReloc

/-! The in-place move loop of `resize_ports_inplace`. -/

namespace Verif.PG

open Verif (Direction)

/-- `p` is an incoming port. -/
def isIn (pt : Nat → Option (Nat × Direction)) (p : Nat) : Bool :=
  match pt p with
  | some (_, .incoming) => true
  | _ => false

/-- Shift of references into `[a, a+k)` to `[b, b+k)`. -/
def slide (a b k r : Nat) : Nat := if inRange a k r then b + (r - a) else r

/-- Links after moving the ports `[a, a+k)` to `[b, b+k)`, stale slots included. -/
def moved (pt : Nat → Option (Nat × Direction)) (lk : Nat → Option Nat) (a b k : Nat) :
    Nat → Option Nat := fun p =>
  if inRange b k p then lk (a + (p - b))
  else if isIn pt p then (lk p).map (slide a b k)
  else lk p

/-- What the loop needs to know about the ports it moves. -/
structure Movable (pt : Nat → Option (Nat × Direction)) (lk : Nat → Option Nat) (n a b k : Nat) :
    Prop where
  src : ∀ p, a ≤ p → p < a + k → pt p = some (n, .outgoing)
  partner : ∀ p q, a ≤ p → p < a + k → lk p = some q →
    isIn pt q = true ∧ lk q = some p ∧ ¬ (b ≤ q ∧ q < b + k)
  back : ∀ q p, isIn pt q = true → lk q = some p → a ≤ p → p < a + k → lk p = some q

theorem PG.lk_set {g : PG} {i x} (hi : i < g.portLink.length) :
    PG.lk { g with portLink := g.portLink.set i x } = upd g.lk i x := by
  funext j
  simp only [PG.lk, upd]
  rw [join_set _ _ _ _ hi]

theorem movePort_ok {g : PG} {n a b} (h : Movable g.port? g.lk n a b 1)
    (hlen : g.portLink.length = g.portMeta.length) (hb : b < g.portMeta.length) :
    ∃ g', g.movePort a b = some g' ∧
      g' = { g with portLink := g'.portLink, portMeta := g'.portMeta } ∧
      g'.portLink.length = g.portLink.length ∧ g'.portMeta.length = g.portMeta.length ∧
      g'.port? = upd g.port? b (some (n, .outgoing)) ∧
      g'.lk = moved g.port? g.lk a b 1 := by
  have hpa := h.src a (by omega) (by omega)
  have hla := PG.port?_lt (g := g) (p := a) (by simp [hpa])
  have hma := PG.port?_eq.1 hpa
  have hport : ∀ pl, PG.port? { g with portLink := pl, portMeta := g.portMeta.set b (.port n .outgoing) } =
      upd g.port? b (some (n, .outgoing)) := by
    intro pl
    funext j
    simp only [PG.port?, upd]
    rw [List.getElem?_set]
    by_cases e : b = j
    · subst e; simp [hb]
    · rw [if_neg e, if_neg (fun h => e h.symm)]
  cases hl : g.lk a with
  | none =>
    refine ⟨{ g with portLink := g.portLink.set b none, portMeta := g.portMeta.set b (.port n .outgoing) },
      ?_, rfl, by simp, by simp, hport _, ?_⟩
    · simp only [PG.movePort]
      rw [PG.getElem?_portLink (by omega), hl, hma]
      simp only
      rw [if_pos ⟨by omega, hb⟩]
    · refine Eq.trans (PG.lk_set (g := g) (by omega)) ?_
      funext p
      simp only [upd, moved, slide]
      have hk := h.back p a
      by_cases e : p = b
      · subst e; simp [hl, inRange]
      · rw [if_neg e, if_neg (by simp; omega)]
        by_cases e2 : isIn g.port? p = true
        · rw [if_pos e2]
          cases hx : g.lk p with
          | none => rfl
          | some r =>
            simp [slide]
            intro h1 h2
            have : r = a := by omega
            subst this
            have := hk e2 hx (by omega) (by omega)
            rw [hl] at this; simp at this
        · rw [if_neg e2]
  | some q =>
    obtain ⟨hq, hqa, hqb⟩ := h.partner a q (by omega) (by omega) hl
    have hqlt : q < g.portMeta.length := by
      apply PG.port?_lt
      unfold isIn at hq
      split at hq <;> simp_all
    have hqbne : q ≠ b := by omega
    refine ⟨{ g with
        portLink := (g.portLink.set b (some q)).set q (some b)
        portMeta := g.portMeta.set b (.port n .outgoing) },
      ?_, rfl, by simp, by simp, hport _, ?_⟩
    · simp only [PG.movePort]
      rw [PG.getElem?_portLink (by omega), hl, hma]
      simp only [List.length_set]
      rw [if_pos ⟨by omega, hb⟩, if_pos (by omega)]
    · refine Eq.trans (PG.lk_set (g := { g with portLink := g.portLink.set b (some q) }) (by simp; omega)) ?_
      rw [PG.lk_set (by omega)]
      funext p
      have hk := h.back p a
      simp only [upd, moved, slide]
      by_cases e : p = b
      · subst e; simp [hl, inRange, hqbne.symm]
      · have e0 : inRange b 1 p = false := by rw [inRange_eq_false]; omega
        rw [e0]
        by_cases e1 : p = q
        · subst e1; simp [hq, hqa, inRange, slide]
        · simp only [if_neg e, if_neg e1]
          by_cases e2 : isIn g.port? p = true
          · cases hx : g.lk p with
            | none => simp
            | some r =>
              simp [e2, slide]
              intro h1 h2
              have : r = a := by omega
              subst this
              have := hk e2 hx (by omega) (by omega)
              rw [hl] at this; simp at this; exact absurd this.symm e1
          · simp [e2]

theorem isIn_upd_out {pt : Nat → Option (Nat × Direction)} {b n p} :
    isIn (upd pt b (some (n, .outgoing))) p = (isIn pt p && !decide (p = b)) := by
  unfold isIn upd
  by_cases e : p = b
  · simp [e]
  · simp [e]

/-- Common shape of both loops. -/
theorem movePorts_left {g : PG} {n a b k} (hba : b ≤ a) (h : Movable g.port? g.lk n a b k)
    (hlen : g.portLink.length = g.portMeta.length) (hb : b + k ≤ g.portMeta.length) :
    ∃ g', g.movePorts ((List.range' a k).zip (List.range' b k)) =
        some (g', ((List.range' a k).zip (List.range' b k)).map fun x => (x.1, .moved x.2)) ∧
      g' = { g with portLink := g'.portLink, portMeta := g'.portMeta } ∧
      g'.portLink.length = g.portLink.length ∧ g'.portMeta.length = g.portMeta.length ∧
      g'.port? = (fun p => if inRange b k p then some (n, .outgoing) else g.port? p) ∧
      g'.lk = moved g.port? g.lk a b k := by
  induction k generalizing g a b with
  | zero =>
    refine ⟨g, by simp [PG.movePorts], rfl, rfl, rfl, ?_, ?_⟩
    · funext p; simp [inRange]; grind
    · funext p
      have : slide a b 0 = id := by funext r; simp only [slide, id]; grind
      simp only [moved, this]
      grind [Option.map_id]
  | succ k ih =>
    have hstep : Movable g.port? g.lk n a b 1 :=
      ⟨fun p h1 h2 => h.src p h1 (by omega),
       fun p q h1 h2 h3 => by
        obtain ⟨x, y, z⟩ := h.partner p q h1 (by omega) h3
        exact ⟨x, y, by omega⟩,
       fun q p h1 h2 h3 h4 => h.back q p h1 h2 h3 (by omega)⟩
    obtain ⟨g1, h1, he1, hll1, hml1, hp1, hl1⟩ := movePort_ok hstep hlen (by omega)
    have hpa := h.src a (by omega) (by omega)
    -- partners of sources
    have hval : ∀ p, a < p → p < a + (k + 1) → g1.lk p = g.lk p := by
      intro p h2 h3
      rw [hl1]
      simp only [moved]
      have hs := h.src p (by omega) h3
      rw [if_neg (by simp; omega), if_neg]
      simp [isIn, hs]
    have hval2 : ∀ q p, isIn g.port? q = true → g.lk q = some p → p ≠ a → q ≠ b → g1.lk q = some p := by
      intro q p h2 h3 h4 h5
      rw [hl1]
      simp only [moved]
      rw [if_neg (by simp; omega), if_pos h2, h3]
      simp [slide]
      omega
    have hin1 : ∀ p, isIn g1.port? p = (isIn g.port? p && !decide (p = b)) := by
      intro p; rw [hp1, isIn_upd_out]
    have hrest : Movable g1.port? g1.lk n (a + 1) (b + 1) k := by
      refine ⟨?_, ?_, ?_⟩
      · intro p h2 h3
        rw [hp1]
        simp only [upd]
        split
        · rfl
        · exact h.src p (by omega) (by omega)
      · intro p q h2 h3 h4
        rw [hval p (by omega) (by omega)] at h4
        obtain ⟨x, y, z⟩ := h.partner p q (by omega) (by omega) h4
        refine ⟨?_, ?_, by omega⟩
        · rw [hin1, x]; simp; omega
        · exact hval2 q p x y (by omega) (by omega)
      · intro q p h2 h3 h4 h5
        rw [hin1] at h2
        simp at h2
        rw [hl1] at h3
        simp only [moved] at h3
        rw [if_neg (by simp; omega), if_pos h2.1] at h3
        cases hx : g.lk q with
        | none => simp [hx] at h3
        | some r =>
          simp [hx, slide] at h3
          have hr : r = p := by
            split at h3
            · omega
            · exact h3
          subst hr
          rw [hval r (by omega) (by omega)]
          exact h.back q r h2.1 hx (by omega) (by omega)
    obtain ⟨g2, h2, he2, hll2, hml2, hp2, hl2⟩ := ih (g := g1) (a := a + 1) (b := b + 1) (by omega) hrest
      (by omega) (by omega)
    refine ⟨g2, ?_, ?_, by omega, by omega, ?_, ?_⟩
    · simp only [List.range'_succ, List.zip_cons_cons, PG.movePorts, h1, h2, List.map_cons]
    · rw [he2, he1]
    · rw [hp2, hp1]; funext p; simp only [upd]; grind
    · rw [hl2]
      funext p
      simp only [moved]
      by_cases e1 : b + 1 ≤ p ∧ p < b + 1 + k
      · rw [if_pos (by simpa using e1), if_pos (by simp; omega), hval _ (by omega) (by omega)]
        congr 1; omega
      · rw [if_neg (by simpa using e1)]
        by_cases e2 : p = b
        · subst e2
          rw [hin1]
          simp
          rw [hl1]
          simp [moved, inRange]
        · rw [if_neg (c := inRange b (k+1) p = true) (by simp; omega), hin1]
          simp only [e2, decide_false, Bool.not_false, Bool.and_true]
          rw [hl1]
          by_cases e3 : isIn g.port? p = true
          · simp only [moved, e3, if_true]
            rw [if_neg (by simp; omega)]
            cases hx : g.lk p with
            | none => rfl
            | some r =>
              simp only [Option.map_some, slide, inRange_iff]
              grind
          · have e4 : inRange b 1 p = false := by rw [inRange_eq_false]; omega
            simp [moved, e3, e4]

theorem movePorts_right {g : PG} {n a b k} (hba : a ≤ b) (h : Movable g.port? g.lk n a b k)
    (hlen : g.portLink.length = g.portMeta.length) (hb : b + k ≤ g.portMeta.length) :
    ∃ g', g.movePorts ((List.range' a k).zip (List.range' b k)).reverse =
        some (g', ((List.range' a k).zip (List.range' b k)).reverse.map fun x => (x.1, .moved x.2)) ∧
      g' = { g with portLink := g'.portLink, portMeta := g'.portMeta } ∧
      g'.portLink.length = g.portLink.length ∧ g'.portMeta.length = g.portMeta.length ∧
      g'.port? = (fun p => if inRange b k p then some (n, .outgoing) else g.port? p) ∧
      g'.lk = moved g.port? g.lk a b k := by
  induction k generalizing g with
  | zero =>
    refine ⟨g, by simp [PG.movePorts], rfl, rfl, rfl, ?_, ?_⟩
    · funext p; simp [inRange]; grind
    · funext p
      have : slide a b 0 = id := by funext r; simp only [slide, id]; grind
      simp only [moved, this]
      grind [Option.map_id]
  | succ k ih =>
    have hstep : Movable g.port? g.lk n (a + k) (b + k) 1 :=
      ⟨fun p h1 h2 => h.src p (by omega) (by omega),
       fun p q h1 h2 h3 => by
        obtain ⟨x, y, z⟩ := h.partner p q (by omega) (by omega) h3
        exact ⟨x, y, by omega⟩,
       fun q p h1 h2 h3 h4 => h.back q p h1 h2 (by omega) (by omega)⟩
    obtain ⟨g1, h1, he1, hll1, hml1, hp1, hl1⟩ := movePort_ok hstep hlen (by omega)
    have hval : ∀ p, a ≤ p → p < a + k → g1.lk p = g.lk p := by
      intro p h2 h3
      rw [hl1]
      simp only [moved]
      have hs := h.src p (by omega) (by omega)
      rw [if_neg (by simp; omega), if_neg]
      simp [isIn, hs]
    have hval2 : ∀ q p, isIn g.port? q = true → g.lk q = some p → p ≠ a + k → q ≠ b + k → g1.lk q = some p := by
      intro q p h2 h3 h4 h5
      rw [hl1]
      simp only [moved]
      rw [if_neg (by simp; omega), if_pos h2, h3]
      simp [slide]
      omega
    have hin1 : ∀ p, isIn g1.port? p = (isIn g.port? p && !decide (p = b + k)) := by
      intro p; rw [hp1, isIn_upd_out]
    have hrest : Movable g1.port? g1.lk n a b k := by
      refine ⟨?_, ?_, ?_⟩
      · intro p h2 h3
        rw [hp1]
        simp only [upd]
        split
        · rfl
        · exact h.src p (by omega) (by omega)
      · intro p q h2 h3 h4
        rw [hval p (by omega) (by omega)] at h4
        obtain ⟨x, y, z⟩ := h.partner p q (by omega) (by omega) h4
        refine ⟨?_, ?_, by omega⟩
        · rw [hin1, x]; simp; omega
        · exact hval2 q p x y (by omega) (by omega)
      · intro q p h2 h3 h4 h5
        rw [hin1] at h2
        simp at h2
        rw [hl1] at h3
        simp only [moved] at h3
        rw [if_neg (by simp; omega), if_pos h2.1] at h3
        cases hx : g.lk q with
        | none => simp [hx] at h3
        | some r =>
          simp [hx, slide] at h3
          have hr : r = p := by
            split at h3
            · omega
            · exact h3
          subst hr
          rw [hval r (by omega) (by omega)]
          exact h.back q r h2.1 hx (by omega) (by omega)
    obtain ⟨g2, h2, he2, hll2, hml2, hp2, hl2⟩ := ih (g := g1) hrest (by omega) (by omega)
    have hzip : ((List.range' a (k + 1)).zip (List.range' b (k + 1))).reverse =
        (a + k, b + k) :: ((List.range' a k).zip (List.range' b k)).reverse := by
      rw [List.range'_concat, List.range'_concat, List.zip_append (by simp)]
      simp
    refine ⟨g2, ?_, ?_, by omega, by omega, ?_, ?_⟩
    · rw [hzip]
      simp only [PG.movePorts, h1, h2, List.map_cons]
    · rw [he2, he1]
    · rw [hp2, hp1]; funext p; simp only [upd]; grind
    · rw [hl2]
      funext p
      simp only [moved]
      by_cases e1 : b ≤ p ∧ p < b + k
      · rw [if_pos (by simpa using e1), if_pos (by simp; omega), hval _ (by omega) (by omega)]
      · rw [if_neg (by simpa using e1)]
        by_cases e2 : p = b + k
        · subst e2
          rw [hin1]
          simp
          rw [hl1]
          simp [moved, inRange]
        · rw [if_neg (c := inRange b (k+1) p = true) (by simp; omega), hin1]
          simp only [e2, decide_false, Bool.not_false, Bool.and_true]
          rw [hl1]
          by_cases e3 : isIn g.port? p = true
          · simp only [moved, e3, if_true]
            rw [if_neg (by simp; omega)]
            cases hx : g.lk p with
            | none => rfl
            | some r =>
              simp only [Option.map_some, slide, inRange_iff]
              grind
          · have e4 : inRange (b + k) 1 p = false := by rw [inRange_eq_false]; omega
            simp [moved, e3, e4]

end Verif.PG
