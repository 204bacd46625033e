import Verif.PortGraph.OpsAdd

/-! The relocation loop of `set_num_ports`. -/

namespace Verif.PG

open Verif (Direction)

/-- Links after renaming ports by the involution `τ`. -/
def conj (pt : Nat → Option (Nat × Direction)) (lk : Nat → Option Nat) (τ : Nat → Nat) :
    Nat → Option Nat := fun p =>
  if (pt p).isSome then (lk (τ p)).map τ else lk p

/-- Exchange of `[a, a+k)` and `[b, b+k)`. -/
def swapR (a b k p : Nat) : Nat :=
  if inRange a k p then b + (p - a) else if inRange b k p then a + (p - b) else p

theorem conj_zero {pt : Nat → Option (Nat × Direction)} {lk : Nat → Option Nat} {a b} :
    conj pt lk (swapR a b 0) = lk := by
  have : swapR a b 0 = id := by funext p; simp only [swapR, id]; grind
  funext p; simp [conj, this]

/-- Disjointness of two ranges of length `k`. -/
def disj (a b k : Nat) : Prop := a + k ≤ b ∨ b + k ≤ a

theorem relocPort_ok {g : PG} {a b n d} (hab : a ≠ b) (hpa : g.port? a = some (n, d))
    (hpb : g.port? b = some (n, d)) (hlen : g.portLink.length = g.portMeta.length)
    (hlb : g.lk b = none)
    (hsym : ∀ p q, (g.port? p).isSome → g.lk p = some q → (g.port? q).isSome ∧ g.lk q = some p)
    (hself : g.lk a ≠ some a) :
    ∃ g', g.relocPort a b = some g' ∧ g' = { g with portLink := g'.portLink } ∧
      g'.lk = conj g.port? g.lk (swapR a b 1) ∧ g'.portLink.length = g.portLink.length := by
  have hla := PG.port?_lt (g := g) (p := a) (by simp [hpa])
  have hlb' := PG.port?_lt (g := g) (p := b) (by simp [hpb])
  have hma := PG.port?_eq.1 hpa
  have hmb := PG.port?_eq.1 hpb
  have hset : g.portMeta.set b (.port n d) = g.portMeta := by
    apply List.ext_getElem?
    intro i
    rw [List.getElem?_set]
    by_cases e : b = i
    · subst e; rw [hmb]; simp [hlb']
    · rw [if_neg e]
  have hsw : ∀ p, swapR a b 1 p = if p = a then b else if p = b then a else p := by
    intro p; simp only [swapR, inRange]; grind
  cases hl : g.lk a with
  | none =>
    refine ⟨{ g with portLink := (g.portLink.set a none).set b none }, ?_, rfl, ?_, by simp⟩
    · simp only [PG.relocPort]
      rw [PG.getElem?_portLink (by omega), hl]
      simp only
      rw [PG.getElem?_portLink (by omega), hl, hma]
      simp only
      rw [if_pos ⟨by omega, hlb'⟩, hset]
    · funext p
      show (((g.portLink.set a none).set b none)[p]?).join = _
      rw [join_set _ _ _ _ (by simp; omega), join_set _ _ _ _ (by omega), ← PG.lk]
      simp only [conj, hsw]
      have := hsym p
      cases hx : g.lk p <;> grind
  | some q =>
    obtain ⟨hq, hqa⟩ := hsym a q (by simp [hpa]) hl
    have hqlt := PG.port?_lt hq
    have hqane : q ≠ a := by rintro rfl; exact hself hl
    have hqbne : q ≠ b := by rintro rfl; rw [hqa] at hlb; simp at hlb
    refine ⟨{ g with portLink := ((g.portLink.set q (some b)).set a none).set b (some q) }, ?_, rfl, ?_, by simp⟩
    · simp only [PG.relocPort]
      rw [PG.getElem?_portLink (by omega), hl]
      simp only [vset]
      rw [if_pos (by omega)]
      simp only
      rw [List.getElem?_set_ne hqane, PG.getElem?_portLink (by omega), hl, hma]
      simp only [List.length_set]
      rw [if_pos ⟨by omega, hlb'⟩, hset]
    · funext p
      show ((((g.portLink.set q (some b)).set a none).set b (some q))[p]?).join = _
      rw [join_set _ _ _ _ (by simp; omega), join_set _ _ _ _ (by simp; omega), join_set _ _ _ _ (by omega),
        ← PG.lk]
      simp only [conj, hsw]
      have := hsym p
      cases hx : g.lk p <;> grind

theorem relocPorts_append (g : PG) (xs ys : List (Nat × Nat)) {g1 g2 t1 t2}
    (h1 : g.relocPorts xs = some (g1, t1)) (h2 : g1.relocPorts ys = some (g2, t2)) :
    g.relocPorts (xs ++ ys) = some (g2, t1 ++ t2) := by
  induction xs generalizing g t1 with
  | nil => simp [PG.relocPorts] at h1; obtain ⟨rfl, rfl⟩ := h1; simpa using h2
  | cons x xs ih =>
    obtain ⟨o, n⟩ := x
    simp only [PG.relocPorts] at h1
    split at h1
    · simp at h1
    · rename_i g' hg'
      split at h1
      · simp at h1
      · rename_i r g'' tr hr
        simp at h1
        obtain ⟨rfl, rfl⟩ := h1
        simp [PG.relocPorts, hg', ih g' hr]

/-- Links are symmetric and reverse the direction. -/
def SymLinks (pt : Nat → Option (Nat × Direction)) (lk : Nat → Option Nat) : Prop :=
  ∀ p n d q, pt p = some (n, d) → lk p = some q →
    lk q = some p ∧ ∃ n', pt q = some (n', d.reverse)

theorem SymLinks.sym {pt lk} (h : SymLinks pt lk) {p q} (hp : (pt p).isSome) (hl : lk p = some q) :
    (pt q).isSome ∧ lk q = some p := by
  obtain ⟨⟨n, d⟩, hx⟩ := Option.isSome_iff_exists.1 hp
  obtain ⟨h1, n', h2⟩ := h p n d q hx hl
  exact ⟨by simp [h2], h1⟩

theorem SymLinks.self {pt lk} (h : SymLinks pt lk) {p} (hp : (pt p).isSome) : lk p ≠ some p := by
  intro hl
  obtain ⟨⟨n, d⟩, hx⟩ := Option.isSome_iff_exists.1 hp
  obtain ⟨h1, n', h2⟩ := h p n d p hx hl
  rw [hx] at h2; cases d <;> simp [Direction.reverse] at h2

theorem SymLinks.conj {pt lk τ} (h : SymLinks pt lk) (hinv : ∀ p, τ (τ p) = p)
    (hpt : ∀ p, pt (τ p) = pt p) : SymLinks pt (conj pt lk τ) := by
  intro p n d q hp hl
  simp only [PG.conj, hp, Option.isSome_some, if_true] at hl
  cases e : lk (τ p) with
  | none => simp [e] at hl
  | some r =>
    simp [e] at hl
    subst hl
    obtain ⟨h1, n', h2⟩ := h (τ p) n d r (by rw [hpt]; exact hp) e
    have h3 : pt (τ r) = some (n', d.reverse) := by rw [hpt]; exact h2
    refine ⟨?_, n', h3⟩
    simp [PG.conj, h3, hinv, h1]

theorem swapR_swapR {a b k : Nat} (h : disj a b k) (p : Nat) : swapR a b k (swapR a b k p) = p := by
  simp only [swapR, disj] at *
  grind

theorem swapR_pt {pt : Nat → Option (Nat × Direction)} {a b k : Nat} {n d}
    (ha : ∀ p, a ≤ p → p < a + k → pt p = some (n, d))
    (hb : ∀ p, b ≤ p → p < b + k → pt p = some (n, d)) (p : Nat) : pt (swapR a b k p) = pt p := by
  by_cases e1 : inRange a k p = true
  · have e := inRange_iff.1 e1
    rw [ha p e.1 e.2, swapR, if_pos e1, hb _ (by omega) (by omega)]
  · by_cases e2 : inRange b k p = true
    · have e := inRange_iff.1 e2
      rw [hb p e.1 e.2, swapR, if_neg e1, if_pos e2, ha _ (by omega) (by omega)]
    · rw [swapR, if_neg e1, if_neg e2]

theorem relocPorts_range {g : PG} {a b k n d} (hd : disj a b k)
    (ha : ∀ p, a ≤ p → p < a + k → g.port? p = some (n, d))
    (hb : ∀ p, b ≤ p → p < b + k → g.port? p = some (n, d))
    (hlen : g.portLink.length = g.portMeta.length)
    (hlb : ∀ p, b ≤ p → p < b + k → g.lk p = none)
    (hsym : SymLinks g.port? g.lk) :
    ∃ g', g.relocPorts ((List.range' a k).zip (List.range' b k)) =
        some (g', ((List.range' a k).zip (List.range' b k)).map fun x => (x.1, .moved x.2)) ∧
      g' = { g with portLink := g'.portLink } ∧
      g'.lk = conj g.port? g.lk (swapR a b k) ∧ g'.portLink.length = g.portLink.length := by
  induction k generalizing g a b with
  | zero => exact ⟨g, by simp [PG.relocPorts], rfl, conj_zero.symm, rfl⟩
  | succ k ih =>
    have hab : a ≠ b := by simp only [disj] at hd; omega
    have hpa := ha a (by omega) (by omega)
    have hpb := hb b (by omega) (by omega)
    obtain ⟨g1, h1, he1, hl1, hlen1⟩ := relocPort_ok (g := g) hab hpa hpb hlen
      (hlb b (by omega) (by omega)) (fun p q => hsym.sym) (hsym.self (by simp [hpa]))
    have hport : g1.port? = g.port? := by rw [he1]; rfl
    have hpm : g1.portMeta = g.portMeta := by rw [he1]
    have hsw1 : ∀ p, swapR a b 1 p = if p = a then b else if p = b then a else p := by
      intro p; simp only [swapR, inRange]; grind
    have hsym1 : SymLinks g1.port? g1.lk := by
      rw [hport, hl1]
      refine hsym.conj (swapR_swapR ?_) (swapR_pt (n := n) (d := d) ?_ ?_)
      · simp only [disj] at *; omega
      · intro p h1 h2; exact ha p (by omega) (by omega)
      · intro p h1 h2; exact hb p (by omega) (by omega)
    obtain ⟨g2, h2, he2, hl2, hlen2⟩ := ih (g := g1) (a := a + 1) (b := b + 1)
      (by simp only [disj] at *; omega)
      (by rw [hport]; intro p h1 h2; exact ha p (by omega) (by omega))
      (by rw [hport]; intro p h1 h2; exact hb p (by omega) (by omega))
      (by rw [hlen1, hpm]; exact hlen)
      (by
        rw [hl1]
        intro p h1 h2
        have hpn := hlb p (by omega) (by omega)
        simp only [disj] at hd
        simp only [conj, hsw1]
        grind)
      hsym1
    refine ⟨g2, ?_, ?_, ?_, by omega⟩
    · simp only [List.range'_succ, List.zip_cons_cons, PG.relocPorts, h1, h2, List.map_cons]
    · rw [he2, he1]
    · rw [hl2, hport, hl1]
      funext p
      have hs : ∀ p, swapR a b (k + 1) p = swapR (a + 1) (b + 1) k (swapR a b 1 p) := by
        intro p; rw [hsw1]; simp only [swapR, disj] at *; grind
      have hs' : ∀ p, swapR a b (k + 1) p = swapR a b 1 (swapR (a + 1) (b + 1) k p) := by
        intro p; rw [hsw1]; simp only [swapR, disj] at *; grind
      have hpt : (g.port? (swapR (a + 1) (b + 1) k p)) = g.port? p := by
        apply swapR_pt (n := n) (d := d)
        · intro p h1 h2; exact ha p (by omega) (by omega)
        · intro p h1 h2; exact hb p (by omega) (by omega)
      simp only [conj]
      by_cases e : (g.port? p).isSome = true
      · simp only [e, if_true, hpt]
        rw [hs', Option.map_map]
        congr 1
        funext x
        exact (hs x).symm
      · simp [e]

end Verif.PG
