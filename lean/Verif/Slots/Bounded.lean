import Verif.Slots.Effects

/-! The number of slabs of one size. -/

namespace Verif.Slots

open Verif (Direction)
open Verif.PG

/-- Node `n` is alive and has capacity `s`. -/
def hasCap (g : PG) (s n : Nat) : Bool := (g.node? n).any fun m => m.capacity == s

theorem live_eq {g : PG} {s : Nat} (hs : 0 < s) {N : Nat} (hN : g.nodeMeta.length ≤ N) : liveSlabs g s = cnt N (hasCap g s) := by
  rw [cnt_extend hN]
  · unfold liveSlabs cnt
    apply List.countP_congr
    intro n _
    rw [nodeSlots_eq, hasCap]
    cases g.node? n with
    | none => simp; omega
    | some m => simp
  · intro n hn hlt
    simp [hasCap, PG.node?, List.getElem?_eq_none hn]

theorem cnt_point {N : Nat} {P Q : Nat → Bool} {n : Nat} (hn : n < N) (h : ∀ j, j ≠ n → P j = Q j) :
    cnt N Q + (if P n then 1 else 0) = cnt N P + if Q n then 1 else 0 := by
  cases hp : P n <;> cases hq : Q n
  · have : cnt N Q = cnt N P := cnt_congr fun j _ => by
      by_cases e : j = n
      · rw [e, hp, hq]
      · exact (h j e).symm
    omega
  · have := cnt_insert hn hp hq fun j _ e => h j e
    simp; omega
  · have := cnt_insert hn hq hp fun j _ e => (h j e).symm
    simp; omega
  · have : cnt N Q = cnt N P := cnt_congr fun j _ => by
      by_cases e : j = n
      · rw [e, hp, hq]
      · exact (h j e).symm
    omega

/-- The live slabs after a change of one node. -/
theorem live_upd {g g' : PG} {n : Nat} {x : Option NodeMeta} (h : g'.node? = upd g.node? n x) {s : Nat} (hs : 0 < s) :
    liveSlabs g' s + (if (g.node? n).any (fun m => m.capacity == s) then 1 else 0) =
      liveSlabs g s + if x.any (fun m => m.capacity == s) then 1 else 0 := by
  have h1 := cnt_point (N := max (n + 1) (max g.nodeMeta.length g'.nodeMeta.length)) (P := hasCap g s) (Q := hasCap g' s) (n := n)
    (by omega) (by intro j hj; simp [hasCap, h, upd, hj])
  rw [live_eq hs (N := max (n + 1) (max g.nodeMeta.length g'.nodeMeta.length)) (by omega),
    live_eq hs (N := max (n + 1) (max g.nodeMeta.length g'.nodeMeta.length)) (by omega)]
  simp only [hasCap, h, upd, if_true] at h1
  exact h1

theorem live_congr {g g' : PG} (h : g'.node? = g.node?) {s : Nat} (hs : 0 < s) : liveSlabs g' s = liveSlabs g s := by
  rw [live_eq hs (N := max g.nodeMeta.length g'.nodeMeta.length) (by omega),
    live_eq hs (N := max g.nodeMeta.length g'.nodeMeta.length) (by omega)]
  apply cnt_congr
  intro i _
  simp [hasCap, h]

/-- Renaming the nodes keeps the live slabs. -/
theorem live_rename {g g' : PG} {ρ : Nat → Nat} (h : ∀ n' m, g'.node? n' = some m → ∃ n, ρ n = n' ∧ g.node? n = some m) {s : Nat}
    (hs : 0 < s) : liveSlabs g' s ≤ liveSlabs g s := by
  rw [live_eq hs (Nat.le_refl _), live_eq hs (Nat.le_refl _)]
  have h1 : ∀ n', ∃ n, hasCap g' s n' = true → ρ n = n' ∧ hasCap g s n = true := by
    intro n'
    cases e : g'.node? n' with
    | none => exact ⟨0, by simp [hasCap, e]⟩
    | some m =>
      obtain ⟨n, h1, h2⟩ := h n' m e
      exact ⟨n, by simp [hasCap, e, h1, h2]⟩
  choose σ hσ using h1
  apply cnt_le_of_inj σ
  · intro i _ hi
    obtain ⟨-, h2⟩ := hσ i hi
    refine ⟨?_, h2⟩
    rcases Nat.lt_or_ge (σ i) g.nodeMeta.length with h3 | h3
    · exact h3
    · simp [hasCap, PG.node?, List.getElem?_eq_none h3] at h2
  · intro i j _ _ hi hj e
    rw [← (hσ i hi).1, ← (hσ j hj).1, e]

theorem free_nil {g : PG} (h : g.portFree = []) (s : Nat) : freeSlabs g s = [] := by
  unfold freeSlabs
  rw [h]
  cases g.portMeta.length <;> rfl

/-- One call. -/
theorem total_step {maxOff : Nat} (hmax : maxOff ≤ 32767) {g g' : PG} (hI : PG.Inv g) {op : PG.Op} (hok : PG.Op.ok maxOff g op)
    (h : g.step maxOff op = some g') {s M B : Nat} (hs : 0 < s) (hM : liveSlabs g s ≤ M) (hM' : liveSlabs g' s ≤ M)
    (hB : 0 < M → M + 1 ≤ B) (ht : liveSlabs g s + (freeSlabs g s).length ≤ B) :
    liveSlabs g' s + (freeSlabs g' s).length ≤ B := by
  cases op with
  | addNode i o =>
    obtain ⟨hi, ho⟩ := hok
    obtain ⟨n, f, g1, h1, hI', hnone, hnd, -⟩ := addNode_ok hI hi ho (by omega) (by omega)
    simp only [PG.step, h1, Option.map_some, Option.some.injEq] at h
    subst h
    have hl := live_upd hnd hs
    rw [hnone] at hl
    simp only [Option.any_none, Bool.false_eq_true, if_false, Option.any_some, beq_iff_eq, Nat.add_zero] at hl
    by_cases hz : 0 < i + o
    · obtain ⟨fa, fb⟩ := free_add hmax hI h1 hz
      cases hh : g.heads (i + o) with
      | some x =>
        obtain ⟨e1, e2⟩ := fa x hh
        by_cases e : s = i + o
        · subst e
          rw [e1] at ht
          simp at ht hl
          omega
        · rw [e2 s hs e]
          rw [if_neg (fun x => e x.symm)] at hl
          omega
      | none =>
        obtain ⟨e1, e2⟩ := fb hh
        rw [e2 s hs]
        by_cases e : s = i + o
        · subst e
          rw [e1]
          simp
          omega
        · rw [if_neg (fun x => e x.symm)] at hl
          omega
    · rw [if_neg (by omega)] at hl
      have : freeSlabs g1 s = freeSlabs g s := by
        obtain ⟨g2, m2, g3, a1, a2, a3, rfl⟩ := addNode_parts h1
        obtain ⟨fn, hN⟩ := hI.nodes
        obtain ⟨n', g1', ha, -, -, -, hpm, hpl, hpf, -⟩ := allocNode_ok hN
        rw [a1] at ha
        simp only [Option.some.injEq, Prod.mk.injEq] at ha
        obtain ⟨rfl, rfl⟩ := ha
        unfold PG.allocPorts at a2
        simp only at a2
        rw [if_pos (by omega)] at a2
        simp only [Option.some.injEq, Prod.mk.injEq] at a2
        refine free_frame hI hI' ?_ (fun p _ => ?_) hs
        · simp only; rw [← a2.2, hpf]
        · simp only [PG.lk]; rw [← a2.2, hpl]
      rw [this]
      omega
  | removeNode n =>
    simp only [PG.step] at h
    cases hn : g.node? n with
    | none =>
      rw [removeNode_none hn] at h
      cases h
      exact ht
    | some m =>
      obtain ⟨g1, h1, hI', hnd, -⟩ := removeNode_ok hI hn
      rw [h] at h1
      cases h1
      have hl := live_upd hnd hs
      rw [hn] at hl
      simp only [Option.any_none, Bool.false_eq_true, if_false, Option.any_some, beq_iff_eq, Nat.add_zero] at hl
      rw [free_remove hI hn h hs]
      by_cases e : s = m.capacity
      · rw [if_pos e]
        rw [if_pos e.symm] at hl
        simp
        omega
      · rw [if_neg e]
        rw [if_neg (fun x => e x.symm)] at hl
        omega
  | linkPorts a b =>
    simp only [PG.step, Option.map_eq_some_iff] at h
    obtain ⟨⟨r, g1⟩, h1, rfl⟩ := h
    obtain ⟨r', g2, h2, -, -, hnm, -⟩ := linkPorts_total hI a b
    rw [h1] at h2
    simp only [Option.some.injEq, Prod.mk.injEq] at h2
    obtain ⟨-, rfl⟩ := h2
    simp only
    rw [free_link hI h1 hs, live_congr (g := g) (by funext n; simp [PG.node?, hnm]) hs]
    exact ht
  | unlinkPort p =>
    simp only [PG.step, Option.map_eq_some_iff] at h
    obtain ⟨⟨r, g1⟩, h1, rfl⟩ := h
    simp only
    rw [free_unlink hI h1 hs]
    cases hp : g.port? p with
    | none => rw [unlinkPort_none hp] at h1; cases h1; exact ht
    | some x =>
      obtain ⟨g2, h2, -, hnm, -⟩ := unlinkPort_ok hI (p := p) (by rw [hp]; rfl)
      rw [h1] at h2
      simp only [Option.some.injEq, Prod.mk.injEq] at h2
      obtain ⟨-, rfl⟩ := h2
      rw [live_congr (g := g) (by funext n; simp [PG.node?, hnm]) hs]
      exact ht
  | setNumPorts n i o =>
    simp only [PG.step, Option.map_eq_some_iff] at h
    obtain ⟨⟨g1, tr⟩, h1, rfl⟩ := h
    obtain ⟨hi, ho, hc⟩ := hok
    cases hn : g.node? n with
    | none => rw [setNumPorts_none hn hi ho] at h1; cases h1; exact ht
    | some m =>
      rw [containsNode_eq hn, numPorts_eq hn, numPorts_eq hn, capacity_eq hn] at hc
      simp only [NodeMeta.numPorts] at hc
      by_cases hne : m.incoming = i ∧ m.outgoing = o
      · obtain ⟨rfl, rfl⟩ := hne
        rw [setNumPorts_same hn hi ho] at h1
        cases h1
        exact ht
      · have htot : i + o ≤ 32768 ∨ i + o < m.capacity := by
          rcases hc with hc | hc | hc | hc
          · exact Or.inl hc
          · exact Or.inr hc
          · simp at hc
          · exact absurd hc hne
        simp only at hM' ⊢
        rcases free_set hI hn hne htot hi h1 with ⟨-, -, hnd, hf⟩ | ⟨f, r, hnd, -, -, hf⟩
        · have hl := live_upd hnd hs
          rw [hn] at hl
          simp only [Option.any_some] at hl
          rw [hf s hs]
          omega
        · have hl := live_upd hnd hs
          rw [hn] at hl
          simp only [Option.any_some, beq_iff_eq] at hl
          rw [hf s hs]
          have hpos : s = m.capacity → 0 < liveSlabs g s := by
            intro e
            rw [live_eq hs (Nat.le_refl _)]
            exact cnt_pos (node?_lt hn) (by simp [hasCap, hn, e])
          simp only [List.length_append]
          by_cases e1 : s = m.capacity <;> by_cases e2 : s = r
          · have := hpos e1
            rw [if_pos e1.symm, if_pos e2.symm] at hl
            rw [if_pos e1, if_pos e2]
            simp
            omega
          · rw [if_pos e1.symm, if_neg (fun x => e2 x.symm)] at hl
            rw [if_pos e1, if_neg e2]
            simp
            omega
          · rw [if_neg (fun x => e1 x.symm), if_pos e2.symm] at hl
            rw [if_neg e1, if_pos e2]
            simp
            omega
          · rw [if_neg (fun x => e1 x.symm), if_neg (fun x => e2 x.symm)] at hl
            rw [if_neg e1, if_neg e2]
            simp
            omega
  | compactNodes =>
    simp only [PG.step, Option.map_eq_some_iff] at h
    obtain ⟨⟨g1, tr⟩, h1, rfl⟩ := h
    obtain ⟨g2, h2, hI', hnd, -, hlk, -⟩ := compactNodes_ok hI
    have hpf := compactNodes_pf h1
    rw [h1] at h2
    simp only [Option.some.injEq, Prod.mk.injEq] at h2
    obtain ⟨rfl, -⟩ := h2
    simp only at hpf ⊢
    have := live_rename (g := g) (g' := g1) (ρ := g.nodeRank) (fun n' m hm => (hnd n' m).1 hm) hs
    rw [free_frame hI hI' hpf (fun p _ => by rw [hlk]) hs]
    omega
  | compactPorts =>
    simp only [PG.step, Option.map_eq_some_iff] at h
    obtain ⟨⟨g1, tr⟩, h1, rfl⟩ := h
    have := compactPorts_pf h1
    simp only at this hM' ⊢
    rw [free_nil this]
    simp
    omega
  | swapNodes a b =>
    simp only [PG.step] at h
    obtain ⟨g1, h1, hI', hnd, -, hlk, -⟩ := swapNodes_all_ok hI hok
    rw [h] at h1
    cases h1
    have := live_rename (g := g) (g' := g') (ρ := swapIdx a b)
      (fun n' m hm => ⟨swapIdx a b n', swapIdx_swapIdx a b n', by rw [← hnd]; exact hm⟩) hs
    rw [free_frame hI hI' (swapNodes_pf h) (fun p _ => by rw [hlk]) hs]
    omega
  | clear =>
    simp only [PG.step, Option.some.injEq] at h
    subst h
    rw [free_nil (by rfl)]
    simp
    omega

theorem total_run {maxOff : Nat} (hmax : maxOff ≤ 32767) {ops : List PG.Op} {s M B : Nat} (hs : 0 < s) (hB : 0 < M → M + 1 ≤ B) :
    ∀ {g g' : PG}, PG.Inv g → OkRun maxOff g ops → PG.run maxOff g ops = some g' →
      (∀ k g1, PG.run maxOff g (ops.take k) = some g1 → liveSlabs g1 s ≤ M) →
      liveSlabs g s + (freeSlabs g s).length ≤ B → liveSlabs g' s + (freeSlabs g' s).length ≤ B := by
  induction ops with
  | nil =>
    intro g g' _ _ h _ ht
    simp only [PG.run, Option.some.injEq] at h
    rw [← h]; exact ht
  | cons op ops ih =>
    intro g g' hI hok h hM ht
    simp only [PG.run] at h
    split at h
    · cases h
    · rename_i g1 h1
      obtain ⟨g1', h1', hI1⟩ := step_ok hmax hI hok.1
      rw [h1] at h1'
      cases h1'
      refine ih hI1 (hok.2 g1 h1) h (fun k g2 h2 => hM (k + 1) g2 ?_) ?_
      · rw [List.take_succ_cons]
        simp only [PG.run, h1]
        exact h2
      · refine total_step hmax hI hok.1 h1 hs (hM 0 g (by rfl)) (hM 1 g1 ?_) hB ht
        simp [PG.run, h1]

/-- A sum of numbers, counted by value. -/
theorem sum_by_value {l : List Nat} {K : Nat} (h : ∀ x ∈ l, x ≤ K) :
    l.sum = ((List.range K).map fun k => (k + 1) * l.countP (· == k + 1)).sum := by
  induction l with
  | nil => simp
  | cons x l ih =>
    rw [List.sum_cons, ih fun y hy => h y (by simp [hy])]
    have hx := h x (by simp)
    simp only [List.countP_cons]
    have key : ∀ K, ((List.range K).map fun k => (k + 1) * (l.countP (· == k + 1) + if (x == k + 1) = true then 1 else 0)).sum =
        (if 1 ≤ x ∧ x ≤ K then x else 0) + ((List.range K).map fun k => (k + 1) * l.countP (· == k + 1)).sum := by
      intro K
      induction K with
      | zero => rw [if_neg (by omega)]; rfl
      | succ K ihK =>
        rw [List.range_succ, List.map_append, List.map_append, List.sum_append, List.sum_append, ihK]
        simp only [List.map_cons, List.map_nil, List.sum_cons, List.sum_nil, beq_iff_eq, Nat.mul_add, Nat.add_zero]
        by_cases e : x = K + 1
        · rw [if_neg (by omega), if_pos e, if_pos (by omega)]; omega
        · rw [if_neg e]
          by_cases e2 : 1 ≤ x ∧ x ≤ K
          · rw [if_pos e2, if_pos (by omega)]; omega
          · rw [if_neg e2, if_neg (by omega)]; omega
    rw [key]
    by_cases e : 1 ≤ x
    · rw [if_pos ⟨e, hx⟩]
    · rw [if_neg (by omega)]; omega

theorem free_long {g : PG} {s : Nat} (h : g.portFree.length < s) : freeSlabs g s = [] := by
  unfold freeSlabs
  rw [List.getElem?_eq_none (by omega)]
  cases g.portMeta.length <;> rfl

theorem sum_pad {f : Nat → Nat} {a b : Nat} (hab : a ≤ b) (h : ∀ k, a ≤ k → f k = 0) :
    ((List.range a).map f).sum = ((List.range b).map f).sum := by
  induction b with
  | zero => rw [show a = 0 by omega]
  | succ b ih =>
    by_cases e : a = b + 1
    · rw [e]
    · rw [List.range_succ, List.map_append, List.sum_append, ← ih (by omega)]
      simp [h b (by omega)]

theorem sum_add_map (f h : Nat → Nat) (l : List Nat) : (l.map f).sum + (l.map h).sum = (l.map fun k => f k + h k).sum := by
  induction l with
  | nil => rfl
  | cons a l ih => simp only [List.map_cons, List.sum_cons]; omega

theorem sum_le_map {f h : Nat → Nat} {l : List Nat} (hle : ∀ k ∈ l, f k ≤ h k) : (l.map f).sum ≤ (l.map h).sum := by
  induction l with
  | nil => simp
  | cons a l ih =>
    simp only [List.map_cons, List.sum_cons]
    have h1 := hle a (by simp)
    have h2 := ih fun k hk => hle k (by simp [hk])
    omega

theorem live_caps {g : PG} {s : Nat} : liveSlabs g s = ((List.range g.nodeMeta.length).map g.nodePortCapacity).countP (· == s) := by
  unfold liveSlabs
  rw [List.countP_map]
  apply List.countP_congr
  intro n _
  simp only [Function.comp]
  rw [nodeSlots_eq]
  unfold PG.nodePortCapacity
  cases g.node? n with
  | none => simp
  | some m => simp

end Verif.Slots
