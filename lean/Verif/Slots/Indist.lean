import Verif.Slots.FreeLen
import Verif.Slots.IndistSpec

/-! Graphs that no client can tell apart are equal, up to trailing empty free lists. -/

namespace Verif.Slots

open Verif (Direction)
open Verif.PG

/-! ## The lists of free slabs after `add_node` -/

theorem freeSlabs_heads (g : PG) {s : Nat} (hs : 0 < s) : freeSlabs g s = walk g g.portMeta.length (g.heads s) := by
  unfold freeSlabs PG.heads
  rw [if_neg (by omega)]

theorem free_add {g g' : PG} {maxOff i o n : Nat} (hmax : maxOff ≤ 32767) (hI : PG.Inv g) (h : g.addNode maxOff i o = some (n, g'))
    (hs : 0 < i + o) :
    (∀ f, g.heads (i + o) = some f → freeSlabs g (i + o) = f :: freeSlabs g' (i + o) ∧
      ∀ t, 0 < t → t ≠ i + o → freeSlabs g' t = freeSlabs g t) ∧
    (g.heads (i + o) = none → freeSlabs g (i + o) = [] ∧ ∀ t, 0 < t → freeSlabs g' t = freeSlabs g t) := by
  have hb : i ≤ maxOff ∧ o ≤ maxOff := by
    unfold PG.addNode at h
    split at h
    · assumption
    · cases h
  obtain ⟨own, fs, hP, hfull⟩ := hI.slots
  obtain ⟨n', f', g1, h1, -, -, hnd, -, hlk, -⟩ := addNode_ok hI hb.1 hb.2 (by omega) (by omega)
  rw [h] at h1
  cases h1
  obtain ⟨m, hm, hcase⟩ := addNode_slab hI h hs
  rw [hnd] at hm
  simp only [upd, if_true, Option.some.injEq] at hm
  subst hm
  simp only at hcase
  constructor
  · intro f hf
    rcases hcase with ⟨h1, h2, h3⟩ | ⟨h1, -⟩
    · rw [hf] at h1; cases h1
      obtain ⟨-, -, hP'⟩ := hP.popSlab hs hf
      have key : ∀ t, 0 < t → freeSlabs g' t = upd fs (i + o) (fs (i + o)).tail t := by
        intro t ht
        rw [freeSlabs_heads _ ht]
        apply walk_chain
        · rw [hlk, h2]; exact hP'.chain t ht
        · rw [h3]; exact fs_length hP' t
      refine ⟨?_, fun t ht hne => ?_⟩
      · rw [key _ hs, freeSlabs_eq hP hs]
        have hc := hP.chain _ hs
        rw [hf] at hc
        obtain ⟨xs, hxs, -⟩ := hc.head
        simp [upd, hxs]
      · rw [key t ht, freeSlabs_eq hP ht]
        simp [upd, hne]
    · rw [hf] at h1; cases h1
  · intro hf
    rcases hcase with ⟨h1, -⟩ | ⟨-, h1, h2, h3⟩
    · rw [hf] at h1; cases h1
    · refine ⟨?_, fun t ht => ?_⟩
      · rw [freeSlabs_heads _ hs, hf]
        cases g.portMeta.length <;> rfl
      · rw [freeSlabs_heads _ ht, freeSlabs_eq hP ht]
        apply walk_chain
        · rw [hlk, h2]
          apply (hP.chain t ht).congr
          intro x hx
          have := hP.slab t x hx
          rw [if_neg]
          simp; omega
        · have := fs_length hP t
          omega

/-! ## Pairs of graphs that cannot be told apart -/

theorem Indist.queries {maxOff : Nat} {g h : PG} (hi : Indist maxOff g h) : SameQueries g h := by
  rcases hi [] with ⟨h1, -⟩ | ⟨as, g', h', h1, h2, h3⟩
  · simp [Undo.askAll] at h1
  · simp only [Undo.askAll, Option.some.injEq, Prod.mk.injEq] at h1 h2
    obtain ⟨-, rfl⟩ := h1
    obtain ⟨-, rfl⟩ := h2
    exact h3

theorem Indist.step {maxOff : Nat} {g h : PG} (hi : Indist maxOff g h) {op : PG.Op} {a : Undo.Answer} {g1 : PG}
    (hg : Undo.ask maxOff g op = some (a, g1)) : ∃ h1, Undo.ask maxOff h op = some (a, h1) ∧ Indist maxOff g1 h1 := by
  have hh : ∃ h1, Undo.ask maxOff h op = some (a, h1) := by
    rcases hi [op] with ⟨h1, -⟩ | ⟨as, g', h', h1, h2, h3⟩
    · simp [Undo.askAll, hg] at h1
    · simp only [Undo.askAll, hg] at h1 h2
      cases e : Undo.ask maxOff h op with
      | none => simp [e] at h2
      | some x =>
        obtain ⟨b, h1'⟩ := x
        simp [e] at h1 h2
        obtain ⟨rfl, -⟩ := h1
        obtain ⟨h2, -⟩ := h2
        simp at h2
        exact ⟨h1', by rw [h2]⟩
  obtain ⟨h1, hh⟩ := hh
  refine ⟨h1, hh, fun ops => ?_⟩
  rcases hi (op :: ops) with ⟨e1, e2⟩ | ⟨as, g', h', e1, e2, e3⟩
  · simp only [Undo.askAll, hg, hh, Option.map_eq_none_iff] at e1 e2
    exact Or.inl ⟨e1, e2⟩
  · simp only [Undo.askAll, hg, hh] at e1 e2
    obtain ⟨⟨a1, x1⟩, e6, e4⟩ := Option.map_eq_some_iff.1 e1
    obtain ⟨⟨a2, x2⟩, e7, e5⟩ := Option.map_eq_some_iff.1 e2
    simp only [Prod.mk.injEq] at e4 e5
    obtain ⟨e4, rfl⟩ := e4
    obtain ⟨e5, rfl⟩ := e5
    rw [← e4] at e5
    simp only [List.cons.injEq, true_and] at e5
    subst e5
    exact Or.inr ⟨a2, x1, x2, e6, e7, e3⟩

/-- Two reachable graphs that cannot be told apart. -/
structure Pair (maxOff : Nat) (g h : PG) : Prop where
  left : PG.Reach maxOff g
  right : PG.Reach maxOff h
  same : Indist maxOff g h

theorem Pair.symm_same {maxOff : Nat} {g h : PG} (hi : Indist maxOff g h) : Indist maxOff h g := by
  intro ops
  rcases hi ops with ⟨h1, h2⟩ | ⟨as, g', h', h1, h2, h3⟩
  · exact Or.inl ⟨h2, h1⟩
  · exact Or.inr ⟨as, h', g', h2, h1, ⟨fun n => (h3.nodes n).symm, fun n d k => (h3.ports n d k).symm, fun p => (h3.links p).symm,
      fun n => (h3.caps n).symm⟩⟩

theorem Pair.symm {maxOff : Nat} {g h : PG} (hp : Pair maxOff g h) : Pair maxOff h g :=
  ⟨hp.right, hp.left, Pair.symm_same hp.same⟩

/-- `swap_nodes(k, k)` panics exactly beyond the table of nodes. -/
theorem swap_self {g : PG} (hI : PG.Inv g) (maxOff k : Nat) :
    Undo.ask maxOff g (.swapNodes k k) = none ↔ g.nodeMeta.length ≤ k := by
  obtain ⟨own, fs, hP, -⟩ := hI.slots
  simp only [Undo.ask, Option.map_eq_none_iff]
  constructor
  · intro h
    apply Classical.byContradiction
    intro hk
    have hx : g.nodeMeta[k]? = some g.nodeMeta[k] := List.getElem?_eq_getElem (by omega)
    unfold PG.swapNodes at h
    rw [hx] at h
    cases e : g.nodeMeta[k] with
    | free a b => rw [e] at h; simp [PG.swapClaim] at h
    | node m =>
      rw [e] at h hx
      have hn : g.node? k = some m := by simp [PG.node?, hx]
      have hb := hP.bound k m hn
      simp only [PG.swapClaim] at h
      have hc : ∀ g1 : PG, g1.portMeta.length = g.portMeta.length → ∃ g2, g1.claimPorts k m = some g2 ∧ g2.portMeta.length = g.portMeta.length := by
        intro g1 h1
        unfold PG.claimPorts
        rw [if_pos (by omega)]
        exact ⟨_, rfl, by simpa using h1⟩
      obtain ⟨g2, h2, h3⟩ := hc { g with nodeMeta := (g.nodeMeta.set k (.node m)).set k (.node m) } rfl
      rw [h2] at h
      obtain ⟨g3, h4, -⟩ := hc g2 h3
      simp only [h4] at h
      cases h
  · intro h
    unfold PG.swapNodes
    rw [List.getElem?_eq_none h]

theorem Pair.nodeLen_le {maxOff : Nat} (hmax : maxOff ≤ 32767) {g h : PG} (hp : Pair maxOff g h) : h.nodeMeta.length ≤ g.nodeMeta.length := by
  apply Classical.byContradiction
  intro hc
  have h1 := (swap_self (hp.left.inv hmax) maxOff g.nodeMeta.length).2 (Nat.le_refl _)
  have h2 := mt (swap_self (hp.right.inv hmax) maxOff g.nodeMeta.length).1 (by omega)
  rcases hp.same [.swapNodes g.nodeMeta.length g.nodeMeta.length] with ⟨e1, e2⟩ | ⟨as, g', h', e1, e2, e3⟩
  · cases e : Undo.ask maxOff h (.swapNodes g.nodeMeta.length g.nodeMeta.length) with
    | none => exact h2 e
    | some x => simp [Undo.askAll, e] at e2
  · simp [Undo.askAll, h1] at e1

theorem Pair.nodeLen {maxOff : Nat} (hmax : maxOff ≤ 32767) {g h : PG} (hp : Pair maxOff g h) : g.nodeMeta.length = h.nodeMeta.length :=
  Nat.le_antisymm (hp.symm.nodeLen_le hmax) (hp.nodeLen_le hmax)

theorem Pair.add {maxOff : Nat} (hmax : maxOff ≤ 32767) {g h : PG} (hp : Pair maxOff g h) {i o : Nat} (hi : i ≤ maxOff) (ho : o ≤ maxOff) :
    ∃ n g1 h1, g.addNode maxOff i o = some (n, g1) ∧ h.addNode maxOff i o = some (n, h1) ∧ Pair maxOff g1 h1 := by
  obtain ⟨n, f, g1, h1, -⟩ := addNode_ok (hp.left.inv hmax) hi ho (by omega) (by omega)
  have h2 : Undo.ask maxOff g (.addNode i o) = some (.node n, g1) := by simp [Undo.ask, h1]
  obtain ⟨h1', h3, h4⟩ := hp.same.step h2
  simp only [Undo.ask] at h3
  obtain ⟨⟨n', x⟩, h5, h6⟩ := Option.map_eq_some_iff.1 h3
  simp only [Prod.mk.injEq, Undo.Answer.node.injEq] at h6
  obtain ⟨rfl, rfl⟩ := h6
  exact ⟨n', g1, x, h1, h5, hp.left.step (op := .addNode i o) ⟨hi, ho⟩ (by simp [PG.step, h1]),
    hp.right.step (op := .addNode i o) ⟨hi, ho⟩ (by simp [PG.step, h5]), h4⟩

/-! ## The free nodes -/

theorem Pair.freeNodes {maxOff : Nat} (hmax : maxOff ≤ 32767) {fn : List Nat} : ∀ {g h : PG} {fn'}, Pair maxOff g h →
    NInv g.nodeMeta g.nodeFree g.nodeCount fn → NInv h.nodeMeta h.nodeFree h.nodeCount fn' → fn = fn' ∧ g.nodeFree = h.nodeFree := by
  induction fn with
  | nil =>
    intro g h fn' hp hN hN'
    have h0 : g.nodeFree = none := by
      cases e : g.nodeFree with
      | none => rfl
      | some f => have := hN.chain; rw [e] at this; simp [DChain] at this
    obtain ⟨n, g1, h1, e1, e2, -⟩ := hp.add hmax (Nat.zero_le _) (Nat.zero_le _)
    obtain ⟨-, e3, -⟩ := addNode_nodes (hp.left.inv hmax) hN hmax e1
    obtain ⟨-, e5, e6⟩ := addNode_nodes (hp.right.inv hmax) hN' hmax e2
    cases e : h.nodeFree with
    | none =>
      have := hN'.chain
      rw [e] at this
      exact ⟨this.nil.symm, h0⟩
    | some f =>
      exfalso
      have := e6 (by rw [e]; simp)
      rw [e] at this hN'
      cases this
      have h7 := hN'.head_lt
      have := e3 h0
      have := hp.nodeLen hmax
      omega
  | cons x fn ih =>
    intro g h fn' hp hN hN'
    have h0 : g.nodeFree = some x := by
      cases e : g.nodeFree with
      | none => have := hN.chain; rw [e] at this; simp [DChain] at this
      | some f =>
        have := hN.chain
        rw [e] at this
        rw [this.1]
    obtain ⟨n, g1, h1, e1, e2, hp1⟩ := hp.add hmax (Nat.zero_le _) (Nat.zero_le _)
    obtain ⟨hN1, -, e4⟩ := addNode_nodes (hp.left.inv hmax) hN hmax e1
    obtain ⟨hN1', e5, e6⟩ := addNode_nodes (hp.right.inv hmax) hN' hmax e2
    have hnx : n = x := by
      have := e4 (by rw [h0]; simp)
      rw [h0] at this
      simpa using this
    subst hnx
    have h1 : h.nodeFree = some n := by
      cases e : h.nodeFree with
      | none =>
        exfalso
        have := e5 e
        rw [h0] at hN
        have := hN.head_lt
        have := hp.nodeLen hmax
        omega
      | some f =>
        have := e6 (by rw [e]; simp)
        rw [e] at this
        rw [this]
    have hc := hN'.chain
    rw [h1] at hc
    obtain ⟨xs, nx, rfl, -⟩ := hc.head
    obtain ⟨h7, -⟩ := ih hp1 hN1 hN1'
    simp only [List.tail_cons] at h7
    exact ⟨by rw [h7], by rw [h0, h1]⟩

/-! ## The free slabs -/

theorem Pair.first {maxOff : Nat} (hmax : maxOff ≤ 32767) {g h : PG} (hp : Pair maxOff g h) {i o : Nat} (hi : i ≤ maxOff) (ho : o ≤ maxOff)
    (h0 : 0 < i) : ∃ n g1 h1 f, g.addNode maxOff i o = some (n, g1) ∧ h.addNode maxOff i o = some (n, h1) ∧ Pair maxOff g1 h1 ∧
      ((g.heads (i + o) = some f ∧ g1.portMeta.length = g.portMeta.length) ∨
        (g.heads (i + o) = none ∧ f = g.portMeta.length ∧ g1.portMeta.length = g.portMeta.length + (i + o))) ∧
      ((h.heads (i + o) = some f ∧ h1.portMeta.length = h.portMeta.length) ∨
        (h.heads (i + o) = none ∧ f = h.portMeta.length ∧ h1.portMeta.length = h.portMeta.length + (i + o))) := by
  obtain ⟨n, g1, h1, e1, e2, hp1⟩ := hp.add hmax hi ho
  have key : ∀ {k k1 : PG}, PG.Inv k → k.addNode maxOff i o = some (n, k1) → ∃ f, k1.portIndex n .incoming 0 = some f ∧
      ((k.heads (i + o) = some f ∧ k1.portMeta.length = k.portMeta.length) ∨
        (k.heads (i + o) = none ∧ f = k.portMeta.length ∧ k1.portMeta.length = k.portMeta.length + (i + o))) := by
    intro k k1 hk h
    obtain ⟨n', f', k', h1, -, -, hnd, -⟩ := addNode_ok hk hi ho (by omega) (by omega)
    rw [h] at h1
    cases h1
    obtain ⟨m, hm, hcase⟩ := addNode_slab hk h (by omega)
    rw [hnd] at hm
    simp only [upd, if_true, Option.some.injEq] at hm
    subst hm
    simp only at hcase
    refine ⟨f', ?_, ?_⟩
    · simp [PG.portIndex, hnd, upd, NodeMeta.ports, NodeMeta.start, NodeMeta.numPorts, h0]
    · rcases hcase with ⟨a, -, b⟩ | ⟨a, b, -, c⟩
      · exact Or.inl ⟨a, b⟩
      · exact Or.inr ⟨a, b, c⟩
  obtain ⟨f, hf, hf'⟩ := key (hp.left.inv hmax) e1
  obtain ⟨f2, hf2, hf2'⟩ := key (hp.right.inv hmax) e2
  rw [hp1.same.queries.ports, hf2] at hf
  cases hf
  exact ⟨n, g1, h1, f, e1, e2, hp1, hf', hf2'⟩

theorem head_bound {g : PG} (hI : PG.Inv g) {s f : Nat} (hs : 0 < s) (h : g.heads s = some f) : f + s ≤ g.portMeta.length := by
  obtain ⟨own, fs, hP, -⟩ := hI.slots
  exact (hP.popSlab hs h).1

theorem heads_apart {g : PG} (hI : PG.Inv g) {s t f : Nat} (hs : 0 < s) (ht : 0 < t) (h : g.heads s = some f) (h' : g.heads t = some f) :
    s = t := by
  obtain ⟨own, fs, hP, -⟩ := hI.slots
  have h1 := (hP.popSlab hs h).2.1 f (by omega) (by omega)
  have h2 := (hP.popSlab ht h').2.1 f (by omega) (by omega)
  rw [h1] at h2
  simpa using h2

theorem Pair.portLen_lt {maxOff : Nat} (hmax : maxOff ≤ 32767) (hmin : 2 ≤ maxOff) : ∀ (k : Nat) {g h : PG}, Pair maxOff g h →
    (freeSlabs g 1).length + (freeSlabs g 2).length < k → g.portMeta.length = h.portMeta.length := by
  intro k
  induction k with
  | zero => intro g h _ hk; omega
  | succ k ih =>
    intro g h hp hk
    have hIg := hp.left.inv hmax
    have hIh := hp.right.inv hmax
    obtain ⟨n1, ga, ha, f1, a1, a2, a3, a4, a5⟩ := hp.first hmax (i := 1) (o := 0) (by omega) (by omega) (by omega)
    obtain ⟨n2, gb, hb, f2, b1, b2, b3, b4, b5⟩ := hp.first hmax (i := 2) (o := 0) (by omega) (by omega) (by omega)
    have fa := free_add hmax hIg a1 (by omega)
    have fb := free_add hmax hIg b1 (by omega)
    simp only [Nat.add_zero] at a4 a5 b4 b5 fa fb
    rcases a4 with ⟨c1, c2⟩ | ⟨c1, c2, c3⟩
    · rcases a5 with ⟨d1, d2⟩ | ⟨d1, d2, d3⟩
      · obtain ⟨e1, e2⟩ := fa.1 f1 c1
        have e3 := e2 2 (by omega) (by omega)
        rw [e1] at hk
        have := ih a3 (by rw [e3]; simp at hk; omega)
        omega
      · have h1 := head_bound hIg (by omega) c1
        rcases b4 with ⟨i1, i2⟩ | ⟨i1, i2, i3⟩
        · rcases b5 with ⟨j1, j2⟩ | ⟨j1, j2, j3⟩
          · obtain ⟨e1, e2⟩ := fb.1 f2 i1
            have e3 := e2 1 (by omega) (by omega)
            rw [e1] at hk
            have := ih b3 (by rw [e3]; simp at hk; omega)
            omega
          · rw [d2] at c1
            rw [j2] at i1
            have := heads_apart hIg (by omega) (by omega) c1 i1
            omega
        · rcases b5 with ⟨j1, j2⟩ | ⟨j1, j2, j3⟩
          · have h2 := head_bound hIh (by omega) j1
            omega
          · omega
    · rcases a5 with ⟨d1, d2⟩ | ⟨d1, d2, d3⟩
      · have h1 := head_bound hIh (by omega) d1
        rcases b4 with ⟨i1, i2⟩ | ⟨i1, i2, i3⟩
        · rcases b5 with ⟨j1, j2⟩ | ⟨j1, j2, j3⟩
          · obtain ⟨e1, e2⟩ := fb.1 f2 i1
            have e3 := e2 1 (by omega) (by omega)
            rw [e1] at hk
            have := ih b3 (by rw [e3]; simp at hk; omega)
            omega
          · have h2 := head_bound hIg (by omega) i1
            omega
        · rcases b5 with ⟨j1, j2⟩ | ⟨j1, j2, j3⟩
          · rw [c2] at d1
            rw [i2] at j1
            have := heads_apart hIh (by omega) (by omega) d1 j1
            omega
          · omega
      · omega

theorem Pair.portLen {maxOff : Nat} (hmax : maxOff ≤ 32767) (hmin : 2 ≤ maxOff) {g h : PG} (hp : Pair maxOff g h) :
    g.portMeta.length = h.portMeta.length := hp.portLen_lt hmax hmin _ (Nat.lt_succ_self _)

theorem heads_big {maxOff : Nat} (hmax : maxOff ≤ 32767) (hmin : 16384 ≤ maxOff) {g : PG} (hg : PG.Reach maxOff g) {s : Nat} (hs : 2 * maxOff < s) :
    g.heads s = none := by
  have := portFree_len hmax hg
  unfold PG.heads
  rw [if_neg (by omega), List.getElem?_eq_none (by omega)]
  rfl

theorem Pair.head {maxOff : Nat} (hmax : maxOff ≤ 32767) (hmin : 16384 ≤ maxOff) {g h : PG} (hp : Pair maxOff g h) (s : Nat) :
    g.heads s = h.heads s := by
  have hl := hp.portLen hmax (by omega)
  by_cases h0 : s = 0
  · subst h0; simp [PG.heads]
  by_cases h1 : 2 * maxOff < s
  · rw [heads_big hmax hmin hp.left h1, heads_big hmax hmin hp.right h1]
  obtain ⟨n, g1, h1, f, -, -, -, a4, a5⟩ := hp.first hmax (i := min s maxOff) (o := s - min s maxOff) (by omega) (by omega) (by omega)
  rw [show min s maxOff + (s - min s maxOff) = s by omega] at a4 a5
  rcases a4 with ⟨c1, -⟩ | ⟨c1, c2, -⟩ <;> rcases a5 with ⟨d1, -⟩ | ⟨d1, d2, -⟩
  · rw [c1, d1]
  · have := head_bound (hp.left.inv hmax) (by omega) c1
    omega
  · have := head_bound (hp.right.inv hmax) (by omega) d1
    omega
  · rw [c1, d1]

theorem freeSlabs_nil {g : PG} {s : Nat} (hs : 0 < s) (h : g.heads s = none) : freeSlabs g s = [] := by
  rw [freeSlabs_heads _ hs, h]
  cases g.portMeta.length <;> rfl

theorem Pair.slabs {maxOff : Nat} (hmax : maxOff ≤ 32767) (hmin : 16384 ≤ maxOff) {s : Nat} (hs : 0 < s) : ∀ (k : Nat) {g h : PG},
    Pair maxOff g h → (freeSlabs g s).length < k → freeSlabs g s = freeSlabs h s := by
  intro k
  induction k with
  | zero => intro g h _ hk; omega
  | succ k ih =>
    intro g h hp hk
    have hh := hp.head hmax hmin s
    cases e : g.heads s with
    | none => rw [freeSlabs_nil hs e, freeSlabs_nil hs (hh ▸ e)]
    | some f =>
      have hle : s ≤ 2 * maxOff := by
        apply Classical.byContradiction
        intro hc
        rw [heads_big hmax hmin hp.left (by omega)] at e
        cases e
      obtain ⟨n, g1, h1, e1, e2, hp1⟩ := hp.add hmax (i := min s maxOff) (o := s - min s maxOff) (by omega) (by omega)
      have hsum : min s maxOff + (s - min s maxOff) = s := by omega
      have fa := (free_add hmax (hp.left.inv hmax) e1 (by omega)).1 f (by rw [hsum]; exact e)
      have fb := (free_add hmax (hp.right.inv hmax) e2 (by omega)).1 f (by rw [hsum, ← hh]; exact e)
      rw [hsum] at fa fb
      rw [fa.1] at hk
      rw [fa.1, fb.1, ih hp1 (by simpa using hk)]

/-! ## The live nodes -/

theorem Pair.remove {maxOff : Nat} (hmax : maxOff ≤ 32767) {g h : PG} (hp : Pair maxOff g h) (n : Nat) :
    ∃ g1 h1, g.removeNode n = some g1 ∧ h.removeNode n = some h1 ∧ Pair maxOff g1 h1 := by
  obtain ⟨g1, h1, -⟩ := step_ok hmax (hp.left.inv hmax) (op := .removeNode n) trivial
  simp only [PG.step] at h1
  have h2 : Undo.ask maxOff g (.removeNode n) = some (.unit, g1) := by simp [Undo.ask, h1]
  obtain ⟨h1', h3, h4⟩ := hp.same.step h2
  simp only [Undo.ask] at h3
  obtain ⟨x, h5, h6⟩ := Option.map_eq_some_iff.1 h3
  simp only [Prod.mk.injEq, true_and] at h6
  subst h6
  exact ⟨g1, x, h1, h5, hp.left.step (op := .removeNode n) trivial h1, hp.right.step (op := .removeNode n) trivial h5, h4⟩

theorem Pair.node {maxOff : Nat} (hmax : maxOff ≤ 32767) (hmin : 16384 ≤ maxOff) {g h : PG} (hp : Pair maxOff g h) (n : Nat) :
    g.node? n = h.node? n := by
  have hq := hp.same.queries
  obtain ⟨own, fs, hP, -⟩ := (hp.left.inv hmax).slots
  obtain ⟨own', fs', hP', -⟩ := (hp.right.inv hmax).slots
  have h1 := hq.nodes n
  simp only [PG.containsNode] at h1
  cases e : g.node? n with
  | none =>
    rw [e] at h1
    cases e' : h.node? n with
    | none => rfl
    | some m' => rw [e'] at h1; cases h1
  | some m =>
    rw [e] at h1
    cases e' : h.node? n with
    | none => rw [e'] at h1; cases h1
    | some m' =>
      have hc := hq.caps n
      rw [capacity_eq e, capacity_eq e'] at hc
      have hn : ∀ d, m.numPorts d = m'.numPorts d := by
        intro d
        have h2 : ∀ k, k < m.numPorts d ↔ k < m'.numPorts d := by
          intro k
          have := hq.ports n d k
          simp only [PG.portIndex, e, e', NodeMeta.ports] at this
          have h3 : ∀ (a b : Nat), ((List.range' a b)[k]?).isSome = decide (k < b) := by
            intro a b
            by_cases hk : k < b
            · rw [List.getElem?_eq_getElem (by simpa using hk)]; simp [hk]
            · rw [List.getElem?_eq_none (by simpa using hk)]; simp [hk]
          have h4 := congrArg Option.isSome this
          rw [h3, h3] at h4
          simpa using h4
        have h5 := h2 (m.numPorts d)
        have h6 := h2 (m'.numPorts d)
        omega
      have hi := hn .incoming
      have ho := hn .outgoing
      simp only [NodeMeta.numPorts] at hi ho
      have hf : m.first = m'.first := by
        have b1 := hP.bound n m e
        have b2 := hP'.bound n m' e'
        by_cases h0 : m.capacity = 0
        · rw [b1.2.2.1 h0, b2.2.2.1 (by omega)]
        · obtain ⟨g1, h1, e1, e2, hp1⟩ := hp.remove hmax n
          have r1 := removeNode_heads e1 e (by omega) (hp.left.inv hmax)
          have r2 := removeNode_heads e2 e' (by omega) (hp.right.inv hmax)
          have := hp1.head hmax hmin m.capacity
          rw [r1, r2, hc] at this
          simpa [upd] using this
      obtain ⟨a, b, c, d⟩ := m
      obtain ⟨a', b', c', d'⟩ := m'
      simp only at hc hi ho hf
      rw [hc, hi, ho, hf]

/-! ## The tables -/

theorem chain_lk {lk lk' : Nat → Option Nat} {l : List Nat} : ∀ {h : Option Nat}, Chain lk h l → Chain lk' h l → ∀ x ∈ l, lk x = lk' x := by
  induction l with
  | nil => simp
  | cons y l ih =>
    intro h hc hc' x hx
    cases h with
    | none => simp [Chain] at hc
    | some f =>
      obtain ⟨rfl, hc⟩ := hc
      obtain ⟨-, hc'⟩ := hc'
      have h2 : lk f = lk' f := by
        cases l with
        | nil =>
          cases e : lk f with
          | some z => rw [e] at hc; simp [Chain] at hc
          | none =>
            cases e' : lk' f with
            | none => rfl
            | some z => rw [e'] at hc'; simp [Chain] at hc'
        | cons z l =>
          cases e : lk f with
          | none => rw [e] at hc; simp [Chain] at hc
          | some w =>
            cases e' : lk' f with
            | none => rw [e'] at hc'; simp [Chain] at hc'
            | some w' =>
              rw [e] at hc; rw [e'] at hc'
              rw [hc.1, hc'.1]
      rcases List.mem_cons.1 hx with rfl | hx
      · exact h2
      · rw [h2] at hc
        exact ih hc hc' x hx

theorem dchain_eq {nm nm' : Nat → Option NodeEntry} {l : List Nat} : ∀ {pr h : Option Nat}, DChain nm pr h l → DChain nm' pr h l →
    ∀ x ∈ l, nm x = nm' x := by
  induction l with
  | nil => simp
  | cons y l ih =>
    intro pr h hc hc' x hx
    cases h with
    | none => simp [DChain] at hc
    | some f =>
      obtain ⟨rfl, nx, h1, hc⟩ := hc
      obtain ⟨-, nx', h1', hc'⟩ := hc'
      have h2 : nx = nx' := by
        cases l with
        | nil =>
          cases nx with
          | some z => simp [DChain] at hc
          | none =>
            cases nx' with
            | none => rfl
            | some z => simp [DChain] at hc'
        | cons z l =>
          cases nx with
          | none => simp [DChain] at hc
          | some w =>
            cases nx' with
            | none => simp [DChain] at hc'
            | some w' => rw [hc.1, hc'.1]
      subst h2
      rcases List.mem_cons.1 hx with rfl | hx
      · rw [h1, h1']
      · exact ih hc hc' x hx

theorem Pair.eq {maxOff : Nat} (hmax : maxOff ≤ 32767) (hmin : 16384 ≤ maxOff) {g h : PG} (hp : Pair maxOff g h) : Undo.SameButFree g h := by
  have hIg := hp.left.inv hmax
  have hIh := hp.right.inv hmax
  have hnode : g.node? = h.node? := funext fun n => hp.node hmax hmin n
  have hlen := hp.portLen hmax (by omega)
  obtain ⟨fn, hN⟩ := hIg.nodes
  obtain ⟨fn', hN'⟩ := hIh.nodes
  obtain ⟨rfl, hnf⟩ := hp.freeNodes hmax hN hN'
  obtain ⟨own, fs, hP, hfull⟩ := hIg.slots
  obtain ⟨own', fs', hP', hfull'⟩ := hIh.slots
  have hport : g.port? = h.port? := by
    funext p
    have : ∀ x, g.port? p = some x ↔ h.port? p = some x := by
      rintro ⟨n, d⟩
      rw [hP.ports, hP'.ports, hnode]
    cases e : g.port? p with
    | some x => rw [(this x).1 e]
    | none =>
      cases e' : h.port? p with
      | none => rfl
      | some x => rw [(this x).2 e'] at e; cases e
  have hfs : ∀ s, 0 < s → fs s = fs' s := by
    intro s hs
    rw [← freeSlabs_eq hP hs, ← freeSlabs_eq hP' hs]
    exact Pair.slabs hmax hmin hs _ hp (Nat.lt_succ_self _)
  have hlk : ∀ p, p < g.portMeta.length → g.lk p = h.lk p := by
    intro p hpl
    cases e : own p with
    | none => exact absurd e (hfull p hpl)
    | node n =>
      obtain ⟨m, hm, h1, h2⟩ := hP.nodeOf p n e
      by_cases h3 : m.first + m.incoming + m.outgoing ≤ p
      · rw [hP.unused n m hm p h3 h2, hP'.unused n m (hnode ▸ hm) p h3 h2]
      · have h4 : (g.port? p).isSome := by
          by_cases h5 : p < m.first + m.incoming
          · rw [(hP.ports p n .incoming).2 ⟨m, hm, by simpa [NodeMeta.start] using h1, by simpa [NodeMeta.start, NodeMeta.numPorts] using h5⟩]; rfl
          · rw [(hP.ports p n .outgoing).2 ⟨m, hm, by simp only [NodeMeta.start]; omega, by simp only [NodeMeta.start, NodeMeta.numPorts]; omega⟩]; rfl
        obtain ⟨x, hx⟩ := Option.isSome_iff_exists.1 h4
        have h6 := hp.same.queries.links p
        unfold PG.portLink? at h6
        rw [← hport, hx] at h6
        simp only at h6
        simp [PG.lk, h6]
    | slab f s =>
      obtain ⟨h1, h2, h3, h4⟩ := hP.slabOf p f s e
      have hs := (hP.slab s f h1).1
      have h5 := h1
      rw [hfs s hs] at h5
      by_cases h6 : p = f
      · subst h6
        have c1 := hP.chain s hs
        have c2 := hP'.chain s hs
        rw [← hfs s hs, ← hp.head hmax hmin] at c2
        exact chain_lk c1 c2 p h1
      · rw [h4 h6, (hP'.slabOf p f s (hP'.slabOwn s f h5 p h2 h3)).2.2.2 h6]
  have hlkall : g.lk = h.lk := by
    funext p
    rcases Nat.lt_or_ge p g.portMeta.length with h1 | h1
    · exact hlk p h1
    · have l1 := hIg.len
      have l2 := hIh.len
      simp only [PG.lk]
      rw [List.getElem?_eq_none (by omega), List.getElem?_eq_none (by omega)]
  have e1 : g.nodeMeta = h.nodeMeta := by
    apply List.ext_getElem?
    intro n
    rcases Nat.lt_or_ge n g.nodeMeta.length with h1 | h1
    · have hx : g.nodeMeta[n]? = some g.nodeMeta[n] := List.getElem?_eq_getElem h1
      cases e : g.nodeMeta[n] with
      | node m =>
        rw [e] at hx
        have h2 : g.node? n = some m := PG.node?_eq.2 hx
        rw [hnode] at h2
        rw [hx, PG.node?_eq.1 h2]
      | free a b =>
        rw [e] at hx
        have h2 : n ∈ fn := (hN.exact n).2 ⟨a, b, hx⟩
        have c2 := hN'.chain
        rw [← hnf] at c2
        exact dchain_eq hN.chain c2 n h2
    · have := hp.nodeLen hmax
      rw [List.getElem?_eq_none h1, List.getElem?_eq_none (by omega)]
  have e2 : g.portMeta = h.portMeta := by
    apply List.ext_getElem?
    intro p
    rcases Nat.lt_or_ge p g.portMeta.length with h1 | h1
    · have h2 := congrFun hport p
      simp only [PG.port?] at h2
      have hx : g.portMeta[p]? = some g.portMeta[p] := List.getElem?_eq_getElem h1
      have hy : h.portMeta[p]? = some h.portMeta[p] := List.getElem?_eq_getElem (by omega)
      rw [hx, hy] at h2 ⊢
      cases e : g.portMeta[p] <;> cases e' : h.portMeta[p] <;> simp [e, e'] at h2 ⊢
      exact h2
    · rw [List.getElem?_eq_none h1, List.getElem?_eq_none (by omega)]
  have e3 : g.portLink = h.portLink := by
    apply List.ext_getElem?
    intro p
    have l1 := hIg.len
    have l2 := hIh.len
    rcases Nat.lt_or_ge p g.portMeta.length with h1 | h1
    · rw [PG.getElem?_portLink (by omega), PG.getElem?_portLink (by omega), hlkall]
    · rw [List.getElem?_eq_none (by omega), List.getElem?_eq_none (by omega)]
  have e4 : g.nodeCount = h.nodeCount := by rw [hN.count, hN'.count, e1]
  have e5 : g.portCount = h.portCount := by rw [hIg.portCount, hIh.portCount, hlen, hport]
  have e6 : g.linkCount = h.linkCount := by rw [hIg.outCount, hIh.outCount, hlen, hport, hlkall]
  refine ⟨?_, fun s => ?_⟩
  · obtain ⟨a1, a2, a3, a4, a5, a6, a7, a8⟩ := g
    obtain ⟨b1, b2, b3, b4, b5, b6, b7, b8⟩ := h
    simp only at e1 e2 e3 e4 e5 e6 hnf
    simp only [PG.mk.injEq]
    exact ⟨e1, e3, e2, hnf, trivial, e4, e5, e6⟩
  · have := hp.head hmax hmin (s + 1)
    simpa [PG.heads] using this

end Verif.Slots
