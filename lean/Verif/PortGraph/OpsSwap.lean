import Verif.PortGraph.OpsCompactNodes
import Verif.PortGraph.Spec

/-! Effect of `swap_nodes` on a live node and a free slot. -/

namespace Verif.PG

open Verif (Direction)

/-- Renaming the slots of a list of free slots. -/
theorem DChain.rename {nm nm' : Nat → Option NodeEntry} {ρ : Nat → Nat} {pr h l} (hc : DChain nm pr h l)
    (he : ∀ x ∈ l, ∀ p n, nm x = some (.free p n) → nm' (ρ x) = some (.free (p.map ρ) (n.map ρ))) :
    DChain nm' (pr.map ρ) (h.map ρ) (l.map ρ) := by
  induction l generalizing h pr with
  | nil => cases h <;> simp_all [DChain]
  | cons x xs ih =>
    cases h with
    | none => simp [DChain] at hc
    | some f =>
      obtain ⟨rfl, nx, hf, hc⟩ := hc
      refine ⟨rfl, nx.map ρ, he f (by simp) _ _ hf, ?_⟩
      exact ih hc fun y hy => he y (by simp [hy])

/-- The slot after a slot of the list points back. -/
theorem DChain.next {nm : Nat → Option NodeEntry} {pr h l} (hc : DChain nm pr h l) {x y p} (hx : x ∈ l)
    (e : nm x = some (.free p (some y))) : y ∈ l ∧ ∃ n, nm y = some (.free (some x) n) := by
  induction l generalizing h pr with
  | nil => simp at hx
  | cons z xs ih =>
    cases h with
    | none => simp [DChain] at hc
    | some f =>
      obtain ⟨rfl, nx, hf, hc⟩ := hc
      rcases List.mem_cons.1 hx with rfl | hx
      · rw [hf] at e; cases e
        obtain ⟨ys, n, rfl, h1, -⟩ := hc.head
        exact ⟨by simp, n, h1⟩
      · obtain ⟨h1, h2⟩ := ih hc hx
        exact ⟨by simp [h1], h2⟩

/-- The slot before a slot of the list points to it. -/
theorem DChain.prev {nm : Nat → Option NodeEntry} {pr h l} (hc : DChain nm pr h l) {x y n} (hx : x ∈ l)
    (e : nm x = some (.free (some y) n)) : (y ∈ l ∧ ∃ p, nm y = some (.free p (some x))) ∨ (pr = some y ∧ h = some x) := by
  induction l generalizing h pr with
  | nil => simp at hx
  | cons z xs ih =>
    cases h with
    | none => simp [DChain] at hc
    | some f =>
      obtain ⟨rfl, nx, hf, hc⟩ := hc
      rcases List.mem_cons.1 hx with rfl | hx
      · rw [hf] at e; cases e
        exact .inr ⟨rfl, rfl⟩
      · rcases ih hc hx with ⟨h1, h2⟩ | ⟨h1, h2⟩
        · exact .inl ⟨by simp [h1], h2⟩
        · cases h1
          exact .inl ⟨by simp, pr, by rw [hf, h2]⟩

/-- A slot of the list other than the head has a predecessor. -/
theorem DChain.has_prev {nm : Nat → Option NodeEntry} {pr h l} (hc : DChain nm pr h l) {x} (hx : x ∈ l) (hh : h ≠ some x) :
    ∃ p n, nm x = some (.free (some p) n) := by
  induction l generalizing h pr with
  | nil => simp at hx
  | cons z xs ih =>
    cases h with
    | none => simp [DChain] at hc
    | some f =>
      obtain ⟨rfl, nx, hf, hc⟩ := hc
      rcases List.mem_cons.1 hx with rfl | hx
      · exact absurd rfl hh
      · by_cases e : nx = some x
        · subst e
          obtain ⟨ys, n, rfl, h1, -⟩ := hc.head
          exact ⟨_, n, h1⟩
        · exact ih hc hx e

/-- The slots of the list are linked in order. -/
theorem DChain.idx {nm : Nat → Option NodeEntry} {pr h l} (hc : DChain nm pr h l) (hd : l.Nodup) {x y p} (hx : x ∈ l)
    (e : nm x = some (.free p (some y))) : l.idxOf y = l.idxOf x + 1 := by
  induction l generalizing h pr with
  | nil => simp at hx
  | cons z xs ih =>
    cases h with
    | none => simp [DChain] at hc
    | some f =>
      obtain ⟨rfl, nx, hf, hc⟩ := hc
      obtain ⟨hd1, hd2⟩ := List.nodup_cons.1 hd
      rcases List.mem_cons.1 hx with rfl | hx
      · rw [hf] at e; cases e
        obtain ⟨ys, n, rfl, h1, -⟩ := hc.head
        have : x ≠ y := by rintro rfl; simp at hd1
        simp [List.idxOf_cons, beq_eq_false_iff_ne.2 this]
      · obtain ⟨h1, h2⟩ := hc.next hx e
        have e1 : f ≠ x := by rintro rfl; exact hd1 hx
        have e2 : f ≠ y := by rintro rfl; exact hd1 h1
        simp [List.idxOf_cons, beq_eq_false_iff_ne.2 e1, beq_eq_false_iff_ne.2 e2, ih hc hd2 hx]

/-- The entries after `swap_nodes` of a live node `a` and the free slot `b` with the neighbours
`p` and `q` in the list. -/
theorem swapFreeList_ok {nm : List NodeEntry} {head c fn} (h : NInv nm head c fn) {a b p : Nat} {q : Option Nat} {ma : NodeMeta}
    (ha : nm[a]? = some (.node ma)) (hb : nm[b]? = some (.free (some p) q)) :
    ∃ l, PG.swapFreeList ((nm.set a (.free (some p) q)).set b (.node ma)) a (some p) q = some l ∧ l.length = nm.length ∧
      NInv l head c (fn.map (swapIdx a b)) ∧ (∀ (n : Nat) m, l[n]? = some (.node m) ↔ nm[swapIdx a b n]? = some (.node m)) := by
  have hfree : ∀ {x : Nat}, x ∈ fn → x ≠ a := by
    rintro x hx rfl
    obtain ⟨_, _, h1⟩ := (h.exact x).1 hx
    rw [ha] at h1; cases h1
  have hbm : b ∈ fn := (h.exact b).2 ⟨_, _, hb⟩
  have hba : b ≠ a := hfree hbm
  have alt : a < nm.length := (List.getElem?_eq_some_iff.1 ha).1
  have blt : b < nm.length := (List.getElem?_eq_some_iff.1 hb).1
  -- the neighbours
  obtain ⟨hpm, pp, hp⟩ : p ∈ fn ∧ ∃ pp, nm[p]? = some (.free pp (some b)) := by
    rcases h.chain.prev hbm hb with h1 | ⟨h1, -⟩
    · exact h1
    · cases h1
  have plt : p < nm.length := (List.getElem?_eq_some_iff.1 hp).1
  have hpa := hfree hpm
  have ip := h.chain.idx h.nodup hpm hp
  have hpb : p ≠ b := by rintro rfl; omega
  have hq : ∀ y, q = some y → (y ∈ fn ∧ ∃ n, nm[y]? = some (.free (some b) n)) ∧ y ≠ a ∧ y ≠ b ∧ y ≠ p ∧ y < nm.length := by
    rintro y rfl
    obtain ⟨h1, n, h2⟩ := h.chain.next hbm hb
    have iy := h.chain.idx h.nodup hbm hb
    exact ⟨⟨h1, n, h2⟩, hfree h1, by rintro rfl; omega, by rintro rfl; omega, (List.getElem?_eq_some_iff.1 h2).1⟩
  -- the new entries
  let w : Nat → Option NodeEntry := fun n =>
    if n = a then some (.free (some p) q) else if n = b then some (.node ma) else if n = p then some (.free pp (some a))
    else if q = some n then (match nm[n]? with | some (.free _ z) => some (.free (some a) z) | e => e) else nm[n]?
  obtain ⟨l, hl, hlen, hw⟩ : ∃ l, PG.swapFreeList ((nm.set a (.free (some p) q)).set b (.node ma)) a (some p) q = some l ∧
      l.length = nm.length ∧ ∀ n : Nat, l[n]? = w n := by
    have e1 : PG.setFreeNext ((nm.set a (.free (some p) q)).set b (.node ma)) p (some a) =
        some ((((nm.set a (.free (some p) q)).set b (.node ma))).set p (.free pp (some a))) := by
      unfold PG.setFreeNext
      rw [List.getElem?_set_ne (Ne.symm hpb), List.getElem?_set_ne (Ne.symm hpa), hp]
    cases q with
    | none =>
      refine ⟨_, by unfold PG.swapFreeList; simp only [e1]; rfl, by simp, fun n => ?_⟩
      simp only [w, List.getElem?_set, List.length_set]
      grind
    | some y =>
      obtain ⟨⟨h1, z, h2⟩, h3, h4, h5, h6⟩ := hq y rfl
      have e2 : PG.setFreePrev ((((nm.set a (.free (some p) (some y))).set b (.node ma))).set p (.free pp (some a))) y (some a) =
          some (((((nm.set a (.free (some p) (some y))).set b (.node ma))).set p (.free pp (some a))).set y (.free (some a) z)) := by
        unfold PG.setFreePrev
        rw [List.getElem?_set_ne (Ne.symm h5), List.getElem?_set_ne (Ne.symm h4), List.getElem?_set_ne (Ne.symm h3), h2]
      refine ⟨_, by unfold PG.swapFreeList; simp only [e1, e2]; rfl, by simp, fun n => ?_⟩
      simp only [w, List.getElem?_set, List.length_set, Option.some.injEq]
      grind
  have hnode : ∀ (n : Nat) m, l[n]? = some (.node m) ↔ nm[swapIdx a b n]? = some (.node m) := by
    intro n m
    rw [hw]
    simp only [w, swapIdx]
    by_cases e1 : n = a
    · subst e1; simp [hb]
    · by_cases e2 : n = b
      · subst e2; simp [e1, ha]
      · simp only [e1, e2, if_false]
        by_cases e3 : n = p
        · subst e3; simp [hp]
        · simp only [e3, if_false]
          split
          · rename_i e4
            obtain ⟨⟨-, z, h2⟩, -⟩ := hq n e4
            simp [h2]
          · rfl
  have hren : ∀ x ∈ fn, ∀ p' n', nm[x]? = some (.free p' n') →
      l[swapIdx a b x]? = some (.free (p'.map (swapIdx a b)) (n'.map (swapIdx a b))) := by
    intro x hx p' n' e
    have hxa := hfree hx
    have hp' : ∀ y, p' = some y → y ≠ a := by
      rintro y rfl
      rcases h.chain.prev hx e with ⟨h1, -⟩ | ⟨h1, -⟩
      · exact hfree h1
      · cases h1
    have hn' : ∀ y, n' = some y → y ≠ a := by
      rintro y rfl
      exact hfree (h.chain.next hx e).1
    have sw : ∀ y, y ≠ a → y ≠ b → swapIdx a b y = y := by intro y h1 h2; simp [swapIdx, h1, h2]
    have pb : p' = some b → q = some x := by
      rintro rfl
      rcases h.chain.prev hx e with ⟨-, z, h1⟩ | ⟨h1, -⟩
      · rw [hb] at h1; cases h1; rfl
      · cases h1
    have nb : n' = some b → x = p := by
      rintro rfl
      obtain ⟨-, z, h1⟩ := h.chain.next hx e
      rw [hb] at h1; cases h1; rfl
    have mapn : ∀ o : Option Nat, (∀ y, o = some y → y ≠ a) → o ≠ some b → o.map (swapIdx a b) = o := by
      intro o h1 h2
      cases o with
      | none => rfl
      | some y => rw [Option.map_some, sw y (h1 y rfl) (by rintro rfl; exact h2 rfl)]
    rw [hw]
    simp only [w]
    by_cases e1 : x = b
    · subst e1
      have : swapIdx a x x = a := by simp [swapIdx, hba]
      rw [hb] at e; cases e
      rw [this, if_pos rfl, mapn _ hp' (by simpa using hpb), mapn _ hn']
      intro hc
      exact (hq x hc).2.2.1 rfl
    · rw [sw x hxa e1, if_neg hxa, if_neg e1]
      by_cases e2 : x = p
      · subst e2
        have hpn : p' ≠ some b := fun hc => (hq x (pb hc)).2.2.2.1 rfl
        rw [if_pos rfl, mapn _ hp' hpn]
        rw [hp] at e; cases e
        simp [swapIdx, hba]
      · rw [if_neg e2, mapn n' hn' fun hc => e2 (nb hc)]
        by_cases e3 : q = some x
        · obtain ⟨⟨-, z, h1⟩, -⟩ := hq x e3
          rw [h1] at e; cases e
          rw [if_pos e3, h1]
          simp [swapIdx, hba]
        · rw [if_neg e3, mapn p' hp' fun hc => e3 (pb hc), e]
  have hhead : head.map (swapIdx a b) = head := by
    cases head with
    | none => rfl
    | some f =>
      obtain ⟨xs, nx, h1, h2, -⟩ := h.chain.head
      have hf : f ∈ fn := by rw [h1]; simp
      have : f ≠ b := by
        rintro rfl
        rw [show nm[f]? = some (.free none nx) from h2] at hb; cases hb
      simp [swapIdx, hfree hf, this]
  refine ⟨l, hl, hlen, ⟨?_, ?_, ?_, ?_⟩, hnode⟩
  · have := h.chain.rename (nm' := fun i => l[i]?) (ρ := swapIdx a b) hren
    rw [hhead] at this
    exact this
  · intro n
    simp only [List.mem_map]
    constructor
    · rintro ⟨x, hx, rfl⟩
      obtain ⟨p', n', e⟩ := (h.exact x).1 hx
      exact ⟨_, _, hren x hx p' n' e⟩
    · rintro ⟨p', n', e⟩
      refine ⟨swapIdx a b n, ?_, swapIdx_swapIdx a b n⟩
      have hlt : swapIdx a b n < nm.length := by
        have : n < nm.length := by rw [← hlen]; exact (List.getElem?_eq_some_iff.1 e).1
        unfold swapIdx; split
        · exact blt
        · split
          · exact alt
          · exact this
      rw [h.exact]
      cases hx : nm[swapIdx a b n]? with
      | none => rw [List.getElem?_eq_none_iff] at hx; omega
      | some z =>
        cases z with
        | free p n => exact ⟨p, n, rfl⟩
        | node m => rw [(hnode n m).2 hx] at e; cases e
  · refine List.Pairwise.map _ (fun x y hxy hc => hxy ?_) h.nodup
    rw [← swapIdx_swapIdx a b x, hc, swapIdx_swapIdx]
  · rw [h.count', hlen]
    have key : ∀ n : Nat, isNode l[n]? = isNode nm[swapIdx a b n]? := by
      intro n
      cases hx : isNode nm[swapIdx a b n]? with
      | true =>
        obtain ⟨m, hm⟩ : ∃ m, nm[swapIdx a b n]? = some (.node m) := by
          revert hx; cases nm[swapIdx a b n]? with
          | none => simp [isNode]
          | some z => cases z <;> simp [isNode]
        rw [(hnode n m).2 hm]
      | false =>
        cases hy : l[n]? with
        | none => rfl
        | some z =>
          cases z with
          | free => rfl
          | node m => rw [(hnode n m).1 hy] at hx; simp [isNode] at hx
    -- both counts are one more than the count without the two slots
    have c1 := cnt_insert (n := nm.length) (i := a) (P := fun n => if n = a ∨ n = b then false else isNode nm[n]?)
      (Q := fun n => isNode nm[n]?) alt (by simp) (by simp [ha, isNode]) (by
        intro j _ hj
        by_cases e : j = b
        · subst e; simp [hb, isNode]
        · simp [hj, e])
    have c2 := cnt_insert (n := nm.length) (i := b) (P := fun n => if n = a ∨ n = b then false else isNode nm[n]?)
      (Q := fun n => isNode l[n]?) blt (by simp) (by simp [key, swapIdx, hba, ha, isNode]) (by
        intro j _ hj
        by_cases e : j = a
        · subst e; simp [key, swapIdx, hb, isNode]
        · simp [hj, e, key, swapIdx])
    exact c1.trans c2.symm

/-- Effect of `swap_nodes` on a live node and a free slot that is not the head of the list of free
slots. -/
theorem swapNodes_spare_ok {g : PG} (h : Inv g) {a b ma} (ha : g.node? a = some ma) (hlt : b < g.nodeMeta.length)
    (hb : g.node? b = none) (hh : g.nodeFree ≠ some b) :
    ∃ g', g.swapNodes a b = some g' ∧ g.swapNodes b a = some g' ∧ Inv g' ∧ (∀ n, g'.node? n = g.node? (swapIdx a b n)) ∧
      g'.port? = (fun p => (g.port? p).map fun x => (swapIdx a b x.1, x.2)) ∧ g'.lk = g.lk ∧
      g'.nodeCount = g.nodeCount ∧ g'.portCount = g.portCount ∧ g'.linkCount = g.linkCount ∧
      g'.nodeMeta.length = g.nodeMeta.length ∧ g'.nodeFree = g.nodeFree := by
  obtain ⟨own, fs, hP, hfull⟩ := h.slots
  obtain ⟨fn, hN⟩ := h.nodes
  have ha' := PG.node?_eq.1 ha
  obtain ⟨p0, q, hb'⟩ : ∃ p q, g.nodeMeta[b]? = some (.free p q) := by
    cases e : g.nodeMeta[b]? with
    | none => rw [List.getElem?_eq_none_iff] at e; omega
    | some z =>
      cases z with
      | free p q => exact ⟨p, q, rfl⟩
      | node m => rw [PG.node?_eq.2 e] at hb; cases hb
  obtain ⟨p, rfl⟩ : ∃ p, p0 = some p := by
    obtain ⟨p, n, e⟩ := hN.chain.has_prev ((hN.exact b).2 ⟨_, _, hb'⟩) hh
    rw [show g.nodeMeta[b]? = some (.free (some p) n) from e] at hb'
    cases hb'; exact ⟨p, rfl⟩
  have hab : a ≠ b := by rintro rfl; rw [ha] at hb; cases hb
  obtain ⟨l, hl, hlen, hN', hnl⟩ := swapFreeList_ok hN ha' hb'
  have hba := hP.bound a ma ha
  obtain ⟨g0, hg0⟩ : ∃ g0 : PG, { g with nodeMeta := (g.nodeMeta.set a (.free (some p) q)).set b (.node ma) } = g0 := ⟨_, rfl⟩
  have hpm0 : g0.portMeta = g.portMeta := by rw [← hg0]
  have hp0 : g0.port? = g.port? := by rw [← hg0]; rfl
  obtain ⟨g1, h1, he1, hl1, hp1⟩ := claimPorts_ok (g := g0) (n := b) (m := ma) (by rw [hpm0]; omega)
  have hn1 : g1.nodeMeta = (g.nodeMeta.set a (.free (some p) q)).set b (.node ma) := by rw [he1, ← hg0]
  obtain ⟨g2, hg2⟩ : ∃ g2 : PG, { g1 with nodeMeta := l } = g2 := ⟨_, rfl⟩
  have hnm2 : g2.nodeMeta = l := by rw [← hg2]
  have hnode : ∀ n, g2.node? n = g.node? (swapIdx a b n) := by
    intro n
    have := hnl n
    cases e : g.node? (swapIdx a b n) with
    | some m => rw [PG.node?_eq, hnm2, this]; exact PG.node?_eq.1 e
    | none =>
      cases e' : g2.node? n with
      | none => rfl
      | some m =>
        rw [PG.node?_eq, hnm2, this] at e'
        rw [PG.node?_eq.2 e'] at e; cases e
  have hport : g2.port? = fun p => (g.port? p).map fun x => (swapIdx a b x.1, x.2) := by
    have : g2.port? = g1.port? := by rw [← hg2]; rfl
    rw [this, hp1, hp0]
    funext p
    by_cases hin : ∃ d, ma.has d p = true
    · obtain ⟨d, hd⟩ := hin
      rw [claim_has hd, (hP.ports_has ha).2 hd]; simp [swapIdx]
    · rw [claim_not (fun d => by
        cases e' : ma.has d p with
        | false => rfl
        | true => exact absurd ⟨d, e'⟩ hin)]
      cases e : g.port? p with
      | none => rfl
      | some x =>
        obtain ⟨n, d⟩ := x
        have h1 : n ≠ a := by rintro rfl; exact hin ⟨d, (hP.ports_has ha).1 e⟩
        have h2 : n ≠ b := by
          rintro rfl
          obtain ⟨m, hm, -⟩ := (hP.ports _ _ _).1 e
          rw [hb] at hm; cases hm
        simp [swapIdx, h1, h2]
  have hlk : g2.lk = g.lk := by rw [← hg2, he1, ← hg0]; rfl
  have hheads : g2.heads = g.heads := by rw [← hg2, he1, ← hg0]; rfl
  have hpm : g2.portMeta.length = g.portMeta.length := by rw [← hg2]; rw [hl1, hpm0]
  have hpl : g2.portLink = g.portLink := by rw [← hg2, he1, ← hg0]
  have hnc : g2.nodeCount = g.nodeCount := by rw [← hg2, he1, ← hg0]
  have hpc : g2.portCount = g.portCount := by rw [← hg2, he1, ← hg0]
  have hlc : g2.linkCount = g.linkCount := by rw [← hg2, he1, ← hg0]
  have hnf : g2.nodeFree = g.nodeFree := by rw [← hg2, he1, ← hg0]
  refine ⟨g2, ?_, ?_, ?_, hnode, hport, hlk, hnc, hpc, hlc, by rw [hnm2, hlen], hnf⟩
  · unfold PG.swapNodes
    rw [ha', hb']
    simp only
    rw [hg0]
    simp only [PG.swapClaim, h1, hn1, hl, Option.map_some, hg2]
  · unfold PG.swapNodes
    rw [ha', hb']
    simp only
    rw [List.set_comm _ _ hab.symm, hg0]
    simp only [PG.swapClaim, h1, hn1, hl, Option.map_some, hg2]
  refine ⟨by rw [hpl, hpm]; exact h.len, ⟨_, by rw [hnm2, hnf, hnc]; exact hN'⟩, ?_, ?_, ?_, ?_⟩
  · rw [hpm, hlk, hheads]
    refine ⟨_, _, hP.rename (swapIdx a b) ?_ (fun p => by rw [hport]), rename_full _ hfull⟩
    intro n' m
    rw [hnode]
    constructor
    · intro hm; exact ⟨_, swapIdx_swapIdx a b n', hm⟩
    · rintro ⟨n, rfl, hn⟩; rw [swapIdx_swapIdx]; exact hn
  · rw [hpm, hpc, hport, h.portCount]
    apply cnt_congr; intro i _; simp
  · rw [hlc, hpm, h.outCount, hlk, linkedDir_map hport]
  · rw [hlc, hpm, h.inCount, hlk, linkedDir_map hport]

theorem swapIdx_comm (a b : Nat) : swapIdx a b = swapIdx b a := by
  funext n; unfold swapIdx; grind

theorem spare_iff {g : PG} {n : Nat} :
    g.spare n = true ↔ n < g.nodeMeta.length ∧ g.node? n = none ∧ g.nodeFree ≠ some n := by
  simp [PG.spare, PG.containsNode, and_assoc]

theorem swappable_iff {g : PG} {a b : Nat} : g.swappable a b = true ↔
    (g.containsNode a = true ∧ g.containsNode b = true) ∨ (g.containsNode a = true ∧ g.spare b = true) ∨
      (g.spare a = true ∧ g.containsNode b = true) := by
  simp only [PG.swappable, Bool.and_eq_true, Bool.or_eq_true]
  cases g.containsNode a <;> cases g.containsNode b <;> cases g.spare a <;> cases g.spare b <;> simp

/-- Effect of `swap_nodes`. -/
theorem swapNodes_all_ok {g : PG} (h : Inv g) {a b} (hs : g.swappable a b = true) :
    ∃ g', g.swapNodes a b = some g' ∧ Inv g' ∧ (∀ n, g'.node? n = g.node? (swapIdx a b n)) ∧
      g'.port? = (fun p => (g.port? p).map fun x => (swapIdx a b x.1, x.2)) ∧ g'.lk = g.lk ∧
      g'.nodeCount = g.nodeCount ∧ g'.portCount = g.portCount ∧ g'.linkCount = g.linkCount ∧
      g'.nodeMeta.length = g.nodeMeta.length ∧ g'.nodeFree = g.nodeFree := by
  rcases swappable_iff.1 hs with ⟨ha, hb⟩ | ⟨ha, hb⟩ | ⟨ha, hb⟩
  · obtain ⟨ma, ha⟩ := Option.isSome_iff_exists.1 ha
    obtain ⟨mb, hb⟩ := Option.isSome_iff_exists.1 hb
    exact swapNodes_ok h ha hb
  · obtain ⟨ma, ha⟩ := Option.isSome_iff_exists.1 ha
    obtain ⟨h1, h2, h3⟩ := spare_iff.1 hb
    obtain ⟨g', h4, -, h5⟩ := swapNodes_spare_ok h ha h1 h2 h3
    exact ⟨g', h4, h5⟩
  · obtain ⟨mb, hb⟩ := Option.isSome_iff_exists.1 hb
    obtain ⟨h1, h2, h3⟩ := spare_iff.1 ha
    obtain ⟨g', -, h4, h5⟩ := swapNodes_spare_ok h hb h1 h2 h3
    rw [swapIdx_comm a b]
    exact ⟨g', h4, h5⟩

end Verif.PG
