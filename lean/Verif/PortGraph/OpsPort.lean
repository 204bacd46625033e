import Verif.PortGraph.OpsNode

/-! Effects of allocating and freeing port slabs. -/

namespace Verif.PG

open Verif (Direction)

theorem NodeMeta.new?_eq {f i o c : Nat} (hi : i ≤ 65534) (ho : o ≤ 65535) (hc : i + o ≤ c)
    (hf : 0 < c ∨ f = 0) : NodeMeta.new? f i o c = some ⟨f, i, o, c⟩ := by
  unfold NodeMeta.new?
  rw [if_pos]
  exact ⟨hi, ho, Nat.le_trans (Nat.min_le_left _ _) hc, hf⟩

theorem port?_fill {g : PG} {a k n d} (h : 0 < k → a + k ≤ g.portMeta.length) (p : Nat) :
    PG.port? { g with portMeta := fill g.portMeta a k (.port n d) } p =
      if inRange a k p then some (n, d) else g.port? p := by
  simp only [PG.port?]
  rw [getElem?_fill]
  by_cases e : a ≤ p ∧ p < a + k
  · have h1 : p < g.portMeta.length := by omega
    rw [if_pos e, List.getElem?_eq_getElem h1, if_pos (by simpa using e)]
    simp
  · rw [if_neg e, if_neg (by simpa using e)]

theorem port?_fill_free {g : PG} {a k} (p : Nat) :
    PG.port? { g with portMeta := fill g.portMeta a k .free } p =
      if inRange a k p then none else g.port? p := by
  simp only [PG.port?]
  rw [getElem?_fill]
  by_cases e : a ≤ p ∧ p < a + k
  · rw [if_pos e, if_pos (by simpa using e)]
    cases g.portMeta[p]? <;> simp
  · rw [if_neg e, if_neg (by simpa using e)]

theorem lk_fill_none {g : PG} {a k} (p : Nat) :
    PG.lk { g with portLink := fill g.portLink a k none } p =
      if inRange a k p then none else g.lk p := by
  simp only [PG.lk]
  rw [getElem?_fill]
  by_cases e : a ≤ p ∧ p < a + k
  · rw [if_pos e, if_pos (by simpa using e)]
    cases g.portLink[p]? <;> simp
  · rw [if_neg e, if_neg (by simpa using e)]

theorem getElem?_append_replicate {α} (l : List α) (k : Nat) (x : α) (p : Nat) :
    (l ++ List.replicate k x)[p]? = if inRange l.length k p then some x else l[p]? := by
  by_cases e : l.length ≤ p ∧ p < l.length + k
  · rw [if_pos (by simpa using e), List.getElem?_append_right e.1, List.getElem?_replicate,
      if_pos (by omega)]
  · rw [if_neg (by simpa using e)]
    rcases Nat.lt_or_ge p l.length with h | h
    · rw [List.getElem?_append_left h]
    · rw [List.getElem?_eq_none (by simp; omega), List.getElem?_eq_none h]

theorem heads_set {g : PG} {s f} (hs : 0 < s) (hlt : s - 1 < g.portFree.length) :
    PG.heads { g with portFree := g.portFree.set (s - 1) f } = upd g.heads s f := by
  funext j
  simp only [PG.heads, upd]
  by_cases e0 : j = 0
  · subst e0; rw [if_pos rfl, if_neg (by omega), if_pos rfl]
  · rw [if_neg e0, if_neg e0, join_set _ _ _ _ hlt]
    by_cases e : j = s
    · subst e; simp
    · rw [if_neg (by omega), if_neg e]

/-- Effect of `alloc_ports`. -/
theorem allocPorts_ok {g : PG} {nd own fs} (node inc out extra : Nat)
    (hlen : g.portLink.length = g.portMeta.length)
    (h : PInv g.portMeta.length nd g.port? g.lk g.heads own fs)
    (hinc : inc ≤ 65534) (hreq : inc + out + extra ≤ 65535) :
    ∃ f g' own' fs', g.allocPorts node inc out extra = some (⟨f, inc, out, inc + out + extra⟩, g') ∧
      (f + (inc + out + extra) ≤ g'.portMeta.length) ∧ (inc + out + extra = 0 → f = 0) ∧
      g'.portLink.length = g'.portMeta.length ∧ g.portMeta.length ≤ g'.portMeta.length ∧
      g'.port? = claim g.port? node ⟨f, inc, out, inc + out + extra⟩ ∧
      g'.lk = (fun p => if inRange f (inc + out + extra) p then none else g.lk p) ∧
      PInv g'.portMeta.length nd g.port? g'.lk g'.heads own' fs' ∧
      (∀ p, f ≤ p → p < f + (inc + out + extra) → own' p = .none) ∧
      g'.nodeMeta = g.nodeMeta ∧ g'.nodeFree = g.nodeFree ∧ g'.nodeCount = g.nodeCount ∧
      g'.portCount = g.portCount ∧ g'.linkCount = g.linkCount ∧
      g.portFree.length ≤ g'.portFree.length ∧
      ((∀ p < g.portMeta.length, own p ≠ .none) → ∀ p < g'.portMeta.length, ¬ (f ≤ p ∧ p < f + (inc + out + extra)) →
        own' p ≠ .none) := by
  generalize hr : inc + out + extra = r at *
  by_cases hr0 : r = 0
  · have : inc = 0 ∧ out = 0 ∧ extra = 0 := by omega
    obtain ⟨rfl, rfl, rfl⟩ := this
    subst hr
    refine ⟨0, g, own, fs, by simp [PG.allocPorts], by simp, by simp, hlen, Nat.le_refl _, ?_, ?_, h, by omega,
      rfl, rfl, rfl, rfl, rfl, Nat.le_refl _, fun hf p hp _ => hf p hp⟩
    · funext p
      simp [claim, NodeMeta.start, NodeMeta.numPorts, inRange]
    · funext p
      simp [inRange]
  · have hmod : inc % 65536 = inc ∧ out % 65536 = out ∧ r % 65536 = r := by
      refine ⟨Nat.mod_eq_of_lt ?_, Nat.mod_eq_of_lt ?_, Nat.mod_eq_of_lt ?_⟩ <;> omega
    have hnew := fun f => NodeMeta.new?_eq (f := f) (i := inc) (o := out) (c := r) hinc (by omega) (by omega)
      (Or.inl (by omega))
    cases hh : (g.portFree[r - 1]?).join with
    | some f =>
      have hh' : g.heads r = some f := by simp [PG.heads, hr0, hh]
      obtain ⟨hf1, hf2, hP⟩ := h.popSlab (by omega) hh'
      have hflt : r - 1 < g.portFree.length := by
        rcases Nat.lt_or_ge (r - 1) g.portFree.length with h1 | h1
        · exact h1
        · rw [List.getElem?_eq_none h1] at hh; simp at hh
      have hpt : ∀ p, f ≤ p → p < f + r → g.port? p = none := fun p h1 h2 =>
        h.pt_none fun n => by rw [hf2 p h1 h2]; simp
      refine ⟨f, { g with
        portFree := g.portFree.set (r - 1) (g.lk f)
        portMeta := fill (fill (fill g.portMeta f inc (.port node .incoming))
          (f + inc) out (.port node .outgoing))
          (f + (out + inc)) (r - (out + inc)) .free
        portLink := fill g.portLink f r none },
        (fun p => if inRange f r p then .none else own p), upd fs r (fs r).tail, ?_, ?_, fun h => absurd h hr0, ?_, ?_, ?_, ?_,
        ?_, ?_, rfl, rfl, rfl, rfl, rfl, by simp, fun hf p hp hn => by
          simp only [if_neg (show ¬ inRange f r p = true by simpa using hn)]
          exact hf p (by simpa using hp)⟩
      · simp only [PG.allocPorts, hr, hr0, if_false, hh]
        rw [PG.getElem?_portLink (by omega)]
        simp only [hmod, hnew, NodeMeta.portCount]
        rw [if_pos ⟨hf1, by omega⟩]
      · simpa using hf1
      · simpa using hlen
      · simp
      · funext p
        have e3 := port?_fill_free (g := { g with
          portMeta := fill (fill g.portMeta f inc (.port node .incoming))
            (f + inc) out (.port node .outgoing) }) (a := f + (out + inc)) (k := r - (out + inc)) p
        have e2 := port?_fill (g := { g with portMeta := fill g.portMeta f inc (.port node .incoming) })
          (a := f + inc) (k := out) (n := node) (d := .outgoing) (by simp; omega) p
        have e1 := port?_fill (g := g) (a := f) (k := inc) (n := node) (d := .incoming) (by omega) p
        have hp := hpt p
        refine Eq.trans e3 ?_
        rw [e2, e1]
        simp only [claim, NodeMeta.start, NodeMeta.numPorts]
        grind
      · funext p; exact lk_fill_none p
      · have e1 : PG.lk { g with
            portFree := g.portFree.set (r - 1) (g.lk f)
            portMeta := fill (fill (fill g.portMeta f inc (.port node .incoming))
              (f + inc) out (.port node .outgoing))
              (f + (out + inc)) (r - (out + inc)) .free
            portLink := fill g.portLink f r none } = fun p => if inRange f r p then none else g.lk p := by
          funext p; exact lk_fill_none p
        have e2 : PG.heads { g with
            portFree := g.portFree.set (r - 1) (g.lk f)
            portMeta := fill (fill (fill g.portMeta f inc (.port node .incoming))
              (f + inc) out (.port node .outgoing))
              (f + (out + inc)) (r - (out + inc)) .free
            portLink := fill g.portLink f r none } = upd g.heads r (g.lk f) :=
          heads_set (g := g) (by omega) hflt
        rw [e1, e2]
        simpa using hP
      · intro p h1 h2
        simp [h1, h2]
    | none =>
      have hlk : ∀ p, g.portMeta.length ≤ p → g.lk p = none := fun p hp => by
        simp [PG.lk, List.getElem?_eq_none (show g.portLink.length ≤ p by omega)]
      have hpn : ∀ p, g.portMeta.length ≤ p → g.port? p = none := fun p hp => by
        simp [PG.port?, List.getElem?_eq_none hp]
      refine ⟨g.portMeta.length, { g with
        portMeta := g.portMeta ++ List.replicate inc (.port node .incoming)
          ++ List.replicate out (.port node .outgoing) ++ List.replicate extra .free
        portLink := g.portLink ++ List.replicate (g.portMeta.length + r - g.portLink.length) none },
        (fun p => if g.portMeta.length ≤ p then .none else own p), fs,
        ?_, ?_, fun h => absurd h hr0, ?_, ?_, ?_, ?_, ?_, ?_, rfl, rfl, rfl, rfl, rfl, Nat.le_refl _, fun hf p hp hn => by
          have hp' : p < g.portMeta.length := by
            simp only [List.length_append, List.length_replicate] at hp; omega
          simp only [if_neg (show ¬ g.portMeta.length ≤ p by omega)]
          exact hf p hp'⟩
      · simp only [PG.allocPorts, hr, hr0, if_false, hh]
        simp only [hmod, hnew]
      · simp; omega
      · simp; omega
      · simp
      · funext p
        simp only [PG.port?, claim, NodeMeta.start, NodeMeta.numPorts]
        rw [getElem?_append_replicate, getElem?_append_replicate, getElem?_append_replicate]
        have := hpn p
        simp only [PG.port?] at this
        simp only [List.length_append, List.length_replicate]
        grind
      · funext p
        simp only [PG.lk]
        rw [getElem?_append_replicate]
        have := hlk p
        simp only [PG.lk] at this
        grind
      · have e1 : PG.lk { g with
            portMeta := g.portMeta ++ List.replicate inc (.port node .incoming)
              ++ List.replicate out (.port node .outgoing) ++ List.replicate extra .free
            portLink := g.portLink ++ List.replicate (g.portMeta.length + r - g.portLink.length) none } =
            fun p => if g.portMeta.length ≤ p then none else g.lk p := by
          funext p
          simp only [PG.lk]
          rw [getElem?_append_replicate]
          have := hlk p
          simp only [PG.lk] at this
          grind
        rw [e1]
        exact h.extend (by simp)
      · intro p h1 h2
        simp [h1]

/-! ## Freeing -/

/-- The part of the invariant that the loop of `free_ports` needs. -/
structure LInv (g : PG) : Prop where
  len : g.portLink.length = g.portMeta.length
  links : ∀ p n d q, g.port? p = some (n, d) → g.lk p = some q →
    g.lk q = some p ∧ ∃ n', g.port? q = some (n', d.reverse)
  outCount : g.linkCount = cnt g.portMeta.length (linkedDir g.port? g.lk .outgoing)
  inCount : g.linkCount = cnt g.portMeta.length (linkedDir g.port? g.lk .incoming)

theorem LInv.sym {g : PG} (h : LInv g) : ∀ a b, (g.port? a).isSome → g.lk a = some b → g.lk b = some a := by
  intro a b ha hb
  cases e : g.port? a with
  | none => simp [e] at ha
  | some x => obtain ⟨n, d⟩ := x; exact (h.links a n d b e hb).1

theorem LInv.count {g : PG} (h : LInv g) (d : Direction) :
    g.linkCount = cnt g.portMeta.length (linkedDir g.port? g.lk d) := by
  cases d
  · exact h.inCount
  · exact h.outCount

theorem port?_set_free {g : PG} {i} (p : Nat) :
    PG.port? { g with portMeta := g.portMeta.set i .free } p = upd g.port? i none p := by
  simp only [PG.port?, upd]
  rw [List.getElem?_set]
  by_cases e : i = p
  · subst e; rw [if_pos rfl, if_pos rfl]; split <;> simp_all
  · rw [if_neg e, if_neg (fun h => e h.symm)]

theorem freePortStep_ok {g : PG} (h : LInv g) {i} (hi : i < g.portMeta.length)
    (hfree : g.port? i = none → g.lk i = none) :
    ∃ g', g.freePortStep i = some g' ∧ LInv g' ∧ g'.port? = upd g.port? i none ∧
      g'.lk = cut g.port? g.lk (fun j => decide (j = i)) ∧ g'.portMeta.length = g.portMeta.length ∧
      g'.nodeMeta = g.nodeMeta ∧ g'.nodeFree = g.nodeFree ∧ g'.portFree = g.portFree ∧
      g'.nodeCount = g.nodeCount ∧ g'.portCount = g.portCount := by
  have hlen := h.len
  -- links and counters survive whatever happened
  have key : ∀ c : Nat, (∀ d, c = cnt g.portMeta.length
        (linkedDir g.port? (cut g.port? g.lk (fun j => decide (j = i))) d)) →
      ∀ g' : PG, g'.portLink.length = g'.portMeta.length → g'.portMeta.length = g.portMeta.length →
        g'.port? = upd g.port? i none → g'.lk = cut g.port? g.lk (fun j => decide (j = i)) →
        g'.linkCount = c → LInv g' := by
    intro c hc g' h1 h2 h3 h4 h5
    have hcnt : ∀ d, cnt g'.portMeta.length (linkedDir g'.port? g'.lk d) = c := by
      intro d
      rw [hc d, h2, h3, h4]
      apply cnt_congr
      intro j _
      by_cases e : j = i
      · subst e
        unfold linkedDir
        simp [upd, cut]
        split <;> simp
      · simp [linkedDir, upd, e]
    refine ⟨h1, ?_, by rw [h5, hcnt], by rw [h5, hcnt]⟩
    intro p n d q hp hq
    rw [h3] at hp; rw [h4] at hq
    rw [h3, h4]
    have hl := h.links
    simp only [upd, cut] at *
    grind
  obtain ⟨hsome, hnone⟩ : (∀ q, g.lk i = some q → ∃ n d n', g.port? i = some (n, d) ∧ g.lk q = some i ∧
      g.port? q = some (n', d.reverse)) ∧ True := by
    refine ⟨?_, trivial⟩
    intro q hq
    cases e : g.port? i with
    | none => rw [hfree e] at hq; simp at hq
    | some x =>
      obtain ⟨n, d⟩ := x
      obtain ⟨h1, n', h2⟩ := h.links i n d q e hq
      exact ⟨n, d, n', rfl, h1, h2⟩
  cases hl : g.lk i with
  | none =>
    have hlk : g.lk = cut g.port? g.lk (fun j => decide (j = i)) := (cut_none hl h.sym).symm
    have hp : PG.port? { g with portMeta := g.portMeta.set i .free } = upd g.port? i none :=
      funext port?_set_free
    refine ⟨{ g with portMeta := g.portMeta.set i .free }, ?_, ?_, hp, hlk, by simp, rfl, rfl, rfl, rfl, rfl⟩
    · simp only [PG.freePortStep, if_pos hi]
      rw [PG.getElem?_portLink (by omega), hl]
    · exact key g.linkCount (fun d => by rw [← hlk]; exact h.count d) _ (by simpa using hlen) (by simp) hp hlk rfl
  | some q =>
    obtain ⟨n, d, n', hpi, hqi, hpq⟩ := hsome q hl
    have hqlt := PG.port?_lt (g := g) (p := q) (by simp [hpq])
    have hpqne : i ≠ q := by
      rintro rfl; rw [hpi] at hpq; cases d <;> simp [Direction.reverse] at hpq
    have hcut := cut_single (pt := g.port?) hl hqi (by simp [hpq]) h.sym
    have hc : ∀ d', cnt g.portMeta.length (linkedDir g.port? g.lk d') =
        cnt g.portMeta.length (linkedDir g.port? (cut g.port? g.lk (fun j => decide (j = i))) d') + 1 := by
      intro d'
      rw [← cnt_link (pt := g.port?) (lk := cut g.port? g.lk (fun j => decide (j = i)))
        (a := i) (b := q) hpi hpq hi hqlt (by simp [hcut, upd]) (by simp [hcut, upd]) d']
      congr 2
      rw [hcut]
      funext j
      simp only [upd]
      grind
    have hpos : 0 < g.linkCount := by rw [h.outCount, hc]; omega
    have hlk : PG.lk { g with portMeta := g.portMeta.set i .free, portLink := (g.portLink.set i none).set q none, linkCount := g.linkCount - 1 }
        = cut g.port? g.lk (fun j => decide (j = i)) := by
      rw [hcut]
      funext j
      simp only [PG.lk, upd]
      rw [join_set _ _ _ _ (by simp; omega), join_set _ _ _ _ (by omega)]
    have hp : PG.port? { g with portMeta := g.portMeta.set i .free, portLink := (g.portLink.set i none).set q none, linkCount := g.linkCount - 1 } = upd g.port? i none :=
      funext port?_set_free
    refine ⟨{ g with
          portMeta := g.portMeta.set i .free
          portLink := (g.portLink.set i none).set q none
          linkCount := g.linkCount - 1 }, ?_, ?_, hp, hlk, by simp, rfl, rfl, rfl, rfl, rfl⟩
    · simp only [PG.freePortStep, if_pos hi]
      rw [PG.getElem?_portLink (by omega), hl]
      simp only
      rw [if_pos ⟨by omega, hpos⟩]
    · exact key (g.linkCount - 1) (fun d => by have := hc d; have := h.count d; omega) _
        (by simpa using hlen) (by simp) hp hlk rfl

theorem freePortsLoop_ok {g : PG} (h : LInv g) (i k : Nat) (hi : i + k ≤ g.portMeta.length)
    (hfree : ∀ p, i ≤ p → p < i + k → g.port? p = none → g.lk p = none) :
    ∃ g', g.freePortsLoop i k = some g' ∧ LInv g' ∧
      g'.port? = (fun p => if inRange i k p then none else g.port? p) ∧
      g'.lk = cut g.port? g.lk (inRange i k) ∧ g'.portMeta.length = g.portMeta.length ∧
      g'.nodeMeta = g.nodeMeta ∧ g'.nodeFree = g.nodeFree ∧ g'.portFree = g.portFree ∧
      g'.nodeCount = g.nodeCount ∧ g'.portCount = g.portCount := by
  induction k generalizing g i with
  | zero =>
    have e : inRange i 0 = fun _ => false := by funext p; simp [inRange]
    refine ⟨g, rfl, h, ?_, ?_, rfl, rfl, rfl, rfl, rfl, rfl⟩
    · simp [e]
    · rw [e, cut_false]
  | succ k ih =>
    obtain ⟨g1, h1, hI1, hp1, hl1, hlen1, ha, hb, hc, hd, he⟩ := freePortStep_ok h (i := i) (by omega)
      (hfree i (by omega) (by omega))
    obtain ⟨g2, h2, hI2, hp2, hl2, hlen2, ha2, hb2, hc2, hd2, he2⟩ := ih hI1 (i + 1) (by omega) (by
      intro p hp hp' hn
      rw [hp1] at hn
      rw [hl1]
      have := hfree p (by omega) (by omega)
      simp only [upd, cut] at *
      grind)
    refine ⟨g2, ?_, hI2, ?_, ?_, by omega, by rw [ha2, ha], by rw [hb2, hb], by rw [hc2, hc], by rw [hd2, hd],
      by rw [he2, he]⟩
    · simp only [PG.freePortsLoop, h1, h2]
    · rw [hp2, hp1]
      funext p
      simp only [upd]
      grind
    · rw [hl2, hp1, hl1]
      funext p
      simp only [cut, upd, inRange_def]
      cases g.lk p <;> grind

/-- Effect of `free_ports`. -/
theorem freePorts_ok {g : PG} (h : LInv g) (f s : Nat) (hi : f + s ≤ g.portMeta.length)
    (hfree : ∀ p, f ≤ p → p < f + s → g.port? p = none → g.lk p = none) :
    ∃ g', g.freePorts f s = some g' ∧
      g'.port? = (fun p => if inRange f s p then none else g.port? p) ∧
      (0 < s → g'.lk = upd (cut g.port? g.lk (inRange f s)) f (g.heads s)) ∧
      (s = 0 → g'.lk = g.lk) ∧
      (0 < s → g'.heads = upd g.heads s (some f)) ∧ (s = 0 → g'.heads = g.heads) ∧
      g'.portLink.length = g.portLink.length ∧ g'.portMeta.length = g.portMeta.length ∧
      g'.nodeMeta = g.nodeMeta ∧ g'.nodeFree = g.nodeFree ∧
      g'.nodeCount = g.nodeCount ∧ g'.portCount = g.portCount ∧
      (∀ d, g'.linkCount = cnt g.portMeta.length
        (linkedDir (fun p => if inRange f s p then none else g.port? p)
          (cut g.port? g.lk (inRange f s)) d)) := by
  have hlen := h.len
  have hh : PG.heads { g with portFree := g.portFree ++ List.replicate (s - g.portFree.length) none } = g.heads := by
    funext j
    simp only [PG.heads]
    rw [getElem?_append_replicate]
    by_cases e : inRange g.portFree.length (s - g.portFree.length) (j - 1) = true
    · rw [if_pos e]; simp at e; rw [List.getElem?_eq_none e.1]; simp
    · rw [if_neg e]
  by_cases hs : s = 0
  · subst hs
    have e : inRange f 0 = fun _ => false := by funext p; simp [inRange]
    refine ⟨{ g with portFree := g.portFree ++ List.replicate (0 - g.portFree.length) none },
      by simp [PG.freePorts], ?_, by simp, fun _ => rfl, by simp, fun _ => hh, rfl, rfl, rfl, rfl, rfl, rfl, ?_⟩
    · simp only [e]; rfl
    · intro d
      simp only [e]
      rw [cut_false]
      exact h.count d
  · obtain ⟨g1, h1, hI1, hp1, hl1, hlen1, ha, hb, hc, hd, he⟩ := freePortsLoop_ok
      (g := { g with portFree := g.portFree ++ List.replicate (s - g.portFree.length) none })
      ⟨hlen, h.links, h.outCount, h.inCount⟩ f s hi hfree
    have hpf : s - 1 < g1.portFree.length := by rw [hc]; simp; omega
    have hh1 : g1.heads = g.heads := by
      rw [← hh]; funext j; simp [PG.heads, hc]
    have hlen1' : g1.portLink.length = g.portLink.length := by
      have e1 := hI1.len
      have e2 : g1.portMeta.length = g.portMeta.length := hlen1
      omega
    have hhead : g1.portFree[s - 1]? = some (g.heads s) := by
      rw [← hh1]; simp only [PG.heads, if_neg hs]; rw [List.getElem?_eq_getElem hpf]; simp
    refine ⟨{ g1 with
            portLink := g1.portLink.set f (g.heads s)
            portFree := g1.portFree.set (s - 1) (some f) }, ?_, hp1, ?_, by omega, ?_, by omega, by simpa using hlen1', hlen1,
            ha, hb, hd, he, ?_⟩
    · simp only [PG.freePorts, if_neg hs, h1, hhead]
      rw [if_pos (by omega)]
    · intro _
      have hl1' : g1.lk = cut g.port? g.lk (inRange f s) := hl1
      rw [← hl1']
      funext j
      simp only [PG.lk, upd]
      rw [join_set _ _ _ _ (by omega)]
    · intro _
      rw [← hh1]
      exact heads_set (g := g1) (by omega) hpf
    · intro d
      have := hI1.count d
      rw [hp1, hl1] at this
      rw [show g1.portMeta.length = g.portMeta.length from hlen1] at this
      exact this

end Verif.PG
