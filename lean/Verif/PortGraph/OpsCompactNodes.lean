import Verif.PortGraph.OpsRealloc

/-! Effects of `compact_nodes` and `swap_nodes`. -/

namespace Verif.PG

open Verif (Direction)

theorem claimPorts_ok {g : PG} {n} {m : NodeMeta} (hb : m.first + m.incoming + m.outgoing ≤ g.portMeta.length) :
    ∃ g', g.claimPorts n m = some g' ∧ g' = { g with portMeta := g'.portMeta } ∧
      g'.portMeta.length = g.portMeta.length ∧ g'.port? = claim g.port? n m := by
  refine ⟨_, by unfold PG.claimPorts; rw [if_pos hb], rfl, by simp, ?_⟩
  funext p
  refine Eq.trans (port?_fill (g := { g with portMeta := fill g.portMeta m.first m.incoming (.port n .incoming) })
    (a := m.first + m.incoming) (k := m.outgoing) (n := n) (d := .outgoing) (by simp; omega) p) ?_
  rw [port?_fill (g := g) (by omega) p]
  simp only [claim, NodeMeta.start, NodeMeta.numPorts]
  by_cases e1 : inRange m.first m.incoming p = true
  · have : inRange (m.first + m.incoming) m.outgoing p = false := by
      rw [inRange_eq_false]; rw [inRange_iff] at e1; omega
    simp [this, e1]
  · simp [e1]

/-- Live nodes of the node table. -/
def PG.live (g : PG) (n : Nat) : Bool := (g.node? n).isSome

/-- Number of live nodes below `n`: the index of `n` after compaction. -/
def PG.nodeRank (g : PG) (n : Nat) : Nat := cnt n g.live

/-- `true` on live entries. -/
def NodeEntry.isLive : NodeEntry → Bool
  | .node _ => true
  | .free _ _ => false

theorem PG.live_any {g : PG} (i : Nat) : g.live i = (g.nodeMeta[i]?).any NodeEntry.isLive := by
  unfold PG.live PG.node?
  cases e : g.nodeMeta[i]? with
  | none => simp
  | some x => cases x <;> simp [NodeEntry.isLive]

theorem compactNodesLoop_ok {g0 : PG} {len lk heads own fs} (hP : PInv len g0.node? g0.port? lk heads own fs)
    (es : List NodeEntry) (old : Nat) (hes : es = g0.nodeMeta.drop old) {g : PG} (hlen : g.portMeta.length = len)
    (hport : g.port? = fun p => (g0.port? p).map fun x => (if x.1 < old then g0.nodeRank x.1 else x.1, x.2)) :
    ∃ g', g.compactNodesLoop old (g0.nodeRank old) es =
        some (es.filter NodeEntry.isLive, g',
          ((List.range' old es.length).filter g0.live).map fun n => (n, g0.nodeRank n)) ∧
      g' = { g with portMeta := g'.portMeta } ∧ g'.portMeta.length = len ∧
      g'.port? = fun p => (g0.port? p).map fun x => (g0.nodeRank x.1, x.2) := by
  induction es generalizing old g with
  | nil =>
    refine ⟨g, rfl, rfl, hlen, ?_⟩
    rw [hport]
    funext p
    cases e : g0.port? p with
    | none => rfl
    | some x =>
      obtain ⟨n, d⟩ := x
      obtain ⟨m, hm, -⟩ := (hP.ports _ _ _).1 e
      have := PG.node?_lt (g := g0) (n := n) (by simp [hm])
      have hl : g0.nodeMeta.length ≤ old := by simpa using hes.symm
      simp only [Option.map_some]
      rw [if_pos (by omega)]
  | cons e es ih =>
    have hold : g0.nodeMeta[old]? = some e := by
      have : (g0.nodeMeta.drop old)[0]? = some e := by rw [← hes]; rfl
      simpa using this
    have hes' : es = g0.nodeMeta.drop (old + 1) := by
      have : (g0.nodeMeta.drop old).drop 1 = es := by rw [← hes]; rfl
      rw [← this, List.drop_drop]
    rw [List.length_cons, List.range'_succ]
    cases e with
    | free a b =>
      have hn : g0.node? old = none := by simp [PG.node?, hold]
      have hlv : g0.live old = false := by simp [PG.live, hn]
      have hrk : g0.nodeRank (old + 1) = g0.nodeRank old := by simp [PG.nodeRank, cnt_succ, hlv]
      obtain ⟨g', h1, h2⟩ := ih (old + 1) hes' hlen (by
        rw [hport]; funext p
        cases e : g0.port? p with
        | none => rfl
        | some x =>
          obtain ⟨n, d⟩ := x
          obtain ⟨m, hm, -⟩ := (hP.ports _ _ _).1 e
          have : n ≠ old := by rintro rfl; rw [hn] at hm; simp at hm
          have : n < old ↔ n < old + 1 := by omega
          simp [this])
      refine ⟨g', ?_, h2⟩
      rw [PG.compactNodesLoop, ← hrk, h1]
      simp [NodeEntry.isLive, hlv]
    | node m =>
      have hn : g0.node? old = some m := by simp [PG.node?, hold]
      have hlv : g0.live old = true := by simp [PG.live, hn]
      have hrk : g0.nodeRank (old + 1) = g0.nodeRank old + 1 := by simp [PG.nodeRank, cnt_succ, hlv]
      have hb := hP.bound old m hn
      obtain ⟨g1, hc, he, hl, hp⟩ := claimPorts_ok (g := g) (n := g0.nodeRank old) (m := m) (by omega)
      obtain ⟨g', h1, h2, h3, h4⟩ := ih (old + 1) hes' (g := g1) (by omega) (by
        rw [hp]; funext p
        by_cases hin : ∃ d, m.has d p = true
        · obtain ⟨d, hd⟩ := hin
          rw [claim_has hd, (hP.ports_has hn).2 hd]; simp
        · have hno : ∀ d, m.has d p = false := by
            intro d
            cases e' : m.has d p with
            | false => rfl
            | true => exact absurd ⟨d, e'⟩ hin
          rw [claim_not hno, hport]
          simp only
          cases e : g0.port? p with
          | none => rfl
          | some x =>
            obtain ⟨n, d⟩ := x
            have : n ≠ old := by
              rintro rfl
              exact hin ⟨d, (hP.ports_has hn).1 e⟩
            have : n < old ↔ n < old + 1 := by omega
            simp [this])
      refine ⟨g', ?_, by rw [h2, he], h3, h4⟩
      rw [PG.compactNodesLoop, hc]
      simp only
      rw [← hrk, h1]
      rw [List.filter_cons, List.filter_cons, hlv]
      rfl

theorem linkedDir_map {pt pt' : Nat → Option (Nat × Direction)} {lk : Nat → Option Nat} {ρ : Nat → Nat} {d}
    (h : pt' = fun p => (pt p).map fun x => (ρ x.1, x.2)) : linkedDir pt' lk d = linkedDir pt lk d := by
  funext p
  apply linkedDir_congr _ (fun _ => rfl)
  rw [h]; simp only; cases pt p <;> rfl

/-- Effect of `compact_nodes`. -/
theorem compactNodes_ok {g : PG} (h : Inv g) :
    ∃ g', g.compactNodes = some (g', ((List.range g.nodeMeta.length).filter g.live).map fun n => (n, g.nodeRank n)) ∧
      Inv g' ∧ (∀ n' m, g'.node? n' = some m ↔ ∃ n, g.nodeRank n = n' ∧ g.node? n = some m) ∧
      g'.port? = (fun p => (g.port? p).map fun x => (g.nodeRank x.1, x.2)) ∧ g'.lk = g.lk ∧
      g'.nodeCount = g.nodeCount ∧ g'.portCount = g.portCount ∧ g'.linkCount = g.linkCount ∧
      g'.nodeMeta.length = g.nodeCount ∧ g'.nodeFree = none := by
  obtain ⟨own, fs, hP, hfull⟩ := h.slots
  obtain ⟨fn, hN⟩ := h.nodes
  obtain ⟨g1, h1, h2, h3, h4⟩ := compactNodesLoop_ok (g0 := g) hP g.nodeMeta 0 rfl (g := g) rfl (by
    funext p; simp)
  obtain ⟨hlen, hget⟩ := cnt_filter g.nodeMeta NodeEntry.isLive (Q := g.live) PG.live_any
  have hlen' : (g.nodeMeta.filter NodeEntry.isLive).length = g.nodeCount := by
    rw [hlen, hN.count']
    apply cnt_congr
    intro i _; rw [PG.live, PG.node?_isSome]
  obtain ⟨g', hg'⟩ : ∃ g' : PG, { g1 with nodeMeta := g.nodeMeta.filter NodeEntry.isLive, nodeFree := none } = g' :=
    ⟨_, rfl⟩
  have hnode : ∀ n' m, g'.node? n' = some m ↔ ∃ n, g.nodeRank n = n' ∧ g.node? n = some m := by
    intro n' m
    constructor
    · intro hm
      have hlt := PG.node?_lt (g := g') (n := n') (by simp [hm])
      rw [← hg'] at hlt
      simp only [hlen] at hlt
      obtain ⟨n, h5, h6, h7⟩ := cnt_surj hlt
      refine ⟨n, h7, ?_⟩
      obtain ⟨m', hm'⟩ := Option.isSome_iff_exists.1 h6
      have := hget n _ (PG.node?_eq.1 hm') rfl
      have h8 := PG.node?_eq.1 hm
      rw [← hg'] at h8
      simp only at h8
      rw [← h7] at h8
      rw [this] at h8
      simp at h8
      rw [hm', h8]
    · rintro ⟨n, rfl, hn⟩
      rw [PG.node?_eq, ← hg']
      exact hget n _ (PG.node?_eq.1 hn) rfl
  have hport : g'.port? = fun p => (g.port? p).map fun x => (g.nodeRank x.1, x.2) := by
    rw [← hg']; exact h4
  have hlk : g'.lk = g.lk := by rw [← hg', h2]; rfl
  have hheads : g'.heads = g.heads := by rw [← hg', h2]; rfl
  have hpm : g'.portMeta.length = g.portMeta.length := by rw [← hg']; exact h3
  have hpl : g'.portLink = g.portLink := by rw [← hg', h2]
  have hnc : g'.nodeCount = g.nodeCount := by rw [← hg', h2]
  have hpc : g'.portCount = g.portCount := by rw [← hg', h2]
  have hlc : g'.linkCount = g.linkCount := by rw [← hg', h2]
  have hnl : g'.nodeMeta.length = g.nodeCount := by rw [← hg', ← hlen']
  have hnf : g'.nodeFree = none := by rw [← hg']
  refine ⟨g', ?_, ?_, hnode, hport, hlk, hnc, hpc, hlc, hnl, hnf⟩
  · unfold PG.compactNodes
    rw [show (0 : Nat) = g.nodeRank 0 from rfl] at h1
    simp only [show g.nodeRank 0 = 0 from rfl] at h1
    rw [h1, ← hg', List.range_eq_range']
  · refine ⟨by rw [hpl, hpm]; exact h.len, ⟨[], ?_⟩, ?_, ?_, ?_, ?_⟩
    · have hall : ∀ (n : Nat) (e : NodeEntry), g'.nodeMeta[n]? = some e → e.isLive = true := by
        intro n e hne
        rw [← hg'] at hne
        exact (List.mem_filter.1 (List.mem_of_getElem? hne)).2
      refine ⟨by rw [hnf]; trivial, ?_, by simp, ?_⟩
      · intro n
        simp only [List.not_mem_nil, false_iff]
        rintro ⟨a, b, hab⟩
        have := hall n _ hab
        simp [NodeEntry.isLive] at this
      · rw [hnc, ← hnl]
        have : ∀ k, k ≤ g'.nodeMeta.length → k = cnt k fun n => isNode g'.nodeMeta[n]? := by
          intro k
          induction k with
          | zero => intro _; rfl
          | succ k ih =>
            intro hk
            have hx : g'.nodeMeta[k]? = some g'.nodeMeta[k] := List.getElem?_eq_getElem (by omega)
            have := hall k _ hx
            rw [cnt_succ, ← ih (by omega), hx]
            cases e : g'.nodeMeta[k] with
            | free a b => rw [e] at this; simp [NodeEntry.isLive] at this
            | node m => simp [isNode]
        exact this _ (Nat.le_refl _)
    · rw [hpm, hlk, hheads]
      exact ⟨_, _, hP.rename g.nodeRank hnode (fun p => by rw [hport]), rename_full _ hfull⟩
    · rw [hpm, hpc, hport, h.portCount]
      apply cnt_congr; intro i _; simp
    · rw [hlc, hpm, h.outCount]
      rw [hlk, linkedDir_map hport]
    · rw [hlc, hpm, h.inCount]
      rw [hlk, linkedDir_map hport]

/-- Transposition of two indices. -/
def swapIdx (a b n : Nat) : Nat := if n = a then b else if n = b then a else n

theorem swapIdx_swapIdx (a b n : Nat) : swapIdx a b (swapIdx a b n) = n := by
  unfold swapIdx; grind

/-- Effect of `swap_nodes` on two live nodes. -/
theorem swapNodes_ok {g : PG} (h : Inv g) {a b ma mb} (ha : g.node? a = some ma) (hb : g.node? b = some mb) :
    ∃ g', g.swapNodes a b = some g' ∧ Inv g' ∧ (∀ n, g'.node? n = g.node? (swapIdx a b n)) ∧
      g'.port? = (fun p => (g.port? p).map fun x => (swapIdx a b x.1, x.2)) ∧ g'.lk = g.lk ∧
      g'.nodeCount = g.nodeCount ∧ g'.portCount = g.portCount ∧ g'.linkCount = g.linkCount ∧
      g'.nodeMeta.length = g.nodeMeta.length ∧ g'.nodeFree = g.nodeFree := by
  obtain ⟨own, fs, hP, hfull⟩ := h.slots
  obtain ⟨fn, hN⟩ := h.nodes
  have ha' := PG.node?_eq.1 ha
  have hb' := PG.node?_eq.1 hb
  have halt := PG.node?_lt (g := g) (n := a) (by simp [ha])
  have hblt := PG.node?_lt (g := g) (n := b) (by simp [hb])
  have hba := hP.bound a ma ha
  have hbb := hP.bound b mb hb
  obtain ⟨g0, hg0⟩ : ∃ g0 : PG, { g with nodeMeta := (g.nodeMeta.set a (.node mb)).set b (.node ma) } = g0 := ⟨_, rfl⟩
  have hpm0 : g0.portMeta = g.portMeta := by rw [← hg0]
  have hp0 : g0.port? = g.port? := by rw [← hg0]; rfl
  obtain ⟨g1, h1, he1, hl1, hp1⟩ := claimPorts_ok (g := g0) (n := a) (m := mb) (by rw [hpm0]; omega)
  obtain ⟨g2, h2, he2, hl2, hp2⟩ := claimPorts_ok (g := g1) (n := b) (m := ma) (by rw [hl1, hpm0]; omega)
  have heq : g.swapNodes a b = some g2 := by
    unfold PG.swapNodes
    rw [ha', hb']
    simp only
    rw [hg0]
    simp only [PG.swapClaim, h1, h2]
  have hnm2 : g2.nodeMeta = (g.nodeMeta.set a (.node mb)).set b (.node ma) := by rw [he2, he1, ← hg0]
  have hnode : ∀ n, g2.node? n = g.node? (swapIdx a b n) := by
    intro n
    have hset : ∀ (g : PG) {n m}, n < g.nodeMeta.length →
        PG.node? { g with nodeMeta := g.nodeMeta.set n (.node m) } = upd g.node? n (some m) :=
      fun g _ _ h => node?_set h
    have e0 : g2.node? = upd (upd g.node? a (some mb)) b (some ma) := by
      rw [← hset g halt]
      refine Eq.trans ?_ (hset { g with nodeMeta := g.nodeMeta.set a (.node mb) } (n := b) (by simpa using hblt))
      funext j; simp [PG.node?, hnm2]
    rw [e0]
    simp only [upd, swapIdx]
    by_cases e1 : n = b
    · subst e1
      by_cases e2 : n = a
      · subst e2; simp [ha]
      · simp [e2, ha]
    · by_cases e2 : n = a
      · subst e2; simp [e1, hb]
      · simp [e1, e2]
  have hport : g2.port? = fun p => (g.port? p).map fun x => (swapIdx a b x.1, x.2) := by
    rw [hp2, hp1, hp0]
    funext p
    have hno : ∀ {m : NodeMeta}, ¬ (∃ d, m.has d p = true) → ∀ d, m.has d p = false := by
      intro m hin d
      cases e' : m.has d p with
      | false => rfl
      | true => exact absurd ⟨d, e'⟩ hin
    by_cases hin : ∃ d, ma.has d p = true
    · obtain ⟨d, hd⟩ := hin
      rw [claim_has hd, (hP.ports_has ha).2 hd]; simp [swapIdx]
    · rw [claim_not (hno hin)]
      by_cases hin' : ∃ d, mb.has d p = true
      · obtain ⟨d, hd⟩ := hin'
        rw [claim_has hd, (hP.ports_has hb).2 hd]
        simp only [Option.map_some, swapIdx, if_true]
        split
        · rename_i e; rw [e]
        · rfl
      · rw [claim_not (hno hin')]
        cases e : g.port? p with
        | none => rfl
        | some x =>
          obtain ⟨n, d⟩ := x
          have h1 : n ≠ a := by rintro rfl; exact hin ⟨d, (hP.ports_has ha).1 e⟩
          have h2 : n ≠ b := by rintro rfl; exact hin' ⟨d, (hP.ports_has hb).1 e⟩
          simp [swapIdx, h1, h2]
  have hlk : g2.lk = g.lk := by rw [he2, he1, ← hg0]; rfl
  have hheads : g2.heads = g.heads := by rw [he2, he1, ← hg0]; rfl
  have hpm : g2.portMeta.length = g.portMeta.length := by rw [hl2, hl1, hpm0]
  have hpl : g2.portLink = g.portLink := by rw [he2, he1, ← hg0]
  have hnc : g2.nodeCount = g.nodeCount := by rw [he2, he1, ← hg0]
  have hpc : g2.portCount = g.portCount := by rw [he2, he1, ← hg0]
  have hlc : g2.linkCount = g.linkCount := by rw [he2, he1, ← hg0]
  have hnf : g2.nodeFree = g.nodeFree := by rw [he2, he1, ← hg0]
  refine ⟨g2, heq, ?_, hnode, hport, hlk, hnc, hpc, hlc, by rw [hnm2]; simp, hnf⟩
  refine ⟨by rw [hpl, hpm]; exact h.len, ⟨fn, ?_⟩, ?_, ?_, ?_, ?_⟩
  · rw [hnm2, hnf, hnc]
    apply (hN.setNode ha' (m' := mb)).setNode (m := if a = b then mb else mb)
    by_cases e : a = b
    · subst e; rw [List.getElem?_set_self halt]; simp
    · rw [List.getElem?_set_ne e, hb']; simp
  · rw [hpm, hlk, hheads]
    refine ⟨_, _, hP.rename (swapIdx a b) ?_ (fun p => by rw [hport]), rename_full _ hfull⟩
    intro n' m
    rw [hnode]
    constructor
    · intro hm; exact ⟨_, swapIdx_swapIdx a b n', hm⟩
    · rintro ⟨n, rfl, hn⟩; rw [swapIdx_swapIdx]; exact hn
  · rw [hpm, hpc, hport, h.portCount]
    apply cnt_congr; intro i _; simp
  · rw [hlc, hpm, h.outCount, hlk, linkedDir_map hport]
  · rw [hlc, hpm, h.inCount, hlk, linkedDir_map hport]

end Verif.PG
