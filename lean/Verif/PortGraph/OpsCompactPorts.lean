import Verif.PortGraph.OpsCompactNodes

/-! Effect of `compact_ports`. -/

namespace Verif.PG

open Verif (Direction)

/-- Number of ports below `p`: the index of `p` after compaction. -/
def rank (pt : Nat → Option (Nat × Direction)) (p : Nat) : Nat := cnt p fun i => (pt i).isSome

theorem rank_le (pt : Nat → Option (Nat × Direction)) (p : Nat) : rank pt p ≤ p := cnt_le _ _

theorem rank_lt {pt : Nat → Option (Nat × Direction)} {p q : Nat} (h : p < q) (hp : (pt p).isSome) :
    rank pt p < rank pt q := cnt_lt h hp

theorem rank_inj {pt : Nat → Option (Nat × Direction)} {p q : Nat} (hp : (pt p).isSome) (hq : (pt q).isSome)
    (h : rank pt p = rank pt q) : p = q := cnt_inj (P := fun i => (pt i).isSome) hp hq h

/-- Node entry after compaction. -/
def packed (pt : Nat → Option (Nat × Direction)) (m : NodeMeta) : NodeMeta :=
  if m.incoming + m.outgoing = 0 then m
  else ⟨rank pt m.first, m.incoming, m.outgoing, m.incoming + m.outgoing⟩

section
variable {len : Nat} {nd : Nat → Option NodeMeta} {pt : Nat → Option (Nat × Direction)}
  {lk heads : Nat → Option Nat} {own : Nat → Owner} {fs : Nat → List Nat}

theorem PInv.rank_block (h : PInv len nd pt lk heads own fs) {n m} (hm : nd n = some m) {j : Nat}
    (hj : j ≤ m.incoming + m.outgoing) : rank pt (m.first + j) = rank pt m.first + j := by
  apply cnt_block (k := m.incoming + m.outgoing) _ hj
  intro i h1 h2
  obtain ⟨d, hd⟩ := h.pt_used hm h1 (by omega)
  rw [hd]; rfl

/-- Relabelling the ports consecutively. -/
theorem PInv.pack (h : PInv len nd pt lk heads own fs) {nd' : Nat → Option NodeMeta}
    {pt' : Nat → Option (Nat × Direction)} {lk' : Nat → Option Nat} {len' : Nat}
    (hlen : len' = rank pt len) (hempty : ∀ n m, nd n = some m → m.incoming + m.outgoing = 0 → m.capacity = 0)
    (hnd : ∀ n, nd' n = (nd n).map (packed pt))
    (hpt : ∀ p, (pt p).isSome → pt' (rank pt p) = pt p) (hpt' : ∀ q, len' ≤ q → pt' q = none)
    (hlk : ∀ p, (pt p).isSome → lk' (rank pt p) = (lk p).map (rank pt)) (hlk' : ∀ q, len' ≤ q → lk' q = none) :
    PInv len' nd' pt' lk' (fun _ => none)
      (fun q => match pt' q with | some (n, _) => .node n | none => .none) (fun _ => []) := by
  have hlt : ∀ p, (pt p).isSome → p < len := by
    intro p hp
    obtain ⟨⟨n, d⟩, hx⟩ := Option.isSome_iff_exists.1 hp
    exact h.pt_lt hx
  have hinv : ∀ q, (pt' q).isSome → ∃ p, (pt p).isSome ∧ rank pt p = q := by
    intro q hq
    have : q < len' := by
      rcases Nat.lt_or_ge q len' with h1 | h1
      · exact h1
      · rw [hpt' q h1] at hq; simp at hq
    rw [hlen] at this
    obtain ⟨p, h1, h2, h3⟩ := cnt_surj this
    exact ⟨p, h2, h3⟩
  -- entries with ports
  have hsome : ∀ n m', nd' n = some m' → ∃ m, nd n = some m ∧
      ((m.incoming + m.outgoing = 0 ∧ m' = m ∧ m.capacity = 0 ∧ m.first = 0) ∨
       (0 < m.incoming + m.outgoing ∧ m' = ⟨rank pt m.first, m.incoming, m.outgoing, m.incoming + m.outgoing⟩)) := by
    intro n m' hm'
    rw [hnd] at hm'
    cases e : nd n with
    | none => rw [e] at hm'; simp at hm'
    | some m =>
      rw [e] at hm'; simp only [Option.map_some, Option.some.injEq] at hm'
      refine ⟨m, rfl, ?_⟩
      unfold packed at hm'
      split at hm'
      · rename_i h0
        have hc := hempty n m e h0
        exact Or.inl ⟨h0, hm'.symm, hc, (h.bound n m e).2.2.1 hc⟩
      · exact Or.inr ⟨by omega, hm'.symm⟩
  have hused : ∀ n m, nd n = some m → 0 < m.incoming + m.outgoing →
      rank pt m.first + (m.incoming + m.outgoing) ≤ len' := by
    intro n m hm h0
    rw [← h.rank_block hm (Nat.le_refl _), hlen]
    have := h.bound n m hm
    exact cnt_mono _ (by omega)
  have hport : ∀ n m, nd n = some m → ∀ d j, j < m.numPorts d →
      pt' (rank pt m.first + (m.start d - m.first) + j) = some (n, d) := by
    intro n m hm d j hj
    have hst : m.first ≤ m.start d ∧ m.start d + m.numPorts d ≤ m.first + (m.incoming + m.outgoing) := by
      cases d <;> simp [NodeMeta.start, NodeMeta.numPorts] <;> omega
    have hp : pt (m.start d + j) = some (n, d) := (h.ports _ _ _).2 ⟨m, hm, by omega, by omega⟩
    rw [Nat.add_assoc, ← h.rank_block hm (by omega), show m.first + (m.start d - m.first + j) = m.start d + j by omega,
      hpt _ (by simp [hp]), hp]
  constructor
  · intro n m' hm'
    obtain ⟨m, hm, h1 | h1⟩ := hsome n m' hm'
    · obtain ⟨h0, rfl, h2, h3⟩ := h1
      have := h.bound n m' hm
      omega
    · obtain ⟨h0, rfl⟩ := h1
      have := h.bound n m hm
      have h4 := hused n m hm h0
      refine ⟨?_, ?_, ?_, ?_, ?_⟩ <;> simp only <;> omega
  · intro n m' hm' q h1 h2
    obtain ⟨m, hm, h3 | h3⟩ := hsome n m' hm'
    · obtain ⟨h0, rfl, h4, h5⟩ := h3; omega
    · obtain ⟨h0, rfl⟩ := h3
      simp only at h1 h2
      have hp : (pt (m.first + (q - rank pt m.first))).isSome := by
        obtain ⟨d, hd⟩ := h.pt_used hm (p := m.first + (q - rank pt m.first)) (by omega) (by omega)
        rw [hd]; rfl
      have e1 := h.rank_block hm (j := q - rank pt m.first) (by omega)
      rw [show rank pt m.first + (q - rank pt m.first) = q by omega] at e1
      have e2 := hpt _ hp
      rw [e1] at e2
      obtain ⟨d, hd⟩ := h.pt_used hm (p := m.first + (q - rank pt m.first)) (by omega) (by omega)
      simp only [e2, hd]
  · intro q n d
    constructor
    · intro hq
      obtain ⟨p, hp, rfl⟩ := hinv q (by simp [hq])
      rw [hpt p hp] at hq
      obtain ⟨m, hm, h1, h2⟩ := (h.ports _ _ _).1 hq
      have hst : m.first ≤ m.start d ∧ m.start d + m.numPorts d ≤ m.first + (m.incoming + m.outgoing) := by
        cases d <;> simp [NodeMeta.start, NodeMeta.numPorts] <;> omega
      have h0 : ¬ (m.incoming + m.outgoing = 0) := by omega
      refine ⟨packed pt m, by rw [hnd, hm]; rfl, ?_⟩
      have e1 := h.rank_block hm (j := p - m.first) (by omega)
      rw [show m.first + (p - m.first) = p by omega] at e1
      unfold packed
      rw [if_neg h0]
      cases d <;> simp only [NodeMeta.start, NodeMeta.numPorts] at * <;> omega
    · rintro ⟨m', hm', h1, h2⟩
      obtain ⟨m, hm, h3 | h3⟩ := hsome n m' hm'
      · obtain ⟨h0, rfl, h4, h5⟩ := h3
        cases d <;> simp only [NodeMeta.start, NodeMeta.numPorts] at h1 h2 <;> omega
      · obtain ⟨h0, rfl⟩ := h3
        have hj : q - (rank pt m.first + (m.start d - m.first)) < m.numPorts d ∧
            rank pt m.first + (m.start d - m.first) ≤ q := by
          cases d <;> simp only [NodeMeta.start, NodeMeta.numPorts] at h1 h2 ⊢ <;> omega
        have := hport n m hm d _ hj.1
        rw [show rank pt m.first + (m.start d - m.first) + (q - (rank pt m.first + (m.start d - m.first))) = q by
          omega] at this
        exact this
  · intro q n d r hq hr
    obtain ⟨p, hp, rfl⟩ := hinv q (by simp [hq])
    rw [hpt p hp] at hq
    rw [hlk p hp] at hr
    cases e : lk p with
    | none => rw [e] at hr; simp at hr
    | some p' =>
      rw [e] at hr; simp only [Option.map_some, Option.some.injEq] at hr
      obtain ⟨h1, n', h2⟩ := h.links p n d p' hq e
      subst hr
      refine ⟨by rw [hlk p' (by simp [h2]), h1]; rfl, n', by rw [hpt p' (by simp [h2]), h2]⟩
  · intro n m' hm' q h1 h2
    obtain ⟨m, hm, h3 | h3⟩ := hsome n m' hm'
    · obtain ⟨h0, rfl, h4, h5⟩ := h3; omega
    · obtain ⟨h0, rfl⟩ := h3; simp only at h1 h2; omega
  · intro s f hf; simp at hf
  · intro s f hf; simp at hf
  · intro s _; trivial
  · intro s; simp
  · intro q n hq
    cases e : pt' q with
    | none => simp [e] at hq
    | some x =>
      obtain ⟨n', d⟩ := x
      simp [e] at hq
      subst hq
      obtain ⟨p, hp, rfl⟩ := hinv q (by simp [e])
      rw [hpt p hp] at e
      obtain ⟨m, hm, h1, h2⟩ := (h.ports _ _ _).1 e
      have hst : m.first ≤ m.start d ∧ m.start d + m.numPorts d ≤ m.first + (m.incoming + m.outgoing) := by
        cases d <;> simp [NodeMeta.start, NodeMeta.numPorts] <;> omega
      have h0 : ¬ (m.incoming + m.outgoing = 0) := by omega
      refine ⟨packed pt m, by rw [hnd, hm]; rfl, ?_⟩
      have e1 := h.rank_block hm (j := p - m.first) (by omega)
      rw [show m.first + (p - m.first) = p by omega] at e1
      unfold packed
      rw [if_neg h0]
      simp only
      omega
  · intro q f s hq
    cases e : pt' q with
    | none => simp [e] at hq
    | some x => simp [e] at hq
  · intro q hq
    rcases Nat.lt_or_ge q len' with hl | hl
    · rw [hlen] at hl
      obtain ⟨p, h1, h2, h3⟩ := cnt_surj hl
      have e := hpt p h2
      rw [show rank pt p = q from h3] at e
      obtain ⟨x, hx⟩ := Option.isSome_iff_exists.1 h2
      rw [hx] at e
      simp [e] at hq
    · exact hlk' q hl

theorem cnt_rank {len : Nat} {P Q : Nat → Bool} (hlt : ∀ p, (pt p).isSome → p < len)
    (hP : ∀ p, P p = true → (pt p).isSome) (hQ : ∀ p, (pt p).isSome → Q (rank pt p) = P p) :
    cnt (rank pt len) Q = cnt len P := by
  have h : ∀ k, cnt (rank pt k) Q = cnt k P := by
    intro k
    induction k with
    | zero => rfl
    | succ k ih =>
      have e : rank pt (k + 1) = rank pt k + if (pt k).isSome then 1 else 0 := cnt_succ _ _
      rw [e, cnt_succ]
      cases hp : (pt k).isSome with
      | true =>
        simp only [if_true]
        rw [cnt_succ, ih, hQ k hp]
      | false =>
        have : P k = false := by
          cases e : P k with
          | false => rfl
          | true => rw [hP k e] at hp; simp at hp
        rw [this]
        simpa using ih
  exact h len

end

/-! ## The link loop -/

/-- Current place of a port when the entries below `old` have been compacted. -/
def curPlace (pt : Nat → Option (Nat × Direction)) (old p : Nat) : Nat := if p < old then rank pt p else p

theorem curPlace_inj {pt : Nat → Option (Nat × Direction)} {old p q} (hp : (pt p).isSome) (hq : (pt q).isSome)
    (h : curPlace pt old p = curPlace pt old q) : p = q := by
  unfold curPlace at h
  have h1 := rank_le pt p
  have h2 := rank_le pt q
  split at h <;> split at h
  · exact rank_inj hp hq h
  · omega
  · omega
  · exact h

/-- Invariant of the link loop. -/
def LinksAt (pt : Nat → Option (Nat × Direction)) (lk : Nat → Option Nat) (old : Nat) (pl : List (Option Nat)) :
    Prop :=
  ∀ p, (pt p).isSome → pl[curPlace pt old p]? = some ((lk p).map (curPlace pt old))

theorem compactLinksLoop_ok {pm : List PortEntry} {pt : Nat → Option (Nat × Direction)} {lk : Nat → Option Nat}
    (hpm : ∀ i, i < pm.length → (pm[i]? = some .free ∧ pt i = none) ∨
      ∃ n d, pm[i]? = some (.port n d) ∧ pt i = some (n, d))
    (hsym : SymLinks pt lk) (hlt : ∀ p, (pt p).isSome → p < pm.length)
    (k old : Nat) (hk : old + k = pm.length) {pl : List (Option Nat)} (hl : pl.length = pm.length)
    (hI : LinksAt pt lk old pl) :
    ∃ pl', PG.compactLinksLoop pm pl old (rank pt old) k = some (pl', rank pt pm.length) ∧
      pl'.length = pm.length ∧ LinksAt pt lk pm.length pl' := by
  induction k generalizing old pl with
  | zero =>
    have : old = pm.length := by omega
    subst this
    exact ⟨pl, rfl, hl, hI⟩
  | succ k ih =>
    have hrs : rank pt (old + 1) = rank pt old + if (pt old).isSome then 1 else 0 := cnt_succ _ _
    have hrle := rank_le pt old
    rcases hpm old (by omega) with ⟨h1, h2⟩ | ⟨n, d, h1, h2⟩
    · have hrs' : rank pt (old + 1) = rank pt old := by rw [hrs, h2]; rfl
      have hcur : ∀ p, (pt p).isSome → curPlace pt (old + 1) p = curPlace pt old p := by
        intro p hp
        have : p ≠ old := by rintro rfl; rw [h2] at hp; simp at hp
        unfold curPlace
        have : p < old + 1 ↔ p < old := by omega
        simp [this]
      obtain ⟨pl', h3, h4⟩ := ih (old + 1) (by omega) hl (by
        intro p hp
        rw [hcur p hp, hI p hp]
        cases e : lk p with
        | none => rfl
        | some q => simp [hcur q (hsym.sym hp e).1])
      refine ⟨pl', ?_, h4⟩
      rw [PG.compactLinksLoop, h1]
      simp only
      rw [← hrs', h3]
    · have hpo : (pt old).isSome := by rw [h2]; rfl
      have hrs' : rank pt (old + 1) = rank pt old + 1 := by rw [hrs, h2]; rfl
      rw [PG.compactLinksLoop, h1]
      simp only
      by_cases e : rank pt old = old
      · rw [if_pos e]
        have hcur : ∀ p, curPlace pt (old + 1) p = curPlace pt old p := by
          intro p
          unfold curPlace
          by_cases e' : p = old
          · subst e'; simp [e]
          · have : p < old + 1 ↔ p < old := by omega
            simp [this]
        obtain ⟨pl', h3, h4⟩ := ih (old + 1) (by omega) hl (by
          intro p hp
          rw [hcur p, hI p hp, funext hcur])
        exact ⟨pl', by rw [← hrs', h3], h4⟩
      · rw [if_neg e]
        have hcold : curPlace pt old old = old := by simp [curPlace]
        have hl0 := hI old hpo
        rw [hcold] at hl0
        rw [hl0]
        simp only
        have hcur : ∀ p, p ≠ old → curPlace pt (old + 1) p = curPlace pt old p := by
          intro p hp
          unfold curPlace
          have : p < old + 1 ↔ p < old := by omega
          simp [this]
        have hcur0 : curPlace pt (old + 1) old = rank pt old := by simp [curPlace]
        have hne : ∀ p, (pt p).isSome → p ≠ old → curPlace pt old p ≠ old ∧ curPlace pt old p ≠ rank pt old := by
          intro p hp hpne
          constructor
          · intro hc; exact hpne (curPlace_inj hp hpo (by rw [hc, hcold]))
          · unfold curPlace
            split
            · have := rank_lt (q := old) (by assumption) hp; omega
            · omega
        have hbnd : ∀ p, (pt p).isSome → curPlace pt old p < pl.length := by
          intro p hp
          have := hlt p hp
          unfold curPlace
          have := rank_le pt p
          split <;> omega
        have holdlt : old < pl.length := by omega
        have hnewlt : rank pt old < pl.length := by omega
        cases hlo : lk old with
        | none =>
          simp only [Option.map_none]
          rw [List.getElem?_eq_getElem hnewlt, List.getElem?_eq_getElem holdlt]
          simp only
          obtain ⟨pl', h3, h4⟩ := ih (old + 1) (by omega)
            (pl := (pl.set (rank pt old) pl[old]).set old pl[rank pt old]) (by simp [hl]) (by
            intro p hp
            by_cases ep : p = old
            · subst ep
              rw [hcur0, List.getElem?_set_ne (by omega), List.getElem?_set_self hnewlt, ← List.getElem?_eq_getElem holdlt,
                hl0, hlo]; rfl
            · obtain ⟨q1, q2⟩ := hne p hp ep
              rw [hcur p ep, List.getElem?_set_ne (Ne.symm q1), List.getElem?_set_ne (Ne.symm q2), hI p hp]
              cases e' : lk p with
              | none => rfl
              | some q =>
                have : q ≠ old := by
                  rintro rfl
                  rw [(hsym.sym hp e').2] at hlo; simp at hlo
                simp [hcur q this])
          exact ⟨pl', by rw [← hrs', h3], h4⟩
        | some q =>
          obtain ⟨hq1, hq2⟩ := hsym.sym hpo hlo
          have hqne : q ≠ old := by
            rintro rfl; exact hsym.self hpo hlo
          obtain ⟨q3, q4⟩ := hne q hq1 hqne
          simp only [Option.map_some, vset, if_pos (hbnd q hq1)]
          rw [List.getElem?_set_ne q4, List.getElem?_set_ne q3, List.getElem?_eq_getElem hnewlt, hl0]
          simp only
          obtain ⟨pl', h3, h4⟩ := ih (old + 1) (by omega)
            (pl := ((pl.set (curPlace pt old q) (some (rank pt old))).set (rank pt old)
              ((lk old).map (curPlace pt old))).set old pl[rank pt old]) (by simp [hl]) (by
            intro p hp
            by_cases ep : p = old
            · subst ep
              rw [hcur0, List.getElem?_set_ne (by omega), List.getElem?_set_self (by simpa using hnewlt), hlo]
              simp [hcur q hqne]
            · obtain ⟨q1, q2⟩ := hne p hp ep
              rw [hcur p ep, List.getElem?_set_ne (Ne.symm q1), List.getElem?_set_ne (Ne.symm q2)]
              by_cases epq : p = q
              · subst epq
                rw [List.getElem?_set_self (hbnd p hp), hq2]
                simp [hcur0]
              · rw [List.getElem?_set_ne (fun hc => epq (curPlace_inj hp hq1 hc.symm)), hI p hp]
                cases e' : lk p with
                | none => rfl
                | some r =>
                  have : r ≠ old := by
                    rintro rfl
                    have := (hsym.sym hp e').2
                    rw [hlo] at this; simp at this; exact epq this.symm
                  simp [hcur r this])
          refine ⟨pl', ?_, h4⟩
          rw [← hrs']
          exact h3

/-! ## The metadata loop -/

/-- `true` on port entries. -/
def PortEntry.isPort : PortEntry → Bool
  | .port _ _ => true
  | .free => false

/-- Node entry when the port entries below `old` have been compacted. -/
def packedAt (pt : Nat → Option (Nat × Direction)) (old : Nat) : NodeEntry → NodeEntry
  | .free a b => .free a b
  | .node m => if m.first < old then .node (packed pt m) else .node m

theorem compactPortsLoop_ok {g0 : PG} {len lk heads own fs} (hP : PInv len g0.node? g0.port? lk heads own fs)
    (es : List PortEntry) (old : Nat) (hes : es = g0.portMeta.drop old)
    {nm : List NodeEntry} (hnm : ∀ i : Nat, nm[i]? = (g0.nodeMeta[i]?).map (packedAt g0.port? old)) :
    ∃ nm', PG.compactPortsLoop nm old (rank g0.port? old) es =
        some (es.filter PortEntry.isPort, nm',
          ((List.range' old es.length).filter fun p => (g0.port? p).isSome).map fun p => (p, rank g0.port? p)) ∧
      nm'.length = nm.length ∧
      ∀ i : Nat, nm'[i]? = (g0.nodeMeta[i]?).map (packedAt g0.port? (old + es.length)) := by
  induction es generalizing old nm with
  | nil => exact ⟨nm, rfl, rfl, hnm⟩
  | cons e es ih =>
    have hold : g0.portMeta[old]? = some e := by
      have : (g0.portMeta.drop old)[0]? = some e := by rw [← hes]; rfl
      simpa using this
    have hes' : es = g0.portMeta.drop (old + 1) := by
      have : (g0.portMeta.drop old).drop 1 = es := by rw [← hes]; rfl
      rw [← this, List.drop_drop]
    rw [List.length_cons, List.range'_succ]
    have hrs : rank g0.port? (old + 1) = rank g0.port? old + if (g0.port? old).isSome then 1 else 0 := cnt_succ _ _
    -- an entry whose first slot is not a port has no ports
    cases e with
    | free =>
      have hp0 : g0.port? old = none := by simp [PG.port?, hold]
      have hrs' : rank g0.port? (old + 1) = rank g0.port? old := by rw [hrs, hp0]; rfl
      obtain ⟨nm', h1, h2, h3⟩ := ih (old + 1) hes' (nm := nm) (by
        intro i
        rw [hnm]
        cases e : g0.nodeMeta[i]? with
        | none => rfl
        | some x =>
          cases x with
          | free a b => rfl
          | node m =>
            simp only [Option.map_some, packedAt]
            by_cases e' : m.first = old
            · have hm : g0.node? i = some m := by simp [PG.node?, e]
              have : m.incoming + m.outgoing = 0 := by
                apply Classical.byContradiction
                intro hc
                obtain ⟨d, hd⟩ := hP.pt_used hm (p := m.first) (by omega) (by omega)
                rw [e', hp0] at hd; simp at hd
              simp [packed, this]
            · have : m.first < old + 1 ↔ m.first < old := by omega
              simp [this])
      refine ⟨nm', ?_, h2, by rw [show old + (es.length + 1) = old + 1 + es.length by omega]; exact h3⟩
      rw [PG.compactPortsLoop, ← hrs', h1]
      rw [List.filter_cons, List.filter_cons, hp0]
      rfl
    | port n d =>
      have hp0 : g0.port? old = some (n, d) := by simp [PG.port?, hold]
      have hrs' : rank g0.port? (old + 1) = rank g0.port? old + 1 := by rw [hrs, hp0]; rfl
      obtain ⟨m, hm, h1, h2⟩ := (hP.ports _ _ _).1 hp0
      have hb := hP.bound n m hm
      have hm' := PG.node?_eq.1 hm
      have hfirst : m.first ≤ old ∧ 0 < m.incoming + m.outgoing := by
        cases d <;> simp only [NodeMeta.start, NodeMeta.numPorts] at h1 h2 <;> omega
      have hnlt : n < nm.length := by
        rcases Nat.lt_or_ge n nm.length with h | h
        · exact h
        · have := hnm n; rw [List.getElem?_eq_none h, hm'] at this; simp at this
      have hnmn := hnm n
      rw [hm'] at hnmn
      rw [PG.compactPortsLoop, hnmn]
      -- only nodes starting at `old` change
      have hothers : ∀ i, i ≠ n → (g0.nodeMeta[i]?).map (packedAt g0.port? (old + 1)) =
          (g0.nodeMeta[i]?).map (packedAt g0.port? old) := by
        intro i hi
        cases e : g0.nodeMeta[i]? with
        | none => rfl
        | some x =>
          cases x with
          | free a b => rfl
          | node m2 =>
            simp only [Option.map_some, packedAt]
            by_cases e' : m2.first = old
            · have hm2 : g0.node? i = some m2 := by simp [PG.node?, e]
              have : m2.incoming + m2.outgoing = 0 := by
                apply Classical.byContradiction
                intro hc
                obtain ⟨d', hd⟩ := hP.pt_used hm2 (p := m2.first) (by omega) (by omega)
                rw [e', hp0] at hd; simp at hd
                exact hi hd.1.symm
              simp [packed, this]
            · have : m2.first < old + 1 ↔ m2.first < old := by omega
              simp [this]
      by_cases e : m.first = old
      · simp only [Option.map_some, packedAt]
        rw [if_neg (by omega)]
        simp only
        rw [if_pos e]
        have hnew : NodeMeta.new? (rank g0.port? old) m.incoming m.outgoing (m.portCount % 65536) =
            some (packed g0.port? m) := by
          rw [Nat.mod_eq_of_lt (by simp only [NodeMeta.portCount]; omega)]
          rw [show m.portCount = m.incoming + m.outgoing by simp only [NodeMeta.portCount]; omega]
          rw [NodeMeta.new?_eq (by omega) (by omega) (by omega) (Or.inl (by omega)), packed, if_neg (by omega), e]
        rw [hnew]
        simp only
        obtain ⟨nm', h3, h4, h5⟩ := ih (old + 1) hes' (nm := nm.set n (.node (packed g0.port? m))) (by
          intro i
          by_cases ei : i = n
          · subst ei
            rw [List.getElem?_set_self hnlt, hm']
            simp [packedAt, show m.first < old + 1 by omega]
          · rw [List.getElem?_set_ne (Ne.symm ei), hothers i ei, hnm])
        refine ⟨nm', ?_, by rw [h4]; simp, by rw [show old + (es.length + 1) = old + 1 + es.length by omega]; exact h5⟩
        rw [← hrs', h3]
        rw [List.filter_cons, List.filter_cons, hp0]
        rfl
      · have hlt : m.first < old := by omega
        simp only [Option.map_some, packedAt]
        rw [if_pos hlt]
        simp only
        have hne : (packed g0.port? m).first ≠ old := by
          unfold packed
          rw [if_neg (by omega)]
          have := rank_le g0.port? m.first
          simp only; omega
        rw [if_neg hne]
        simp only
        obtain ⟨nm', h3, h4, h5⟩ := ih (old + 1) hes' (nm := nm) (by
          intro i
          by_cases ei : i = n
          · subst ei
            rw [hnmn, hm']
            simp [packedAt, hlt, show m.first < old + 1 by omega]
          · rw [hothers i ei, hnm])
        refine ⟨nm', ?_, h4, by rw [show old + (es.length + 1) = old + 1 + es.length by omega]; exact h5⟩
        rw [← hrs', h3]
        rw [List.filter_cons, List.filter_cons, hp0]
        rfl

/-- Effect of `compact_ports`; the invariant is kept when nodes without ports own no slots. -/
theorem compactPorts_all {g : PG} (h : Inv g) :
    ∃ g', g.compactPorts = some (g', ((List.range g.portMeta.length).filter fun p => (g.port? p).isSome).map
        fun p => (p, rank g.port? p)) ∧
      ((∀ n m, g.node? n = some m → m.incoming + m.outgoing = 0 → m.capacity = 0) → Inv g') ∧
      (∀ n, g'.node? n = (g.node? n).map (packed g.port?)) ∧
      (∀ p, (g.port? p).isSome → g'.port? (rank g.port? p) = g.port? p) ∧
      (∀ p, (g.port? p).isSome → g'.lk (rank g.port? p) = (g.lk p).map (rank g.port?)) ∧
      g'.portMeta.length = g.portCount ∧
      g'.nodeCount = g.nodeCount ∧ g'.portCount = g.portCount ∧ g'.linkCount = g.linkCount ∧
      g'.nodeMeta.length = g.nodeMeta.length ∧ g'.nodeFree = g.nodeFree ∧
      g'.portLink.length = g.portCount ∧ g'.portFree = [] := by
  obtain ⟨own, fs, hP, hfull⟩ := h.slots
  obtain ⟨fn, hN⟩ := h.nodes
  have hlt : ∀ p, (g.port? p).isSome → p < g.portMeta.length := by
    intro p hp
    obtain ⟨⟨n, d⟩, hx⟩ := Option.isSome_iff_exists.1 hp
    exact hP.pt_lt hx
  have hrlen : rank g.port? g.portMeta.length = g.portCount := h.portCount.symm
  obtain ⟨pl, h1, h2, h3⟩ := compactLinksLoop_ok (pm := g.portMeta) (pt := g.port?) (lk := g.lk)
    (by
      intro i hi
      have hx : g.portMeta[i]? = some g.portMeta[i] := List.getElem?_eq_getElem hi
      cases e : g.portMeta[i] with
      | free => left; rw [hx, e]; simp [PG.port?, hx, e]
      | port n d => right; exact ⟨n, d, by rw [hx, e], by simp [PG.port?, hx, e]⟩)
    hP.links hlt g.portMeta.length 0 (by omega) (pl := g.portLink) h.len (by
      intro p hp
      have hlt' := hlt p hp
      have : ∀ q, curPlace g.port? 0 q = q := by intro q; simp [curPlace]
      rw [this, funext this, PG.getElem?_portLink (by rw [h.len]; exact hlt')]
      simp)
  obtain ⟨nm', h4, h5, h6⟩ := compactPortsLoop_ok hP g.portMeta 0 rfl (nm := g.nodeMeta) (by
    intro i
    cases e : g.nodeMeta[i]? with
    | none => rfl
    | some x => cases x <;> simp [packedAt])
  obtain ⟨hfl, hfg⟩ := cnt_filter g.portMeta PortEntry.isPort (Q := fun p => (g.port? p).isSome) (by
    intro i
    simp only [PG.port?]
    cases e : g.portMeta[i]? with
    | none => rfl
    | some x => cases x <;> simp [PortEntry.isPort])
  have hfl' : (g.portMeta.filter PortEntry.isPort).length = g.portCount := hfl.trans hrlen
  have hcurlen : ∀ p, (g.port? p).isSome → curPlace g.port? g.portMeta.length p = rank g.port? p := by
    intro p hp; simp [curPlace, hlt p hp]
  obtain ⟨g', hg'⟩ : ∃ g' : PG, { g with
      portLink := pl.take (rank g.port? g.portMeta.length)
      portMeta := g.portMeta.filter PortEntry.isPort
      nodeMeta := nm'
      portFree := [] } = g' := ⟨_, rfl⟩
  have hnmlast : ∀ i : Nat, nm'[i]? = (g.nodeMeta[i]?).map (packedAt g.port? g.portMeta.length) := by
    intro i; rw [h6]; simp
  have hnode : ∀ n, g'.node? n = (g.node? n).map (packed g.port?) := by
    intro n
    rw [← hg']
    simp only [PG.node?]
    rw [hnmlast]
    cases e : g.nodeMeta[n]? with
    | none => rfl
    | some x =>
      cases x with
      | free a b => rfl
      | node m =>
        simp only [Option.map_some, packedAt]
        split
        · rename_i heq
          split at heq
          · simp at heq; rw [← heq]
          · rename_i hge
            simp at heq; rw [← heq]
            have hm : g.node? n = some m := by simp [PG.node?, e]
            have := hP.bound n m hm
            have h0 : m.incoming + m.outgoing = 0 := by omega
            simp [packed, h0]
        · rename_i hx
          exfalso
          split at hx <;> exact hx _ rfl
  have hport : ∀ p, (g.port? p).isSome → g'.port? (rank g.port? p) = g.port? p := by
    intro p hp
    obtain ⟨⟨n, d⟩, hx⟩ := Option.isSome_iff_exists.1 hp
    have := hfg p (.port n d) (PG.port?_eq.1 hx) rfl
    rw [hx, PG.port?_eq, ← hg']
    exact this
  have hlk : ∀ p, (g.port? p).isSome → g'.lk (rank g.port? p) = (g.lk p).map (rank g.port?) := by
    intro p hp
    have := h3 p hp
    rw [hcurlen p hp] at this
    rw [← hg']
    simp only [PG.lk]
    rw [List.getElem?_take, if_pos (rank_lt (hlt p hp) hp), this]
    simp only [Option.join_some]
    show _ = (g.lk p).map _
    cases e : g.lk p with
    | none => rfl
    | some q =>
      obtain ⟨⟨n, d⟩, hx⟩ := Option.isSome_iff_exists.1 hp
      obtain ⟨-, n', h7⟩ := hP.links p n d q hx e
      simp [hcurlen q (by simp [h7])]
  have hpml : g'.portMeta.length = g.portCount := by rw [← hg']; exact hfl'
  have hpll : g'.portLink.length = g.portCount := by
    rw [← hg']
    simp only [List.length_take, h2, hrlen]
    have := rank_le g.port? g.portMeta.length
    omega
  have hheads : g'.heads = fun _ => none := by
    funext s; rw [← hg']; simp [PG.heads]
  have hnc : g'.nodeCount = g.nodeCount := by rw [← hg']
  have hpc : g'.portCount = g.portCount := by rw [← hg']
  have hlc : g'.linkCount = g.linkCount := by rw [← hg']
  have hnf : g'.nodeFree = g.nodeFree := by rw [← hg']
  have hnm : g'.nodeMeta = nm' := by rw [← hg']
  have hport' : ∀ q, g'.portMeta.length ≤ q → g'.port? q = none := fun q hq => PG.port?_ge hq
  refine ⟨g', ?_, ?_, hnode, hport, hlk, hpml, hnc, hpc, hlc, by rw [hnm, h5], hnf, hpll, by rw [← hg']⟩
  · unfold PG.compactPorts
    rw [h.len]
    simp only [show rank g.port? 0 = 0 from rfl] at h1 h4
    rw [h1]
    simp only
    rw [h4]
    simp only
    rw [hg', List.range_eq_range']
  · intro hempty
    have hPI := hP.pack (nd' := g'.node?) (pt' := g'.port?) (lk' := g'.lk) (len' := g'.portMeta.length)
      (by rw [hpml, hrlen]) hempty hnode hport hport' hlk (fun q hq => by
        simp [PG.lk, List.getElem?_eq_none (show g'.portLink.length ≤ q by omega)])
    refine ⟨by rw [hpll, hpml], ⟨fn, ?_⟩, ?_, ?_, ?_, ?_⟩
    · rw [hnm, hnf, hnc]
      have hfree : ∀ (i : Nat) a b, nm'[i]? = some (.free a b) ↔ g.nodeMeta[i]? = some (.free a b) := by
        intro i a b
        rw [hnmlast]
        cases e : g.nodeMeta[i]? with
        | none => simp
        | some x =>
          cases x with
          | free a b => simp [packedAt]
          | node m => simp only [Option.map_some, packedAt]; split <;> simp
      refine ⟨?_, ?_, hN.nodup, ?_⟩
      · apply hN.chain.congr
        intro x hx
        obtain ⟨a, b, hab⟩ := (hN.exact x).1 hx
        rw [hab]
        exact (hfree x a b).2 hab
      · intro n
        rw [hN.exact]
        constructor
        · rintro ⟨a, b, hab⟩; exact ⟨a, b, (hfree n a b).2 hab⟩
        · rintro ⟨a, b, hab⟩; exact ⟨a, b, (hfree n a b).1 hab⟩
      · rw [h5, hN.count]
        apply cnt_congr
        intro i _
        rw [hnmlast]
        cases e : g.nodeMeta[i]? with
        | none => rfl
        | some x =>
          cases x with
          | free a b => rfl
          | node m => by_cases hc : m.first < g.portMeta.length <;> simp [packedAt, hc]
    · rw [hheads]
      refine ⟨_, _, hPI, fun q hq => ?_⟩
      rw [hpml, ← hrlen] at hq
      obtain ⟨p, -, h8, h9⟩ := cnt_surj hq
      have e := hport p h8
      rw [show rank g.port? p = q from h9] at e
      obtain ⟨x, hx⟩ := Option.isSome_iff_exists.1 h8
      rw [hx] at e
      simp [e]
    · rw [hpml, hpc, ← hrlen]
      rw [cnt_rank (P := fun p => (g.port? p).isSome) hlt (fun p hp => hp) (by intro p hp; rw [hport p hp])]
      rfl
    · rw [hlc, hpml, ← hrlen, h.outCount]
      symm
      apply cnt_rank hlt
      · intro p hp; unfold linkedDir at hp; split at hp
        · rename_i e; rw [e]; rfl
        · simp at hp
      · intro p hp
        unfold linkedDir
        rw [hport p hp, hlk p hp]
        cases g.port? p <;> simp
    · rw [hlc, hpml, ← hrlen, h.inCount]
      symm
      apply cnt_rank hlt
      · intro p hp; unfold linkedDir at hp; split at hp
        · rename_i e; rw [e]; rfl
        · simp at hp
      · intro p hp
        unfold linkedDir
        rw [hport p hp, hlk p hp]
        cases g.port? p <;> simp

/-- Effect of `compact_ports`, when nodes without ports own no slots. -/
theorem compactPorts_ok {g : PG} (h : Inv g)
    (hempty : ∀ n m, g.node? n = some m → m.incoming + m.outgoing = 0 → m.capacity = 0) :
    ∃ g', g.compactPorts = some (g', ((List.range g.portMeta.length).filter fun p => (g.port? p).isSome).map
        fun p => (p, rank g.port? p)) ∧
      Inv g' ∧ (∀ n, g'.node? n = (g.node? n).map (packed g.port?)) ∧
      (∀ p, (g.port? p).isSome → g'.port? (rank g.port? p) = g.port? p) ∧
      (∀ p, (g.port? p).isSome → g'.lk (rank g.port? p) = (g.lk p).map (rank g.port?)) ∧
      g'.portMeta.length = g.portCount ∧
      g'.nodeCount = g.nodeCount ∧ g'.portCount = g.portCount ∧ g'.linkCount = g.linkCount ∧
      g'.nodeMeta.length = g.nodeMeta.length ∧ g'.nodeFree = g.nodeFree := by
  obtain ⟨g', h1, h2, h3, h4, h5, h6, h7, h8, h9, h10, h11, -⟩ := compactPorts_all h
  exact ⟨g', h1, h2 hempty, h3, h4, h5, h6, h7, h8, h9, h10, h11⟩

end Verif.PG
