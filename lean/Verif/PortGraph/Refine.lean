import Verif.PortGraph.Api

/-! Each operation refines its specification. -/

namespace Verif.PG

open Verif (Direction)

/-- The queries about port `p` answer alike in both graphs. -/
def SamePort (g g' : PG) (p : Nat) : Prop :=
  g'.containsPort p = g.containsPort p ∧ g'.endpoint p = g.endpoint p ∧ g'.portLink? p = g.portLink? p

theorem containsPort_iff {g : PG} {p} : g.containsPort p = true ↔ (g.port? p).isSome := by
  simp [PG.containsPort]

theorem containsNode_iff {g : PG} {n} : g.containsNode n = true ↔ (g.node? n).isSome := by
  simp [PG.containsNode]

theorem at_congr {g g' : PG} {n} (h : g'.node? n = g.node? n) {p d k} : At g' p (n, d, k) ↔ At g p (n, d, k) := by
  unfold At; simp only [h]

theorem endpoint_none {g : PG} {p} (h : g.port? p = none) : g.endpoint p = none := by
  simp [PG.endpoint, PG.portNode, h]

theorem samePort_of {g g' : PG} (hI : Inv g) (hI' : Inv g') {p n d} (hp : g.port? p = some (n, d))
    (hp' : g'.port? p = some (n, d)) (hn : g'.node? n = g.node? n) (hl : g'.lk p = g.lk p) : SamePort g g' p := by
  refine ⟨by simp [PG.containsPort, hp, hp'], ?_, ?_⟩
  · obtain ⟨m, h1, h2, h3⟩ := port_at hI hp
    rw [h3.endpoint hI, ((at_congr hn).2 h3).endpoint hI']
  · rw [portLink?_eq hI (by rw [hp]; rfl), portLink?_eq hI' (by rw [hp']; rfl), hl]

theorem At.node {g : PG} {p e} (h : At g p e) : (g.node? e.1).isSome := by
  obtain ⟨m, h1, _⟩ := h; rw [h1]; rfl

/-! ### add -/

theorem addNode_refines {g : PG} (h : Inv g) {maxOff inc out : Nat} (hi : inc ≤ maxOff) (ho : out ≤ maxOff)
    (hinc : inc ≤ 65534) (htot : inc + out ≤ 65535) :
    ∃ n g', g.addNode maxOff inc out = some (n, g') ∧ Inv g' ∧ g.containsNode n = false ∧
      g'.abs = g.abs.add n inc out ∧ (∀ p, g.containsPort p = true → SamePort g g' p) ∧
      (∀ d k p, g'.portIndex n d k = some p → g.containsPort p = false) ∧
      g'.nodeCount = g.nodeCount + 1 ∧ g'.portCount = g.portCount + (inc + out) ∧
      g'.linkCount = g.linkCount := by
  obtain ⟨n, f, g', h1, h2, h3, h4, h5, h6, h7, h8, h9, h10, -, -, -, -⟩ := addNode_ok h hi ho hinc htot
  have hold : ∀ p x, g.port? p = some x → g'.port? p = some x ∧ g'.node? x.1 = g.node? x.1 ∧ g'.lk p = g.lk p := by
    rintro p ⟨n', d⟩ hp
    have hr : inRange f (inc + out) p = false := by
      rw [inRange_eq_false]
      intro hc
      rw [h7 p hc.1 hc.2] at hp; simp at hp
    obtain ⟨m, hm, -⟩ := port_at h hp
    refine ⟨?_, ?_, ?_⟩
    · rw [h5]
      unfold claim
      rw [if_neg, if_neg, hp] <;>
      · simp only [inRange_eq_false, NodeMeta.start, inRange_iff, NodeMeta.numPorts] at *
        omega
    · rw [h4]; simp only [upd]; rw [if_neg]
      rintro rfl; rw [h3] at hm; simp at hm
    · rw [h6]; simp only; rw [hr]; simp
  have hat : ∀ p n' d k, n' ≠ n → (At g' p (n', d, k) ↔ At g p (n', d, k)) := by
    intro p n' d k hne
    apply at_congr
    rw [h4]; simp [upd, hne]
  refine ⟨n, g', h1, h2, by simp [PG.containsNode, h3], ?_, ?_, ?_, h8, h9, h10⟩
  · apply AGraph.ext'
    · intro n'
      rw [abs_counts, h4]
      simp only [AGraph.add, upd]
      split
      · rfl
      · rw [abs_counts]
    · intro e f'
      simp only [AGraph.add]
      rw [abs_link h2, abs_link h]
      constructor
      · rintro ⟨p, q, ha, hl, hb⟩
        have hnr : inRange f (inc + out) p = false := by
          rw [h6] at hl
          cases e : inRange f (inc + out) p with
          | false => rfl
          | true => simp [e] at hl
        have hla : g.lk p = some q := by rw [h6] at hl; simpa [hnr] using hl
        have hp' := ha.port h2
        obtain ⟨n1, d1, k1⟩ := e
        obtain ⟨n2, d2, k2⟩ := f'
        have hn1 : n1 ≠ n := by
          rintro rfl
          obtain ⟨m, hm, hk, hpe⟩ := ha
          rw [h4] at hm; simp [upd] at hm
          subst hm
          cases d1 <;> simp only [inRange_eq_false, NodeMeta.start, NodeMeta.numPorts] at * <;> omega
        have ha' := (hat _ _ _ _ hn1).1 ha
        obtain ⟨hs, n', hq⟩ := lk_at h (ha'.port h) hla
        have hq' := (hold q _ hq).1
        have := hb.port h2
        rw [hq'] at this
        simp at this
        have hn2 : n2 ≠ n := by
          rintro rfl
          obtain ⟨m, hm, -⟩ := port_at h hq
          rw [this.1, h3] at hm; simp at hm
        exact ⟨p, q, ha', hla, (hat _ _ _ _ hn2).1 hb⟩
      · rintro ⟨p, q, ha, hl, hb⟩
        have hn1 : e.1 ≠ n := by intro hc; have := ha.node; rw [hc, h3] at this; simp at this
        have hn2 : f'.1 ≠ n := by intro hc; have := hb.node; rw [hc, h3] at this; simp at this
        exact ⟨p, q, (hat _ _ _ _ hn1).2 ha, by rw [(hold p _ (ha.port h)).2.2]; exact hl, (hat _ _ _ _ hn2).2 hb⟩
  · intro p hp
    rw [containsPort_iff] at hp
    obtain ⟨x, hx⟩ := Option.isSome_iff_exists.1 hp
    obtain ⟨a, b, c⟩ := hold p x hx
    exact samePort_of h h2 hx a b c
  · intro d k p hp
    obtain ⟨m, hm, hk, hpe⟩ := at_index.1 hp
    simp only at *
    rw [h4] at hm; simp [upd] at hm
    subst hm
    have : g.port? p = none := by
      apply h7 <;> cases d <;> simp only [NodeMeta.start, NodeMeta.numPorts] at * <;> omega
    simp [PG.containsPort, this]

/-! ### remove -/

theorem slab_iff {g : PG} (h : Inv g) {n m} (hn : g.node? n = some m) {p x} (hp : g.port? p = some x) :
    inRange m.first m.capacity p = true ↔ x.1 = n := by
  obtain ⟨own, fs, hP, hfull⟩ := h.slots
  obtain ⟨n', d⟩ := x
  have hb := hP.bound n m hn
  constructor
  · intro hr
    have := inRange_iff.1 hr
    exact (hP.pt_slab hn this.1 this.2 hp).1
  · rintro rfl
    obtain ⟨m', h1, h2, h3⟩ := (hP.ports _ _ _).1 hp
    simp only at hn
    rw [hn] at h1; cases h1
    have hpm := Verif.PG.NodeMeta.portCount.eq_1 m
    rw [inRange_iff]
    cases d <;> simp only [NodeMeta.start, NodeMeta.numPorts] at * <;> omega

theorem removeNode_refines {g : PG} (h : Inv g) {n m} (hn : g.node? n = some m) :
    ∃ g', g.removeNode n = some g' ∧ Inv g' ∧ g'.abs = g.abs.remove n ∧
      (∀ p n' d k, n' ≠ n → (g'.portIndex n' d k = some p ↔ g.portIndex n' d k = some p)) ∧
      (∀ p, g.portNode p = some n → g'.containsPort p = false) ∧
      (∀ p q, g.containsPort p = true → g.portNode p ≠ some n → g.portLink? p = some q →
        g'.portLink? p = some (if q.bind g.portNode = some n then none else q)) ∧
      g'.nodeCount + 1 = g.nodeCount ∧ g'.portCount + (m.incoming + m.outgoing) = g.portCount := by
  obtain ⟨g', h1, h2, h3, h4, h5, h6, h7, -⟩ := removeNode_ok h hn
  have hat : ∀ p n' d k, n' ≠ n → (At g' p (n', d, k) ↔ At g p (n', d, k)) := by
    intro p n' d k hne
    apply at_congr
    rw [h3]; simp [upd, hne]
  have hnn : g'.node? n = none := by rw [h3]; simp [upd]
  refine ⟨g', h1, h2, ?_, ?_, ?_, ?_, h6, h7⟩
  · apply AGraph.ext'
    · intro n'
      rw [abs_counts, h3]
      simp only [AGraph.remove, upd]
      split
      · rfl
      · rw [abs_counts]
    · intro e f
      show _ ↔ (g.abs.cutEnds (fun e => decide (e.1 = n))).link e = some f
      rw [AGraph.cutEnds_link, abs_link h2, abs_link h]
      simp only [decide_eq_false_iff_not]
      constructor
      · rintro ⟨p, q, ha, hl, hb⟩
        have hn1 : e.1 ≠ n := by intro hc; have := ha.node; rw [hc, hnn] at this; simp at this
        have hn2 : f.1 ≠ n := by intro hc; have := hb.node; rw [hc, hnn] at this; simp at this
        have ha' := (hat _ _ _ _ hn1).1 ha
        rw [h5 p (by rw [ha.port h2]; rfl), cut_some (by rw [ha'.port h]; rfl)] at hl
        exact ⟨⟨p, q, ha', hl.1, (hat _ _ _ _ hn2).1 hb⟩, hn1, hn2⟩
      · rintro ⟨⟨p, q, ha, hl, hb⟩, hn1, hn2⟩
        have ha' := (hat _ _ _ _ hn1).2 ha
        refine ⟨p, q, ha', ?_, (hat _ _ _ _ hn2).2 hb⟩
        rw [h5 p (by rw [ha'.port h2]; rfl), cut_some (by rw [ha.port h]; rfl)]
        refine ⟨hl, ?_, ?_⟩
        · rw [← Bool.not_eq_true, slab_iff h hn (ha.port h)]; exact hn1
        · rw [← Bool.not_eq_true, slab_iff h hn (hb.port h)]; exact hn2
  · intro p n' d k hne
    rw [at_index, at_index]; exact hat _ _ _ _ hne
  · intro p hp
    simp only [PG.portNode, Option.map_eq_some_iff] at hp
    obtain ⟨x, hx, hxn⟩ := hp
    simp [PG.containsPort, h4, (slab_iff h hn hx).2 hxn]
  · intro p q hp hpn hq
    rw [containsPort_iff] at hp
    obtain ⟨x, hx⟩ := Option.isSome_iff_exists.1 hp
    have hxn : x.1 ≠ n := by intro hc; apply hpn; simp [PG.portNode, hx, hc]
    have hr : inRange m.first m.capacity p = false := by
      rw [← Bool.not_eq_true, slab_iff h hn hx]; exact hxn
    have hp' : (g'.port? p).isSome := by rw [h4]; simp [hr, hx]
    rw [portLink?_eq h hp] at hq
    simp only [Option.some.injEq] at hq
    rw [portLink?_eq h2 hp', h5 p hp', ← hq]
    congr 1
    cases hl : g.lk p with
    | none => simp [cut, hl]
    | some r =>
      obtain ⟨hs, n2, hr2⟩ := lk_at h (n := x.1) (d := x.2) hx hl
      simp only [Option.bind_some, PG.portNode, hr2, Option.map_some, Option.some.injEq]
      by_cases hn2 : n2 = n
      · rw [if_pos hn2]
        have := (slab_iff h hn hr2).2 hn2
        simp [cut, hl, hx, this]
      · rw [if_neg hn2]
        rw [cut_some hp]
        refine ⟨hl, hr, ?_⟩
        rw [← Bool.not_eq_true, slab_iff h hn hr2]; exact hn2

/-! ### link and unlink -/

theorem linkPorts_refines {g : PG} (h : Inv g) {a b ea eb} (ha : At g a ea)
    (hb : At g b eb) (hd : ea.2.1 ≠ eb.2.1) (la : g.lk a = none) (lb : g.lk b = none) :
    ∃ g', g.linkPorts a b = some (.ok (a, b), g') ∧ Inv g' ∧ g'.abs = g.abs.join ea eb ∧
      (∀ n d k, g'.portIndex n d k = g.portIndex n d k) ∧
      (∀ p, g'.portLink? p = if p = b then some (some a) else if p = a then some (some b) else g.portLink? p) ∧
      g'.nodeCount = g.nodeCount ∧ g'.portCount = g.portCount ∧ g'.linkCount = g.linkCount + 1 := by
  obtain ⟨g', h1, h2, h3, h4, h5, h6, h7, h8⟩ := linkPorts_ok h (ha.port h) (hb.port h) hd la lb
  have hat : ∀ p e, (At g' p e ↔ At g p e) := by
    intro p e; unfold At; rw [h3]
  have hab : a ≠ b := by
    rintro rfl
    have := ha.inj h hb
    rw [this] at hd; exact hd rfl
  refine ⟨g', h1, h2, ?_, ?_, ?_, h6, h7, h8⟩
  · apply AGraph.ext'
    · intro n; simp only [AGraph.join, abs_counts, h3]
    · intro e f
      rw [abs_link h2]
      simp only [hat, AGraph.join, h5, upd]
      constructor
      · rintro ⟨p, q, hp, hl, hq⟩
        by_cases hpb : p = b
        · subst hpb
          rw [if_pos rfl] at hl
          simp at hl; subst hl
          have e1 := hp.inj h hb
          have e2 := hq.inj h ha
          subst e1; subst e2
          rw [if_neg, if_pos rfl]
          intro hc; rw [hc] at hd; exact hd rfl
        · rw [if_neg hpb] at hl
          by_cases hpa : p = a
          · subst hpa
            rw [if_pos rfl] at hl
            simp at hl; subst hl
            rw [if_pos (hp.inj h ha), hq.inj h hb]
          · rw [if_neg hpa] at hl
            rw [if_neg, if_neg, abs_link h]
            · exact ⟨p, q, hp, hl, hq⟩
            · intro hc; subst hc; exact hpb (hp.unique hb)
            · intro hc; subst hc; exact hpa (hp.unique ha)
      · intro hx
        split at hx
        · rename_i he
          simp at hx; subst hx; subst he
          exact ⟨a, b, ha, by rw [if_neg hab, if_pos rfl], hb⟩
        · split at hx
          · rename_i he
            simp at hx; subst hx; subst he
            exact ⟨b, a, hb, by rw [if_pos rfl], ha⟩
          · rename_i n1 n2
            obtain ⟨p, q, hp, hl, hq⟩ := (abs_link h).1 hx
            refine ⟨p, q, hp, ?_, hq⟩
            rw [if_neg, if_neg, hl]
            · rintro rfl; exact n1 (hp.inj h ha)
            · rintro rfl; exact n2 (hp.inj h hb)
  · intro n d k; simp only [PG.portIndex, h3]
  · intro p
    cases hp : g.port? p with
    | none =>
      rw [if_neg, if_neg]
      · simp [PG.portLink?, h4, hp]
      · rintro rfl; rw [ha.port h] at hp; simp at hp
      · rintro rfl; rw [hb.port h] at hp; simp at hp
    | some x =>
      rw [portLink?_eq h2 (by rw [h4, hp]; rfl), portLink?_eq h (by rw [hp]; rfl), h5]
      simp only [upd]
      split
      · rfl
      · split <;> rfl

theorem unlinkPort_refines {g : PG} (h : Inv g) {p e} (hp : At g p e) :
    ∃ g', g.unlinkPort p = some (g.lk p, g') ∧ Inv g' ∧ g'.abs = g.abs.unlink e ∧
      (∀ n d k, g'.portIndex n d k = g.portIndex n d k) ∧
      (∀ p', g'.portLink? p' = if p' = p ∨ g.portLink? p' = some (some p) then
        (g.portLink? p').map (fun _ => none) else g.portLink? p') ∧
      g'.nodeCount = g.nodeCount ∧ g'.portCount = g.portCount ∧
      g'.linkCount + (if (g.lk p).isSome then 1 else 0) = g.linkCount := by
  have hps : (g.port? p).isSome := by rw [hp.port h]; rfl
  obtain ⟨g', h1, h2, h3, h4, h5, -, -, h6, h7, h8⟩ := unlinkPort_ok h hps
  have hnode : g'.node? = g.node? := by funext n; simp [PG.node?, h3]
  have hport : g'.port? = g.port? := by funext n; simp [PG.port?, h4]
  have hat : ∀ p e, (At g' p e ↔ At g p e) := by
    intro p e; unfold At; rw [hnode]
  refine ⟨g', h1, h2, ?_, ?_, ?_, h6, h7, h8⟩
  · apply AGraph.ext'
    · intro n; rw [abs_counts, hnode, ← abs_counts]; rfl
    · intro x f
      show _ ↔ (g.abs.cutEnds (fun x => decide (x = e))).link x = some f
      rw [AGraph.cutEnds_link, abs_link h2, abs_link h]
      simp only [hat, decide_eq_false_iff_not]
      constructor
      · rintro ⟨r, q, ha, hl, hb⟩
        rw [h5, cut_some (by rw [ha.port h]; rfl)] at hl
        simp only [decide_eq_false_iff_not] at hl
        refine ⟨⟨r, q, ha, hl.1, hb⟩, ?_, ?_⟩
        · rintro rfl; exact hl.2.1 (ha.unique hp)
        · rintro rfl; exact hl.2.2 (hb.unique hp)
      · rintro ⟨⟨r, q, ha, hl, hb⟩, hx, hf⟩
        refine ⟨r, q, ha, ?_, hb⟩
        rw [h5, cut_some (by rw [ha.port h]; rfl)]
        simp only [decide_eq_false_iff_not]
        refine ⟨hl, ?_, ?_⟩
        · rintro rfl; exact hx (ha.inj h hp)
        · rintro rfl; exact hf (hb.inj h hp)
  · intro n d k; simp only [PG.portIndex, hnode]
  · intro p'
    cases hp' : g.port? p' with
    | none => simp [PG.portLink?, hport, hp']
    | some x =>
      rw [portLink?_eq h2 (by rw [hport, hp']; rfl), portLink?_eq h (by rw [hp']; rfl), h5]
      simp only [Option.some.injEq, Option.map_some]
      cases hl : g.lk p' with
      | none => simp [cut, hl]
      | some q =>
        by_cases hc : p' = p ∨ q = p
        · rw [if_pos (by rcases hc with h | h <;> simp [h])]
          rcases hc with hc | hc <;> simp [cut, hl, hp', hc]
        · rw [if_neg (by simpa using hc)]
          congr 1
          rw [cut_some (by rw [hp']; rfl)]
          simp only [decide_eq_false_iff_not]
          exact ⟨hl, fun x => hc (Or.inl x), fun x => hc (Or.inr x)⟩

end Verif.PG
