import Verif.Weights.HistSpec
import Verif.Weights.Props
import Verif.Follow.Props
import Verif.Algo.View

/-!
# C88 Weights follow a graph through any history
-/

namespace Verif.Weights

open Verif.Secondary Verif.PG

/-- Weights are kept only for existing nodes and ports. -/
structure Clean {N P : Type} (dn : N) (dp : P) (s : Both N P) : Prop where
  dnode : s.weights.nodes.default = dn
  dport : s.weights.ports.default = dp
  node : ∀ n, ¬ s.graph.containsNode n = true → s.weights.nodes.get n = dn
  port : ∀ p, (∀ e, ¬ At s.graph p e) → s.weights.ports.get p = dp

/-- The weight of an endpoint. -/
def viewPort {P : Type} (dp : P) (g : PG) (w : Dense P) (e : Endpoint) : P :=
  match g.portIndex e.1 e.2.1 e.2.2 with
  | none => dp
  | some p => w.get p

theorem viewPort_at {P : Type} {dp : P} {g : PG} {w : Dense P} {e : Endpoint} {p : Nat} (h : At g p e) :
    viewPort dp g w e = w.get p := by
  obtain ⟨n, d, k⟩ := e
  simp [viewPort, at_index.2 h]

theorem viewPort_none {P : Type} {dp : P} {g : PG} {w : Dense P} {e : Endpoint} (h : ∀ p, ¬ At g p e) :
    viewPort dp g w e = dp := by
  obtain ⟨n, d, k⟩ := e
  unfold viewPort
  cases hp : g.portIndex n d k with
  | none => rfl
  | some p => exact absurd (at_index.1 hp) (h p)

theorem has_iff {g : PG} {e : Endpoint} : g.abs.Has e ↔ ∃ p, At g p e := abs_has (n := e.1) (d := e.2.1) (k := e.2.2)

theorem live_iff {g : PG} {n : Nat} : (g.abs.counts n).isSome ↔ g.containsNode n = true := Follow.live_iff_counts.symm

theorem at_live {g : PG} {p : Nat} {e : Endpoint} (h : At g p e) : g.containsNode e.1 = true := by
  obtain ⟨n, d, k⟩ := e
  obtain ⟨m, hm, -⟩ := h
  rw [containsNode_iff, hm]; rfl

theorem port_part {P : Type} {dp : P} {g g' : PG} (hI' : PG.Inv g') {w w' : Dense P}
    (hA : ∀ p q e, At g p e → At g' q e → w'.get q = w.get p)
    (hB : ∀ q, (∀ p e, At g p e → ¬ At g' q e) → w'.get q = dp) :
    (∀ p, (∀ e, ¬ At g' p e) → w'.get p = dp) ∧
    ∀ e, ((∃ p, At g' p e) → viewPort dp g' w' e = viewPort dp g w e) := by
  refine ⟨fun p hp => hB p fun _ e _ => hp e, ?_⟩
  rintro e ⟨q, hq⟩
  rw [viewPort_at hq]
  by_cases h : ∃ p, At g p e
  · obtain ⟨p, hp⟩ := h
    rw [viewPort_at hp, hA p q e hp hq]
  · rw [viewPort_none fun p hp => h ⟨p, hp⟩]
    refine hB q fun p f hp hf => h ⟨p, ?_⟩
    rw [hq.inj hI' hf]; exact hp

/-- The nodes and ports that remain keep their weights, all others have none. -/
theorem assemble {N P : Type} {dn : N} {dp : P} {s s' : Both N P} (hI' : PG.Inv s'.graph)
    (h1 : s'.weights.nodes.default = dn) (h2 : s'.weights.ports.default = dp)
    (nA : ∀ n, s.graph.containsNode n = true → s'.graph.containsNode n = true → s'.weights.nodes.get n = s.weights.nodes.get n)
    (nB : ∀ n, ¬ (s.graph.containsNode n = true ∧ s'.graph.containsNode n = true) → s'.weights.nodes.get n = dn)
    (hA : ∀ p q e, At s.graph p e → At s'.graph q e → s'.weights.ports.get q = s.weights.ports.get p)
    (hB : ∀ q, (∀ p e, At s.graph p e → ¬ At s'.graph q e) → s'.weights.ports.get q = dp) :
    Clean dn dp s' ∧ s'.view dn dp = (s.view dn dp).restrict dn dp s'.graph.abs := by
  obtain ⟨p1, p2⟩ := port_part hI' hA hB
  refine ⟨⟨h1, h2, fun n hn => nB n fun h => hn h.2, p1⟩, ?_⟩
  unfold Both.view AW.restrict
  congr 1
  · funext n
    simp only [live_iff, Weights.node]
    split
    · rename_i hn
      split
      · rename_i hn'; exact nA n hn' hn
      · rename_i hn'; exact nB n fun h => hn' h.1
    · rfl
  · funext e
    by_cases he : ∃ p, At s'.graph p e
    · rw [if_pos (has_iff.2 he)]; exact p2 e he
    · rw [if_neg (fun h => he (has_iff.1 h))]
      exact viewPort_none (w := s'.weights.ports) fun p hp => he ⟨p, hp⟩

theorem view_restrict {N P : Type} {dn : N} {dp : P} {s : Both N P} : s.view dn dp = (s.view dn dp).restrict dn dp s.graph.abs := by
  unfold Both.view AW.restrict
  congr 1
  · funext n
    simp only [live_iff]
    split <;> rfl
  · funext e
    by_cases he : ∃ p, At s.graph p e
    · rw [if_pos (has_iff.2 he)]
    · rw [if_neg (fun h => he (has_iff.1 h))]
      exact viewPort_none (w := s.weights.ports) fun p hp => he ⟨p, hp⟩

/-! ## Clearing and rekeying -/

theorem get_remove {V : Type} (w : Dense V) (k x : Nat) : (remove w k).get x = if x = k then w.default else w.get x :=
  (w.get_take k x).2

theorem default_remove {V : Type} (w : Dense V) (k : Nat) : (remove w k).default = w.default := by
  unfold remove Dense.take; split <;> rfl

theorem get_removes {V : Type} : ∀ (l : List Nat) (w : Dense V),
    (l.foldl remove w).default = w.default ∧ ∀ x, (l.foldl remove w).get x = if x ∈ l then w.default else w.get x
  | [], w => by simp
  | k :: l, w => by
    obtain ⟨h1, h2⟩ := get_removes l (remove w k)
    refine ⟨by rw [List.foldl_cons, h1, default_remove], fun x => ?_⟩
    rw [List.foldl_cons, h2, default_remove, get_remove]
    by_cases hx : x ∈ l <;> by_cases hk : x = k <;> simp [hx, hk]

theorem get_rekey' {V : Type} {d : V} {w : Dense V} (hd : w.default = d) (a x : Nat) (b : Option Nat) :
    (w.rekey d a b).get x = if b = some x then w.get a else if x = a then d else w.get x := by
  have h : (w.rekey d a b).get = _ := (Dense.call_spec d w (.rekey a b) (.inl hd.symm)).2
  rw [h]
  cases b with
  | none => simp [specCall, hd]
  | some b =>
    simp only [specCall, hd, Option.some.injEq]
    by_cases hx : x = b
    · simp [hx]
    · have : ¬ b = x := fun e => hx e.symm
      simp [hx, this]

theorem default_rekey {V : Type} {d : V} {w : Dense V} (a : Nat) (b : Option Nat) : (w.rekey d a b).default = w.default := by
  have := Dense.default_call d w (.rekey a b)
  simpa only [Dense.call] using this

/-- After a compaction, indices that are not new have no weight. -/
theorem rekeyAll_clean {V : Type} {d : V} {tr : List (Nat × Nat)} : ∀ {s : Nat} {w : Dense V}, w.default = d → Follow.Calls s tr →
    (∀ y, s ≤ y → y ∉ tr.map (·.1) → w.get y = d) →
    (rekeyAll d w tr).default = d ∧ ∀ y, s + tr.length ≤ y → (rekeyAll d w tr).get y = d := by
  induction tr with
  | nil => intro s w hd _ h; exact ⟨hd, fun y hy => h y (by simpa using hy) (by simp)⟩
  | cons x tr ih =>
    intro s w hd hc h
    obtain ⟨c1, c2, c3, c4⟩ := hc.head
    have := ih (w := w.rekey d x.1 (some x.2)) (by rw [default_rekey, hd]) c4 (by
      intro y hy hn
      rw [get_rekey' hd, if_neg (by simp; omega)]
      split
      · rfl
      · rename_i hx
        exact h y (by omega) (by simp only [List.map_cons, List.mem_cons, not_or]; exact ⟨hx, hn⟩))
    refine ⟨this.1, fun y hy => this.2 y (by simp at hy; omega)⟩

/-- After reported port operations, an index to which no port was tracked has no weight. -/
theorem rekeyPorts_clean {V : Type} {d : V} {tr : List (Nat × PortOp)} : ∀ {w : Dense V} {L : Nat → Prop}, w.default = d →
    (tr.map (·.1)).Nodup → (∀ q ∈ tr.map (·.1), L q) → (∀ y, ¬ L y → w.get y = d) →
    (rekeyPorts d w tr).default = d ∧ ∀ y, (∀ p, L p → PG.track tr p ≠ some y) → (rekeyPorts d w tr).get y = d := by
  induction tr with
  | nil =>
    intro w L hd _ _ h
    exact ⟨hd, fun y hy => h y fun hl => hy y hl rfl⟩
  | cons x tr ih =>
    intro w L hd hnd hL h
    obtain ⟨q, op⟩ := x
    simp only [List.map_cons, List.nodup_cons] at hnd
    have hmem : ∀ s ∈ tr.map (·.1), L s ∧ s ≠ q := fun s hs =>
      ⟨hL s (by simp only [List.map_cons, List.mem_cons]; exact .inr hs), fun e => hnd.1 (e ▸ hs)⟩
    have hLq : L q := hL q (by simp)
    cases op with
    | removed l =>
      have := ih (w := w.rekey d q none) (L := fun x => L x ∧ x ≠ q) (by rw [default_rekey, hd]) hnd.2 hmem (by
        intro y hy
        rw [get_rekey' hd, if_neg (by simp)]
        split
        · rfl
        · rename_i hx; exact h y fun hl => hy ⟨hl, hx⟩)
      refine ⟨this.1, fun y hy => this.2 y ?_⟩
      rintro p ⟨h1, h2⟩ ht
      exact hy p h1 (by simp only [PG.track]; rw [if_neg h2]; exact ht)
    | moved r =>
      have := ih (w := w.rekey d q (some r)) (L := fun x => (L x ∧ x ≠ q) ∨ x = r) (by rw [default_rekey, hd]) hnd.2
        (fun s hs => .inl (hmem s hs)) (by
        intro y hy
        have h1 : y ≠ r := fun e => hy (.inr e)
        rw [get_rekey' hd, if_neg (by simpa using fun e => h1 e.symm)]
        split
        · rfl
        · rename_i hx; exact h y fun hl => hy (.inl ⟨hl, hx⟩))
      refine ⟨this.1, fun y hy => this.2 y ?_⟩
      rintro p (⟨h1, h2⟩ | rfl) ht
      · exact hy p h1 (by simp only [PG.track]; rw [if_neg h2]; exact ht)
      · exact hy q hLq (by simp only [PG.track, if_true]; exact ht)

theorem get_shrinkIf {V : Type} (b : Bool) (k : Nat) (w : Dense V) (x : Nat) (h : k ≤ x → w.get x = w.default) :
    (shrinkIf b k w).get x = w.get x := by
  unfold shrinkIf
  split
  · unfold Dense.shrinkTo Dense.get
    rcases Nat.lt_or_ge x k with hx | hx
    · simp [List.getElem?_take, hx]
    · have := h hx
      simp only [Dense.get] at this
      rw [this, List.getElem?_eq_none (by simp; omega)]; rfl
  · rfl

theorem default_shrinkIf {V : Type} (b : Bool) (k : Nat) (w : Dense V) : (shrinkIf b k w).default = w.default := by
  unfold shrinkIf; split <;> rfl

theorem calls_mono {tr : List (Nat × Nat)} : ∀ {s : Nat}, Follow.Calls s tr → ∀ x ∈ tr, ∀ y ∈ tr, x.1 < y.1 → x.2 < y.2 := by
  induction tr with
  | nil => intro s _ x hx; cases hx
  | cons z tr ih =>
    intro s hc x hx y hy hlt
    obtain ⟨c1, c2, c3, c4⟩ := hc.head
    have hge : ∀ u ∈ tr, s + 1 ≤ u.2 := by
      intro u hu
      have : u.2 ∈ tr.map (·.2) := List.mem_map_of_mem hu
      rw [c4.new, List.mem_range'_1] at this
      omega
    rcases List.mem_cons.1 hx with hxz | hx' <;> rcases List.mem_cons.1 hy with hyz | hy'
    · rw [hxz, hyz] at hlt; omega
    · have := hge y hy'; rw [hxz]; omega
    · have := c3 x hx'; rw [hyz] at hlt; omega
    · exact ih c4 x hx' y hy' hlt

/-! ## Each call -/

section calls

variable {N P : Type} {maxOff : Nat} {dn : N} {dp : P} {s s' : Both N P}

theorem port_clean (hI : PG.Inv s.graph) (hc : Clean dn dp s) {p : Nat} (h : ¬ s.graph.containsPort p = true) :
    s.weights.ports.get p = dp :=
  hc.port p fun e he => h (containsPort_iff.2 (by rw [he.port hI]; rfl))

/-- Nothing is lost, and the weights are the same. -/
theorem grows (hI' : PG.Inv s'.graph) (hc : Clean dn dp s) (hw : s'.weights = s.weights)
    (hn : ∀ n, s.graph.containsNode n = true → s'.graph.containsNode n = true)
    (hp : ∀ p e, At s.graph p e → At s'.graph p e) :
    Clean dn dp s' ∧ s'.view dn dp = (s.view dn dp).restrict dn dp s'.graph.abs := by
  refine assemble hI' (by rw [hw]; exact hc.dnode) (by rw [hw]; exact hc.dport) (fun n _ _ => by rw [hw]) (fun n h => ?_)
    (fun p q e h1 h2 => ?_) (fun q h => ?_)
  · rw [hw]; exact hc.node n fun h1 => h ⟨h1, hn n h1⟩
  · rw [hw, (hp p e h1).unique h2]
  · rw [hw]; exact hc.port q fun e he => h q e he (hp q e he)

theorem add_ok (hmax : maxOff ≤ 32767) (hg : PG.Reach maxOff s.graph) (hc : Clean dn dp s) {i o : Nat}
    (hok : i ≤ maxOff ∧ o ≤ maxOff) (he : step maxOff dn dp s (.addNode i o) = some s') :
    PG.Reach maxOff s'.graph ∧ Clean dn dp s' ∧ s'.view dn dp = (s.view dn dp).restrict dn dp s'.graph.abs := by
  obtain ⟨n, g', e, hn, ha, hs, -⟩ := C08_add_node hmax hg hok.1 hok.2
  simp only [step, e, Option.map_some, Option.some.injEq] at he
  subst he
  have hr : PG.Reach maxOff g' := .step (op := .addNode i o) hg hok (by simp [PG.step, e])
  have hI := hg.inv hmax
  have hI' := hr.inv hmax
  refine ⟨hr, grows hI' hc rfl (fun m hm => ?_) fun p e h => ?_⟩
  · simp only
    rw [← live_iff] at hm ⊢
    rw [ha]
    simp only [AGraph.add]
    split <;> simp_all
  · have hp : s.graph.containsPort p = true := containsPort_iff.2 (by rw [h.port hI]; rfl)
    have := (hs p hp).2.1
    rw [h.endpoint hI] at this
    exact (endpoint_at hI').1 this

theorem link_ok (hmax : maxOff ≤ 32767) (hg : PG.Reach maxOff s.graph) (hc : Clean dn dp s) {op : PG.Op} {g' : PG}
    (hok : PG.Op.ok maxOff s.graph op) (he : s.graph.step maxOff op = some g') (hm : g'.nodeMeta = s.graph.nodeMeta) :
    PG.Reach maxOff g' ∧ Clean dn dp (⟨g', s.weights⟩ : Both N P) ∧
      (⟨g', s.weights⟩ : Both N P).view dn dp = (s.view dn dp).restrict dn dp g'.abs := by
  have hr : PG.Reach maxOff g' := .step hg hok he
  have hnode : ∀ n, g'.node? n = s.graph.node? n := fun n => by simp [PG.node?, hm]
  refine ⟨hr, grows (s' := ⟨g', s.weights⟩) (hr.inv hmax) hc rfl (fun n hn => ?_) fun p e h => ?_⟩
  · rw [containsNode_iff] at hn ⊢
    rw [hnode]; exact hn
  · exact (at_congr (hnode e.1)).2 h

theorem remove_ok (hmax : maxOff ≤ 32767) (hg : PG.Reach maxOff s.graph) (hc : Clean dn dp s) {n : Nat}
    (he : step maxOff dn dp s (.removeNode n) = some s') :
    PG.Reach maxOff s'.graph ∧ Clean dn dp s' ∧ s'.view dn dp = (s.view dn dp).restrict dn dp s'.graph.abs := by
  obtain ⟨g', e, rfl⟩ := Option.map_eq_some_iff.1 he
  have hr : PG.Reach maxOff g' := .step (op := .removeNode n) hg trivial e
  have hI := hg.inv hmax
  have hI' := hr.inv hmax
  have hl : ∀ m, g'.containsNode m = true ↔ s.graph.containsNode m = true ∧ m ≠ n := by
    cases hc : s.graph.containsNode n with
    | false =>
      rw [C09_remove_node_unknown hc] at e; cases e
      refine fun m => ⟨fun hm => ⟨hm, ?_⟩, fun hm => hm.1⟩
      rintro rfl; rw [hc] at hm; cases hm
    | true =>
      obtain ⟨g1, e1, ha, -⟩ := C09_remove_node hmax hg hc
      rw [e] at e1; cases e1
      intro m
      rw [← live_iff, ← live_iff, ha]
      simp only [AGraph.remove]
      split <;> simp_all
  have hat : ∀ p (f : Endpoint), At g' p f ↔ At s.graph p f ∧ f.1 ≠ n := by
    rintro p ⟨m, d, k⟩
    have h1 : m ≠ n → (At g' p (m, d, k) ↔ At s.graph p (m, d, k)) := by
      intro hm
      cases hc : s.graph.containsNode n with
      | false => rw [C09_remove_node_unknown hc] at e; cases e; rfl
      | true =>
        obtain ⟨g1, e1, -, hp, -⟩ := C09_remove_node hmax hg hc
        rw [e] at e1; cases e1
        rw [← at_index, ← at_index]; exact hp p m d k hm
    constructor
    · intro h
      have hm : m ≠ n := ((hl m).1 (at_live h)).2
      exact ⟨(h1 hm).1 h, hm⟩
    · rintro ⟨h, hm⟩; exact (h1 hm).2 h
  obtain ⟨r1, r2⟩ := get_removes (s.graph.ports n .incoming ++ s.graph.ports n .outgoing) s.weights.ports
  have hmem : ∀ p, p ∈ s.graph.ports n .incoming ++ s.graph.ports n .outgoing ↔ ∃ f : Endpoint, At s.graph p f ∧ f.1 = n := by
    intro p
    rw [List.mem_append, Algo.mem_ports, Algo.mem_ports]
    constructor
    · rintro (⟨k, h⟩ | ⟨k, h⟩) <;> exact ⟨_, h, rfl⟩
    · rintro ⟨⟨m, d, k⟩, h, rfl⟩
      cases d
      · exact .inl ⟨k, h⟩
      · exact .inr ⟨k, h⟩
  refine ⟨hr, assemble hI' ?_ ?_ (fun m _ h => ?_) (fun m h => ?_) (fun p q f h1 h2 => ?_) (fun q h => ?_)⟩
  · simp only [default_remove]; exact hc.dnode
  · simp only [r1]; exact hc.dport
  · simp only [get_remove]; rw [if_neg ((hl m).1 h).2]
  · simp only [get_remove]
    split
    · exact hc.dnode
    · rename_i hm; exact hc.node m fun h1 => h ⟨h1, (hl m).2 ⟨h1, hm⟩⟩
  · simp only at h2 ⊢
    have h3 := (hat q f).1 h2
    rw [r2, if_neg, h1.unique h3.1]
    rw [hmem]
    rintro ⟨f', h4, h5⟩
    rw [h4.inj hI h3.1] at h5
    exact h3.2 h5
  · simp only at h ⊢
    rw [r2]
    split
    · exact hc.dport
    · rename_i hq
      exact hc.port q fun f hf => h q f hf ((hat q f).2 ⟨hf, fun e => hq ((hmem q).2 ⟨f, hf, e⟩)⟩)

theorem setNum_ok (hmax : maxOff ≤ 32767) (hg : PG.Reach maxOff s.graph) (hc : Clean dn dp s) {n i o : Nat}
    (hok : PG.Op.ok maxOff s.graph (.setNumPorts n i o)) (he : step maxOff dn dp s (.setNumPorts n i o) = some s') :
    PG.Reach maxOff s'.graph ∧ Clean dn dp s' ∧ s'.view dn dp = (s.view dn dp).restrict dn dp s'.graph.abs := by
  obtain ⟨⟨g', tr⟩, e, rfl⟩ := Option.map_eq_some_iff.1 he
  have hr : PG.Reach maxOff g' := .step (op := .setNumPorts n i o) hg hok (by simp [PG.step, e])
  have hI := hg.inv hmax
  have hI' := hr.inv hmax
  cases hn : s.graph.containsNode n with
  | false =>
    rw [C12_set_num_ports_unknown hn hok.1 hok.2.1] at e
    cases e
    exact ⟨hr, grows hI' hc rfl (fun _ h => h) fun _ _ h => h⟩
  | true =>
    obtain ⟨hnd, hsrc⟩ := C13_reported_once hmax hg hn e
    have htr : ∀ p f, At s.graph p f → PG.track tr p = g'.portIndex f.1 f.2.1 f.2.2 :=
      fun p f h => (C13_track hmax hg hn e (h.endpoint hI)).1
    obtain ⟨d1, d2⟩ := rekeyPorts_clean (L := fun p => ∃ f, At s.graph p f) hc.dport hnd (by
      intro q hq
      obtain ⟨⟨n1, d1⟩, hx, -⟩ := Option.map_eq_some_iff.1 (hsrc q hq)
      obtain ⟨m, -, -, h1⟩ := port_at hI hx
      exact ⟨_, h1⟩) (fun y hy => hc.port y fun f hf => hy ⟨f, hf⟩)
    have hl : ∀ m, g'.containsNode m = true ↔ s.graph.containsNode m = true := by
      intro m
      rw [← live_iff, ← live_iff, (C12_set_num_ports hmax hg hn e).1]
      simp only [AGraph.resize]
      split
      · rename_i h; subst h; simp [live_iff, hn]
      · rfl
    refine ⟨hr, assemble hI' hc.dnode d1 (fun m _ _ => rfl) (fun m h => ?_) (fun p q f h1 h2 => ?_) (fun q h => ?_)⟩
    · exact hc.node m fun h1 => h ⟨h1, (hl m).2 h1⟩
    · have := (C42_set_num_ports hmax hg hn e s.weights.ports (n' := f.1) (d := f.2.1) (k := f.2.2) (at_index.2 h1) (at_index.2 h2)).1
      rw [hc.dport] at this
      exact this
    · refine d2 q ?_
      rintro p ⟨f, hf⟩ ht
      rw [htr p f hf] at ht
      exact h p f hf (at_index.1 ht)

theorem compactPorts_ok (hmax : maxOff ≤ 32767) (hg : PG.Reach maxOff s.graph) (hc : Clean dn dp s) {b : Bool}
    (hok : PG.Op.ok maxOff s.graph .compactPorts) (he : step maxOff dn dp s (.compactPorts b) = some s') :
    PG.Reach maxOff s'.graph ∧ Clean dn dp s' ∧ s'.view dn dp = (s.view dn dp).restrict dn dp s'.graph.abs := by
  obtain ⟨⟨g', tr⟩, e, rfl⟩ := Option.map_eq_some_iff.1 he
  have hI := hg.inv hmax
  obtain ⟨g1, tr1, e1, hr, h2, h3, h4, ha, -, h5, h6, -⟩ := C16_compact_ports_partial hmax hg
  rw [e] at e1
  cases e1
  replace hr := hr hok
  have hI' := hr.inv hmax
  have hlen : tr.length = s.graph.portCount := by
    have := congrArg List.length h4; simpa using this
  have hcalls : Follow.Calls 0 tr := ⟨h2, by rw [h4, hlen, List.range_eq_range'], fun _ _ => Nat.zero_le _⟩
  obtain ⟨d1, d2⟩ := rekeyAll_clean hc.dport hcalls (fun y _ hy => port_clean hI hc fun h => hy ((h3 y).2 h))
  have hcnt : g'.portCount = s.graph.portCount := by
    obtain ⟨l, hl1, hl2, hl3, -⟩ := C06_ports_iter hmax hr
    have : l.Perm (List.range s.graph.portCount) := by
      rw [List.perm_ext_iff_of_nodup (hl2.imp Nat.ne_of_lt) List.nodup_range]
      intro q; rw [hl1, h6, List.mem_range]
    rw [hl3, this.length_eq, List.length_range]
  have hsh : ∀ x, (shrinkIf b g'.portCount (rekeyAll dp s.weights.ports tr)).get x = (rekeyAll dp s.weights.ports tr).get x :=
    fun x => get_shrinkIf _ _ _ _ fun hx => by rw [d2 x (by omega), d1]
  have hlive : ∀ m, g'.containsNode m = true ↔ s.graph.containsNode m = true := fun m => by
    rw [← live_iff, ← live_iff, ha]
  refine ⟨hr, assemble hI' hc.dnode (by simp only [default_shrinkIf]; exact d1) (fun m _ _ => rfl) (fun m h => ?_)
    (fun p q f h1 h2 => ?_) (fun q h => ?_)⟩
  · exact hc.node m fun h1 => h ⟨h1, (hlive m).2 h1⟩
  · simp only at h2 ⊢
    rw [hsh]
    obtain ⟨g2, tr2, e2, hw⟩ := C42_compact_ports hmax hg s.weights.ports
    rw [e] at e2; cases e2
    obtain ⟨q', hq', -, hw', -⟩ := hw f.1 f.2.1 f.2.2 p (at_index.2 h1)
    rw [hc.dport] at hw'
    rw [h2.unique (at_index.1 hq'), hw']
  · simp only at h ⊢
    rw [hsh]
    refine d2 q ?_
    rcases Nat.lt_or_ge q s.graph.portCount with hq | hq
    · exfalso
      have : q ∈ tr.map (·.2) := by rw [h4]; exact List.mem_range.2 hq
      obtain ⟨x, hx, rfl⟩ := List.mem_map.1 this
      have hp := (h3 x.1).1 (List.mem_map_of_mem hx)
      obtain ⟨⟨n1, d1⟩, hx1⟩ := Option.isSome_iff_exists.1 (containsPort_iff.1 hp)
      obtain ⟨m, -, -, hat⟩ := port_at hI hx1
      have := h5 x.1 x.2 _ hx (hat.endpoint hI)
      exact h x.1 _ hat (at_index.1 this)
    · omega

theorem compactNodes_ok' (hmax : maxOff ≤ 32767) (hg : PG.Reach maxOff s.graph) (hc : Clean dn dp s) {b : Bool}
    (he : step maxOff dn dp s (.compactNodes b) = some s') :
    PG.Reach maxOff s'.graph ∧ Clean dn dp s' ∧ ∃ ρ : Nat → Nat, AGraph.Renamed ρ s.graph.abs s'.graph.abs ∧
      (∀ a b, (s.graph.abs.counts a).isSome → (s.graph.abs.counts b).isSome → a < b → ρ a < ρ b) ∧
      (∀ a b, (s'.graph.abs.counts a).isSome → b < a → (s'.graph.abs.counts b).isSome) ∧
      (s.view dn dp).Moved ρ s.graph.abs (s'.view dn dp) := by
  obtain ⟨⟨g', tr⟩, e, rfl⟩ := Option.map_eq_some_iff.1 he
  have hI := hg.inv hmax
  obtain ⟨g1, tr1, e1, h2, h3, h4, h5, h6, h7, -⟩ := C15_compact_nodes hmax hg
  rw [e] at e1
  cases e1
  have hr : PG.Reach maxOff g' := .step (op := .compactNodes) hg trivial (by simp [PG.step, e])
  have hI' := hr.inv hmax
  have hlen : tr.length = s.graph.nodeCount := by
    have := congrArg List.length h4; simpa using this
  have hcalls : Follow.Calls 0 tr := ⟨h2, by rw [h4, hlen, List.range_eq_range'], fun _ _ => Nat.zero_le _⟩
  obtain ⟨hren, hidx⟩ := h5 (Follow.total tr) fun x hx => Follow.total_mem hcalls hx
  have hfrom : ∀ a, s.graph.containsNode a = true → ∃ x ∈ tr, x.1 = a ∧ Follow.total tr a = x.2 := by
    intro a ha
    obtain ⟨x, hx, rfl⟩ := List.mem_map.1 ((h3 a).2 ha)
    exact ⟨x, hx, rfl, Follow.total_mem hcalls hx⟩
  have hlive : ∀ m, g'.containsNode m = true ↔ m < s.graph.nodeCount := by
    intro m
    rw [Follow.live_renamed hren]
    constructor
    · rintro ⟨a, rfl, ha⟩
      obtain ⟨x, hx, -, e⟩ := hfrom a ha
      have : x.2 ∈ tr.map (·.2) := List.mem_map_of_mem hx
      rw [h4] at this
      rw [e]; exact List.mem_range.1 this
    · intro hm
      have : m ∈ tr.map (·.2) := by rw [h4]; exact List.mem_range.2 hm
      obtain ⟨x, hx, rfl⟩ := List.mem_map.1 this
      exact ⟨x.1, Follow.total_mem hcalls hx, (h3 _).1 (List.mem_map_of_mem hx)⟩
  obtain ⟨d1, d2⟩ := rekeyAll_clean hc.dnode hcalls (fun y _ hy => hc.node y fun h => hy ((h3 y).2 h))
  have hsh : ∀ x, (shrinkIf b g'.nodeCount (rekeyAll dn s.weights.nodes tr)).get x = (rekeyAll dn s.weights.nodes tr).get x :=
    fun x => get_shrinkIf _ _ _ _ fun hx => by rw [d2 x (by omega), d1]
  have hmv : ∀ x ∈ tr, (rekeyAll dn s.weights.nodes tr).get x.2 = s.weights.nodes.get x.1 :=
    (moves_increasing (moves_rekey dn) tr s.weights.nodes 0 hc.dnode h2 hcalls.new (by simp)).1
  refine ⟨hr, ⟨by simp only [default_shrinkIf]; exact d1, hc.dport, fun n hn => ?_, fun p hp => ?_⟩, Follow.total tr, hren, ?_, ?_, ?_, ?_⟩
  · simp only at hn ⊢
    rw [hsh]
    rw [hlive] at hn
    exact d2 n (by omega)
  · refine port_clean hI hc fun h => ?_
    rw [← (h6 p).1] at h
    obtain ⟨⟨n1, d1⟩, hx1⟩ := Option.isSome_iff_exists.1 (containsPort_iff.1 h)
    obtain ⟨m, -, -, hat⟩ := port_at hI' hx1
    exact hp _ hat
  · intro a c ha hb hlt
    obtain ⟨x, hx, rfl, e1⟩ := hfrom a (live_iff.1 ha)
    obtain ⟨y, hy, rfl, e2⟩ := hfrom c (live_iff.1 hb)
    rw [e1, e2]
    exact calls_mono hcalls x hx y hy hlt
  · intro a c ha hlt
    simp only [live_iff, hlive] at ha ⊢
    omega
  · intro n hn
    obtain ⟨x, hx, rfl, e1⟩ := hfrom n (live_iff.1 hn)
    have h1 : g'.containsNode x.2 = true := by
      rw [Follow.live_renamed hren]; exact ⟨x.1, e1, live_iff.1 hn⟩
    simp only [Both.view, Weights.node, e1, h1, live_iff.1 hn, if_true]
    rw [hsh, hmv x hx]
  · rintro ⟨n, d, k⟩ hf
    obtain ⟨p, hp⟩ := has_iff.1 hf
    simp only [Both.view, AGraph.mapNode, hidx n d k (at_live hp)]
    rfl

theorem swap_ok (hmax : maxOff ≤ 32767) (hg : PG.Reach maxOff s.graph) (hc : Clean dn dp s) {a b : Nat}
    (hok : s.graph.swappable a b = true) (he : step maxOff dn dp s (.swapNodes a b) = some s') :
    PG.Reach maxOff s'.graph ∧ Clean dn dp s' ∧ AGraph.Renamed (exchange a b) s.graph.abs s'.graph.abs ∧
      (s.view dn dp).Moved (exchange a b) s.graph.abs (s'.view dn dp) := by
  obtain ⟨g', e, rfl⟩ := Option.map_eq_some_iff.1 he
  have hI := hg.inv hmax
  obtain ⟨g1, e1, hr, hren, hidx, hport, -⟩ := C17_swap_nodes_partial hmax hg hok
  rw [e] at e1
  cases e1
  have hI' := hr.inv hmax
  have hex : ∀ n, exchange a b (exchange a b n) = n := Follow.transpose_transpose a b
  have hget : ∀ n, (s.weights.nodes.swap a b).get n = s.weights.nodes.get (exchange a b n) := by
    intro n
    rw [Dense.get_swap]
    unfold exchange
    split <;> rename_i h1
    · rfl
    · split <;> rfl
  have hd : (s.weights.nodes.swap a b).default = s.weights.nodes.default := by
    have := Dense.default_call dn s.weights.nodes (.swap a b)
    simpa only [Dense.call] using this
  refine ⟨hr, ⟨hd.trans hc.dnode, hc.dport, fun n hn => ?_, fun p hp => ?_⟩, hren, ?_, ?_⟩
  · simp only [hget]
    refine hc.node _ fun h => hn ?_
    rw [Follow.live_renamed hren]
    exact ⟨_, hex n, h⟩
  · refine port_clean hI hc fun h => ?_
    rw [← (hport p).1] at h
    obtain ⟨⟨n1, d1⟩, hx1⟩ := Option.isSome_iff_exists.1 (containsPort_iff.1 h)
    obtain ⟨m, -, -, hat⟩ := port_at hI' hx1
    exact hp _ hat
  · intro n hn
    have h1 : g'.containsNode (exchange a b n) = true := by
      rw [Follow.live_renamed hren]; exact ⟨n, rfl, live_iff.1 hn⟩
    simp only [Both.view, Weights.node, h1, live_iff.1 hn, if_true, hget, hex]
  · rintro ⟨n, d, k⟩ hf
    simp only [Both.view, AGraph.mapNode, hidx n d k]
    rfl

/-- One call: it returns, and the weights change as specified. -/
theorem step_ok (hmax : maxOff ≤ 32767) (hg : PG.Reach maxOff s.graph) (hc : Clean dn dp s) {c : Call N P}
    (hok : c.ok maxOff s.graph) : ∃ s', step maxOff dn dp s c = some s' ∧ PG.Reach maxOff s'.graph ∧ Clean dn dp s' ∧
      Effect dn dp s.graph.endpoint s.graph.abs s'.graph.abs (s.view dn dp) (s'.view dn dp) c := by
  have hI := hg.inv hmax
  have some_of : ∀ {op : PG.Op}, PG.Op.ok maxOff s.graph op → ∃ g', s.graph.step maxOff op = some g' := fun h => by
    obtain ⟨g', e, -⟩ := C04_step_partial hmax hg _ h
    exact ⟨g', e⟩
  cases c with
  | addNode i o =>
    obtain ⟨g', e⟩ := some_of (op := .addNode i o) hok
    obtain ⟨r, e1, -⟩ := Option.map_eq_some_iff.1 e
    have hs : step maxOff dn dp s (.addNode i o) = some ⟨r.2, s.weights⟩ := by simp only [step, e1, Option.map_some]
    obtain ⟨a1, a2, a3⟩ := add_ok hmax hg hc hok hs
    exact ⟨_, hs, a1, a2, a3⟩
  | removeNode n =>
    obtain ⟨g', e⟩ := some_of (op := .removeNode n) trivial
    have e1 : s.graph.removeNode n = some g' := e
    have hs : ∃ s', step maxOff dn dp s (.removeNode n) = some s' := by
      simp only [step, e1, Option.map_some]; exact ⟨_, rfl⟩
    obtain ⟨s', hs⟩ := hs
    obtain ⟨a1, a2, a3⟩ := remove_ok hmax hg hc hs
    exact ⟨_, hs, a1, a2, a3⟩
  | linkPorts a b =>
    obtain ⟨g', e⟩ := some_of (op := .linkPorts a b) trivial
    obtain ⟨r, e1, rfl⟩ := Option.map_eq_some_iff.1 e
    obtain ⟨a1, a2, a3⟩ := link_ok (op := .linkPorts a b) hmax hg hc trivial e (linkPorts_slots e1)
    exact ⟨_, by simp only [step, e1, Option.map_some], a1, a2, a3⟩
  | unlinkPort p =>
    obtain ⟨g', e⟩ := some_of (op := .unlinkPort p) trivial
    obtain ⟨r, e1, rfl⟩ := Option.map_eq_some_iff.1 e
    obtain ⟨a1, a2, a3⟩ := link_ok (op := .unlinkPort p) hmax hg hc trivial e (unlinkPort_slots e1)
    exact ⟨_, by simp only [step, e1, Option.map_some], a1, a2, a3⟩
  | setNumPorts n i o =>
    obtain ⟨g', e⟩ := some_of (op := .setNumPorts n i o) hok
    obtain ⟨r, e1, -⟩ := Option.map_eq_some_iff.1 e
    have hs : ∃ s', step maxOff dn dp s (.setNumPorts n i o) = some s' := by
      simp only [step, e1, Option.map_some]; exact ⟨_, rfl⟩
    obtain ⟨s', hs⟩ := hs
    obtain ⟨a1, a2, a3⟩ := setNum_ok hmax hg hc hok hs
    exact ⟨_, hs, a1, a2, a3⟩
  | compactNodes b =>
    obtain ⟨g', e⟩ := some_of (op := .compactNodes) trivial
    obtain ⟨r, e1, -⟩ := Option.map_eq_some_iff.1 e
    have hs : ∃ s', step maxOff dn dp s (.compactNodes b) = some s' := by
      simp only [step, e1, Option.map_some]; exact ⟨_, rfl⟩
    obtain ⟨s', hs⟩ := hs
    obtain ⟨a1, a2, ρ, a3, a4, a5, a6⟩ := compactNodes_ok' hmax hg hc hs
    exact ⟨_, hs, a1, a2, ρ, a3, a4, a5, a6, view_restrict⟩
  | compactPorts b =>
    obtain ⟨g', e⟩ := some_of (op := .compactPorts) hok
    obtain ⟨r, e1, -⟩ := Option.map_eq_some_iff.1 e
    have hs : ∃ s', step maxOff dn dp s (.compactPorts b) = some s' := by
      simp only [step, e1, Option.map_some]; exact ⟨_, rfl⟩
    obtain ⟨s', hs⟩ := hs
    obtain ⟨a1, a2, a3⟩ := compactPorts_ok hmax hg hc hok hs
    exact ⟨_, hs, a1, a2, a3⟩
  | swapNodes a b =>
    obtain ⟨g', e⟩ := some_of (op := .swapNodes a b) hok
    have e1 : s.graph.swapNodes a b = some g' := e
    have hs : ∃ s', step maxOff dn dp s (.swapNodes a b) = some s' := by
      simp only [step, e1, Option.map_some]; exact ⟨_, rfl⟩
    obtain ⟨s', hs⟩ := hs
    obtain ⟨a1, a2, a3, a4⟩ := swap_ok hmax hg hc hok hs
    exact ⟨_, hs, a1, a2, a3, a4, view_restrict⟩
  | setNode n v =>
    have hn : s.graph.containsNode n = true := hok
    have hd : (s.weights.nodes.set n v).default = s.weights.nodes.default := by
      have := Dense.default_call dn s.weights.nodes (.set n v)
      simpa only [Dense.call] using this
    refine ⟨_, rfl, hg, ⟨hd.trans hc.dnode, hc.dport, fun m hm => ?_, hc.port⟩, rfl, ?_⟩
    · simp only [Weights.setNode, Dense.get_set]
      rw [if_neg (by rintro rfl; exact hm hn)]
      exact hc.node m hm
    · unfold Both.view
      congr 1
      funext x
      simp only [Weights.setNode, Weights.node, Dense.get_set]
      by_cases hx : x = n
      · subst hx; simp [hn]
      · simp [hx]
  | setPort p v =>
    have hp : s.graph.containsPort p = true := hok
    have hd : (s.weights.ports.set p v).default = s.weights.ports.default := by
      have := Dense.default_call dp s.weights.ports (.set p v)
      simpa only [Dense.call] using this
    obtain ⟨⟨n1, d1⟩, hx1⟩ := Option.isSome_iff_exists.1 (containsPort_iff.1 hp)
    obtain ⟨m, -, -, hat⟩ := port_at hI hx1
    refine ⟨_, rfl, hg, ⟨hc.dnode, hd.trans hc.dport, hc.node, fun q hq => ?_⟩, rfl, ?_⟩
    · simp only [Weights.setPort, Dense.get_set]
      rw [if_neg (by rintro rfl; exact hq _ hat)]
      exact hc.port q hq
    · have key : ∀ e, viewPort dp s.graph (s.weights.ports.set p v) e =
          if s.graph.endpoint p = some e then v else viewPort dp s.graph s.weights.ports e := by
        intro e
        by_cases he : ∃ q, At s.graph q e
        · obtain ⟨q, hq⟩ := he
          rw [viewPort_at hq, viewPort_at hq, Dense.get_set]
          by_cases hqp : q = p
          · subst hqp; rw [if_pos rfl, if_pos (hq.endpoint hI)]
          · rw [if_neg hqp, if_neg]
            intro h; exact hqp (hq.unique ((endpoint_at hI).1 h))
        · rw [viewPort_none fun q hq => he ⟨q, hq⟩, viewPort_none fun q hq => he ⟨q, hq⟩, if_neg]
          intro h; exact he ⟨p, (endpoint_at hI).1 h⟩
      unfold Both.view
      congr 1
      funext e
      exact key e

theorem step_op {c : Call N P} {s s' : Both N P} (h : step maxOff dn dp s c = some s') :
    (match c.op with
      | some op => PG.step maxOff s.graph op
      | none => some s.graph) = some s'.graph := by
  cases c <;> simp only [step, Option.map_eq_some_iff, Option.some.injEq] at h <;>
    simp only [Call.op, PG.step, Option.map_eq_some_iff, Option.some.injEq]
  case removeNode n => obtain ⟨g, e, rfl⟩ := h; exact e
  case swapNodes a b => obtain ⟨g, e, rfl⟩ := h; exact e
  case setNode n v => rw [← h]
  case setPort n v => rw [← h]
  all_goals obtain ⟨r, e, rfl⟩ := h; exact ⟨r, e, rfl⟩

/-- **C88** One call: it returns, the graph changes as without weights, and the weights change as specified. Partial: with the
`rekey` callbacks, removing the weights of a removed node and its ports, and shrinking only after a compaction; for calls
that the graph accepts (`Call.ok`). -/
theorem C88_step_partial (hmax : maxOff ≤ 32767) (hg : PG.Reach maxOff s.graph) (hc : Clean dn dp s) {c : Call N P}
    (hok : c.ok maxOff s.graph) : ∃ s', step maxOff dn dp s c = some s' ∧ PG.Reach maxOff s'.graph ∧ Clean dn dp s' ∧
      (match c.op with
        | some op => PG.step maxOff s.graph op
        | none => some s.graph) = some s'.graph ∧
      Effect dn dp s.graph.endpoint s.graph.abs s'.graph.abs (s.view dn dp) (s'.view dn dp) c := by
  obtain ⟨s', h1, h2, h3, h4⟩ := step_ok hmax hg hc hok
  exact ⟨s', h1, h2, h3, step_op h1, h4⟩

/-- **C88** Any history: the graph is one that arises without weights, every slot that belongs to no node and no port holds
the default weight, and the next call returns with the specified effect. Partial as `C88_step_partial`. -/
theorem C88_history_partial (hmax : maxOff ≤ 32767) (h : Reach maxOff dn dp s) :
    PG.Reach maxOff s.graph ∧
    (∀ n, s.graph.containsNode n = false → s.weights.node n = dn) ∧
    (∀ p, s.graph.containsPort p = false → s.weights.port p = dp) ∧
    ∀ c : Call N P, c.ok maxOff s.graph → ∃ s', step maxOff dn dp s c = some s' ∧
      (match c.op with
        | some op => PG.step maxOff s.graph op
        | none => some s.graph) = some s'.graph ∧
      Effect dn dp s.graph.endpoint s.graph.abs s'.graph.abs (s.view dn dp) (s'.view dn dp) c := by
  have key : PG.Reach maxOff s.graph ∧ Clean dn dp s := by
    induction h with
    | init => exact ⟨.init, rfl, rfl, fun _ _ => rfl, fun _ _ => rfl⟩
    | step _ hok he ih =>
      obtain ⟨s', h1, h2, h3, -⟩ := step_ok hmax ih.1 ih.2 hok
      rw [he] at h1
      cases h1
      exact ⟨h2, h3⟩
  refine ⟨key.1, fun n hn => key.2.node n (by simp [hn]), fun p hp => ?_, fun c hok => ?_⟩
  · exact port_clean (key.1.inv hmax) key.2 (by simp [hp])
  · obtain ⟨s', h1, -, -, h4, h5⟩ := C88_step_partial hmax key.1 key.2 hok
    exact ⟨s', h1, h4, h5⟩

end calls

/-- Calls one after another. -/
def run (s : Both Nat Nat) : List (Call Nat Nat) → Option (Both Nat Nat)
  | [] => some s
  | c :: cs => (step 32767 0 0 s c).bind fun s => run s cs

/-- A node with three incoming and three outgoing ports with weights 1 to 6. -/
def exW : Both Nat Nat :=
  (run ⟨PG.empty, .new 0 0⟩ [.addNode 3 3, .setNode 0 9, .setPort 0 1, .setPort 1 2, .setPort 2 3, .setPort 3 4, .setPort 4 5,
    .setPort 5 6]).getD ⟨PG.empty, .new 0 0⟩

/-- **C88 fails** for the documented callback of `set_num_ports`, `swap` (`src/weights.rs` lines 32–34): the new fourth
outgoing port gets the weight of a removed incoming port. With `rekey` it gets the default weight. -/
theorem C88_witness_documented_swap :
    ((exW.graph.setNumPorts 0 1 4).map fun r => (r.1.ports 0 .outgoing).map (swapPorts exW.weights.ports r.2).get) =
      some [4, 5, 6, 3] ∧
    ((exW.graph.setNumPorts 0 1 4).map fun r => (r.1.ports 0 .outgoing).map (rekeyPorts 0 exW.weights.ports r.2).get) =
      some [4, 5, 6, 0] := by
  decide +kernel

/-- Two nodes with weights 1 and 2. -/
def exW2 : Both Nat Nat :=
  (run ⟨PG.empty, .new 0 0⟩ [.addNode 1 0, .addNode 1 0, .setNode 0 1, .setNode 1 2, .setPort 0 1, .setPort 1 2]).getD
    ⟨PG.empty, .new 0 0⟩

/-- **C88 fails** for the documented shrinking after `remove_node` (`src/weights.rs` lines 36–39): without a compaction
in between, a remaining node and its port lose their weights. -/
theorem C88_witness_documented_shrink :
    exW2.weights.node 1 = 2 ∧ exW2.weights.port 1 = 2 ∧
    ((exW2.graph.removeNode 0).map fun g => (g.containsNode 1, g.containsPort 1,
      (exW2.weights.nodes.shrinkTo g.nodeCount).get 1, (exW2.weights.ports.shrinkTo g.portCount).get 1)) =
      some (true, true, 0, 0) := by
  decide +kernel

theorem reach_step {s : Both Nat Nat} (h : Reach 32767 0 0 s) (c : Call Nat Nat) (hok : c.ok 32767 s.graph)
    (hs : (step 32767 0 0 s c).isSome = true) : Reach 32767 0 0 ((step 32767 0 0 s c).getD ⟨PG.empty, .new 0 0⟩) := by
  obtain ⟨s', e⟩ := Option.isSome_iff_exists.1 hs
  rw [e]
  exact .step h hok e

/-- Two nodes, the first of them removed, weights of the second assigned. -/
def exW3 : Both Nat Nat :=
  (run ⟨PG.empty, .new 0 0⟩ [.addNode 1 1, .addNode 2 0, .setNode 1 7, .setPort 3 8, .removeNode 0]).getD ⟨PG.empty, .new 0 0⟩

theorem exW3_reach : Reach 32767 0 0 exW3 := by
  have h1 := reach_step .init (.addNode 1 1) ⟨by decide, by decide⟩ (by decide +kernel)
  have h2 := reach_step h1 (.addNode 2 0) ⟨by decide, by decide⟩ (by decide +kernel)
  have h3 := reach_step h2 (.setNode 1 7) (by simp only [Call.ok]; decide +kernel) (by decide +kernel)
  have h4 := reach_step h3 (.setPort 3 8) (by simp only [Call.ok]; decide +kernel) (by decide +kernel)
  exact reach_step h4 (.removeNode 0) trivial (by decide +kernel)

example : exW3.weights.node 1 = 7 ∧ exW3.weights.port 3 = 8 ∧
    ((run exW3 [.compactNodes true, .compactPorts true]).map fun s =>
      (s.weights.node 0, s.weights.port 0, s.weights.port 1, s.graph.portIndex 0 .incoming 1)) = some (7, 0, 8, some 1) := by
  decide +kernel
example := C88_history_partial (by decide) exW3_reach
example := (C88_history_partial (by decide) exW3_reach).2.2.2 (.compactNodes true) trivial
example := C88_step_partial (dn := 0) (dp := 0) (maxOff := 32767) (s := ⟨PG.empty, .new 0 0⟩) (c := .addNode 3 3) (by decide)
  .init ⟨rfl, rfl, fun _ _ => rfl, fun _ _ => rfl⟩ ⟨by decide, by decide⟩

#print axioms C88_step_partial
#print axioms C88_history_partial
#print axioms C88_witness_documented_swap
#print axioms C88_witness_documented_shrink

end Verif.Weights
