import Verif.Weights.MultiSpec
import Verif.Weights.HistProps
import Verif.Multi.FullProps
import Verif.Multi.Props

/-!
# C89 Weights follow a multigraph through any history
-/

namespace Verif.Weights

open Verif.Secondary Verif.PG Verif.Multi

/-- Weights are kept only for existing nodes and ports, not for helpers. -/
structure MClean {N P : Type} (dn : N) (dp : P) (s : MBoth N P) : Prop where
  dnode : s.weights.nodes.default = dn
  dport : s.weights.ports.default = dp
  node : ∀ n, ¬ s.graph.obs.node n → s.weights.nodes.get n = dn
  port : ∀ p, (∀ e, ¬ s.graph.obs.pos p e) → s.weights.ports.get p = dp

section

variable {N P : Type} {maxOff : Nat} {dn : N} {dp : P} {s s' : MBoth N P}

theorem view_pos (hM : MOk s.graph) {p : Nat} {e : Endpoint} (h : s.graph.obs.pos p e) :
    (s.view dn dp).port e = s.weights.ports.get p := by
  obtain ⟨n, d, k⟩ := e
  have h1 := (obs_pos hM).1 h
  simp only [MBoth.view, at_index.2 h1.1, (port_vat hM).2 ⟨_, h1⟩, if_true]
  rfl

theorem view_nopos (hM : MOk s.graph) {e : Endpoint} (h : ∀ p, ¬ s.graph.obs.pos p e) : (s.view dn dp).port e = dp := by
  obtain ⟨n, d, k⟩ := e
  simp only [MBoth.view]
  cases hp : s.graph.graph.portIndex n d k with
  | none => rfl
  | some p =>
    simp only
    split
    · rename_i hc
      obtain ⟨x, hx⟩ := (port_vat hM).1 hc
      have := hx.1.inj hM.inv (at_index.1 hp)
      subst this
      exact absurd ((obs_pos hM).2 hx) (h p)
    · rfl

theorem view_node {n : Nat} (h : s.graph.obs.node n) : (s.view dn dp).node n = s.weights.nodes.get n := by
  have : s.graph.containsNode n = true := h
  simp only [MBoth.view, this, if_true]; rfl

theorem view_nonode {n : Nat} (h : ¬ s.graph.obs.node n) : (s.view dn dp).node n = dn := by
  have : ¬ s.graph.containsNode n = true := h
  simp only [MBoth.view]; rw [if_neg this]

theorem view_only (hM : MOk s.graph) : s.view dn dp = (s.view dn dp).only dn dp s.graph.obs := by
  have hn : ∀ n, (s.view dn dp).node n = ((s.view dn dp).only dn dp s.graph.obs).node n := by
    intro n
    by_cases h : s.graph.obs.node n
    · simp only [AW.only, if_pos h]
    · simp only [AW.only, if_neg h]; exact view_nonode h
  have hp : ∀ e, (s.view dn dp).port e = ((s.view dn dp).only dn dp s.graph.obs).port e := by
    intro e
    by_cases h : ∃ p, s.graph.obs.pos p e
    · simp only [AW.only, if_pos h]
    · simp only [AW.only, if_neg h]; exact view_nopos hM fun p hp => h ⟨p, hp⟩
  cases h1 : s.view dn dp with
  | mk a b =>
    rw [h1] at hn hp
    simp only [AW.only] at hn hp ⊢
    rw [AW.mk.injEq]
    exact ⟨funext hn, funext hp⟩

/-- The nodes and ports that remain keep their weights, all others have none. -/
theorem massemble (hM : MOk s.graph) (hM' : MOk s'.graph)
    (h1 : s'.weights.nodes.default = dn) (h2 : s'.weights.ports.default = dp)
    (nA : ∀ n, s.graph.obs.node n → s'.graph.obs.node n → s'.weights.nodes.get n = s.weights.nodes.get n)
    (nB : ∀ n, ¬ (s.graph.obs.node n ∧ s'.graph.obs.node n) → s'.weights.nodes.get n = dn)
    (hA : ∀ p q e, s.graph.obs.pos p e → s'.graph.obs.pos q e → s'.weights.ports.get q = s.weights.ports.get p)
    (hB : ∀ q, (∀ p e, s.graph.obs.pos p e → ¬ s'.graph.obs.pos q e) → s'.weights.ports.get q = dp) :
    MClean dn dp s' ∧ s'.view dn dp = (s.view dn dp).only dn dp s'.graph.obs := by
  refine ⟨⟨h1, h2, fun n hn => nB n fun h => hn h.2, fun p hp => hB p fun _ e _ => hp e⟩, ?_⟩
  have hn : ∀ n, (s'.view dn dp).node n = ((s.view dn dp).only dn dp s'.graph.obs).node n := by
    intro n
    simp only [AW.only]
    by_cases h : s'.graph.obs.node n
    · rw [if_pos h, view_node h]
      by_cases h' : s.graph.obs.node n
      · rw [view_node h', nA n h' h]
      · rw [view_nonode h', nB n fun x => h' x.1]
    · rw [if_neg h, view_nonode h]
  have hp : ∀ e, (s'.view dn dp).port e = ((s.view dn dp).only dn dp s'.graph.obs).port e := by
    intro e
    simp only [AW.only]
    by_cases h : ∃ p, s'.graph.obs.pos p e
    · obtain ⟨q, hq⟩ := h
      rw [if_pos ⟨q, hq⟩, view_pos hM' hq]
      by_cases h' : ∃ p, s.graph.obs.pos p e
      · obtain ⟨p, hp⟩ := h'
        rw [view_pos hM hp, hA p q e hp hq]
      · rw [view_nopos hM fun p hp => h' ⟨p, hp⟩]
        refine hB q fun p f hp hf => h' ⟨p, ?_⟩
        rw [(obs_wf hM').pos_fun q e f hq hf]; exact hp
    · rw [if_neg h, view_nopos hM' fun p hp => h ⟨p, hp⟩]
  cases h1 : s'.view dn dp with
  | mk a b =>
    rw [h1] at hn hp
    simp only [AW.only] at hn hp ⊢
    rw [AW.mk.injEq]
    exact ⟨funext hn, funext hp⟩

/-- Nothing is lost, and the weights are the same. -/
theorem mgrows (hM : MOk s.graph) (hM' : MOk s'.graph) (hc : MClean dn dp s) (hw : s'.weights = s.weights)
    (hn : ∀ n, s.graph.obs.node n → s'.graph.obs.node n)
    (hp : ∀ p e, s.graph.obs.pos p e → s'.graph.obs.pos p e) :
    MClean dn dp s' ∧ s'.view dn dp = (s.view dn dp).only dn dp s'.graph.obs := by
  refine massemble hM hM' (by rw [hw]; exact hc.dnode) (by rw [hw]; exact hc.dport) (fun n _ _ => by rw [hw]) (fun n h => ?_)
    (fun p q e h1 h2 => ?_) (fun q h => ?_)
  · rw [hw]; exact hc.node n fun h' => h ⟨h', hn n h'⟩
  · rw [hw, (obs_wf hM').pos_one p q e (hp p e h1) h2]
  · rw [hw]; exact hc.port q fun e he => h q e he (hp q e he)

/-- Nodes renamed, ports where they were. -/
theorem mmoved (hM : MOk s.graph) (hM' : MOk s'.graph) (hc : MClean dn dp s) {ρ : Nat → Nat}
    (hr : s.graph.obs.Rename s'.graph.obs ρ id) (hw : s'.weights.ports = s.weights.ports) (hd : s'.weights.nodes.default = dn)
    (nA : ∀ n, s.graph.obs.node n → s'.weights.nodes.get (ρ n) = s.weights.nodes.get n)
    (nB : ∀ n, ¬ s'.graph.obs.node n → s'.weights.nodes.get n = dn) :
    MClean dn dp s' ∧ (s.view dn dp).MovedBy ρ s.graph.obs (s'.view dn dp) ∧
      s'.view dn dp = (s'.view dn dp).only dn dp s'.graph.obs := by
  refine ⟨⟨hd, by rw [hw]; exact hc.dport, nB, fun p hp => ?_⟩, ⟨fun n hn => ?_, ?_⟩, view_only hM'⟩
  · rw [hw]
    refine hc.port p fun e he => hp (ρ e.1, e.2.1, e.2.2) ?_
    exact (hr.pos _ _).2 ⟨p, e.1, e.2.1, e.2.2, he, rfl, rfl⟩
  · rw [view_node hn, view_node ((hr.node _).2 ⟨n, hn, rfl⟩), nA n hn]
  · rintro e ⟨p, hp⟩
    rw [view_pos hM hp, view_pos (p := p) hM' ((hr.pos _ _).2 ⟨p, e.1, e.2.1, e.2.2, hp, rfl, rfl⟩), hw]

theorem mremove_ok (hM : MOk s.graph) (hc : MClean dn dp s) {n : Nat} {m' : MG} {b : Bool} {r : MRes} (hM' : MOk m')
    (he : Multi.Effect s.graph.obs m'.obs (.removeNode n) .none) {s' : MBoth N P}
    (hs : s' = ⟨m', follow dn dp s.graph m' s.weights b (.removeNode n) r⟩) :
    MClean dn dp s' ∧ s'.view dn dp = (s.view dn dp).only dn dp s'.graph.obs := by
  subst hs
  obtain ⟨e1, e2, -, -⟩ := he
  obtain ⟨r1, r2⟩ := get_removes (s.graph.graph.ports n .incoming ++ s.graph.graph.ports n .outgoing) s.weights.ports
  have hmem : ∀ p, p ∈ s.graph.graph.ports n .incoming ++ s.graph.graph.ports n .outgoing ↔
      ∃ f : Endpoint, At s.graph.graph p f ∧ f.1 = n := by
    intro p
    rw [List.mem_append, Algo.mem_ports, Algo.mem_ports]
    constructor
    · rintro (⟨k, h⟩ | ⟨k, h⟩) <;> exact ⟨_, h, rfl⟩
    · rintro ⟨⟨m, d, k⟩, h, rfl⟩
      cases d
      · exact .inl ⟨k, h⟩
      · exact .inr ⟨k, h⟩
  refine massemble hM hM' ?_ ?_ (fun x _ h => ?_) (fun x h => ?_) (fun p q e h1 h2 => ?_) (fun q h => ?_)
  · simp only [follow, default_remove]; exact hc.dnode
  · simp only [follow]; rw [r1]; exact hc.dport
  · simp only [follow, get_remove]
    rw [if_neg ((e1 x).1 h).2]
  · simp only [follow, get_remove]
    split
    · exact hc.dnode
    · rename_i hx
      exact hc.node x fun h' => h ⟨h', (e1 x).2 ⟨h', hx⟩⟩
  · obtain ⟨h3, h4⟩ := (e2 q e).1 h2
    have := (obs_wf hM).pos_one p q e h1 h3
    subst this
    simp only [follow]
    rw [r2, if_neg]
    intro hm
    obtain ⟨f, hf, rfl⟩ := (hmem p).1 hm
    exact h4 (by rw [((obs_pos hM).1 h3).1.inj hM.inv hf])
  · simp only [follow]
    rw [r2]
    split
    · exact hc.dport
    · rename_i hm
      refine hc.port q fun e he => h q e he ((e2 q e).2 ⟨he, fun h1 => hm ?_⟩)
      exact (hmem q).2 ⟨e, ((obs_pos hM).1 he).1, h1⟩

theorem mset_ok (h2m : 2 ≤ maxOff) (hmax : maxOff ≤ 32767) (hg : MReach maxOff s.graph) (hc : MClean dn dp s) {n i o : Nat}
    {m' : MG} {b : Bool} {tr : List (Nat × PortOp)} (hM' : MOk m')
    (hok : (MOp.setNumPorts n i o).ok maxOff s.graph) (hm : s.graph.setNumPorts n i o = some (m', tr))
    (he : Multi.Effect s.graph.obs m'.obs (.setNumPorts n i o) (.ports tr)) {s' : MBoth N P}
    (hs : s' = ⟨m', follow dn dp s.graph m' s.weights b (.setNumPorts n i o) (.ports tr)⟩) :
    MClean dn dp s' ∧ s'.view dn dp = (s.view dn dp).only dn dp s'.graph.obs := by
  subst hs
  have hM := hg.ok h2m hmax
  have hr := C39_flat_reach h2m hmax hg
  have hI := hM.inv
  obtain ⟨g1, e⟩ : ∃ g1, s.graph.graph.setNumPorts n i o = some (g1, tr) := by
    unfold MG.setNumPorts at hm
    split at hm
    · cases hm
    · rename_i g tr' e
      split at hm
      · cases hm
      · obtain ⟨x, -, hx⟩ := Option.map_eq_some_iff.1 hm
        cases hx
        exact ⟨g, e⟩
  obtain ⟨e1, e2, π, t1, t2, t3, t4, t5, -⟩ := he
  have hw := obs_wf hM
  have hw' := obs_wf hM'
  have hcut : ∀ p x, s.graph.obs.pos p x → Cut n i o x → ∀ q, ¬ m'.obs.pos q x := by
    rintro p ⟨x1, x2, x3⟩ h1 ⟨h2, h3⟩ q hq
    simp only at h2 h3
    subst h2
    obtain ⟨u1, u2⟩ := e2 (hw.pos_node _ _ h1)
    rcases h3 with ⟨rfl, h3⟩ | ⟨rfl, h3⟩
    · have := (u1 x3).1 ⟨q, hq⟩; omega
    · have := (u2 x3).1 ⟨q, hq⟩; omega
  cases hn : s.graph.graph.containsNode n with
  | false =>
    rw [C12_set_num_ports_unknown hn (by have := hok.2.1; omega) (by have := hok.2.1; omega)] at e
    cases e
    refine mgrows hM hM' hc rfl (fun x h => (e1 x).2 h) fun p e he => ?_
    have hne : e.1 ≠ n := by
      rintro rfl
      have := at_live ((obs_pos hM).1 he).1
      rw [hn] at this; cases this
    have := t4 p e he fun h => hne h.1
    rwa [t2 p e he hne] at this
  | true =>
    have hmain : s.graph.obs.node n := by
      rcases hok.1 with h | h
      · exact h
      · rw [hn] at h; cases h
    obtain ⟨hnd, hsrc⟩ := C13_reported_once hmax hr hn e
    have htr : ∀ p f, At s.graph.graph p f → PG.track tr p = g1.portIndex f.1 f.2.1 f.2.2 :=
      fun p f h => (C13_track hmax hr hn e (h.endpoint hI)).1
    obtain ⟨d1, d2⟩ := rekeyPorts_clean (d := dp) (L := fun p => ∃ f, s.graph.obs.pos p f) hc.dport hnd (by
      intro q hq
      obtain ⟨⟨n1, d1⟩, hx, hx'⟩ := Option.map_eq_some_iff.1 (hsrc q hq)
      obtain ⟨m, -, -, h1⟩ := port_at hI hx
      simp only at hx'
      subst hx'
      exact ⟨_, (obs_pos hM).2 ⟨h1, (obs_node.1 hmain).2⟩⟩) (fun y hy => hc.port y fun f hf => hy ⟨f, hf⟩)
    refine massemble hM hM' hc.dnode d1 (fun m _ _ => rfl) (fun m h => ?_) (fun p q f h1 h2 => ?_) (fun q h => ?_)
    · exact hc.node m fun h1 => h ⟨h1, (e1 m).2 h1⟩
    · by_cases hcu : Cut n i o f
      · exact absurd h2 (hcut p f h1 hcu q)
      · have h3 := hw'.pos_one _ _ _ (t4 p f h1 hcu) h2
        have h4 := t1 p f h1 hcu
        rw [htr p f ((obs_pos hM).1 h1).1, h3] at h4
        have := (C42_set_num_ports hmax hr hn e s.weights.ports (n' := f.1) (d := f.2.1) (k := f.2.2)
          (at_index.2 ((obs_pos hM).1 h1).1) h4).1
        rw [hc.dport] at this
        exact this
    · refine d2 q ?_
      rintro p ⟨f, hf⟩ ht
      by_cases hcu : Cut n i o f
      · rw [t3 p f hf hcu] at ht; cases ht
      · have h4 := t1 p f hf hcu
        rw [ht] at h4
        cases h4
        exact h p f hf (t4 p f hf hcu)

theorem mnodes_ok (h2m : 2 ≤ maxOff) (hmax : maxOff ≤ 32767) (hg : MReach maxOff s.graph) (hc : MClean dn dp s)
    {m' : MG} {b : Bool} {tr' : List (Nat × Nat)} (hM' : MOk m') (hm : s.graph.compactNodes = some (m', tr'))
    (he : Multi.Effect s.graph.obs m'.obs .compactNodes (.moves tr')) {s' : MBoth N P}
    (hs : s' = ⟨m', follow dn dp s.graph m' s.weights b .compactNodes (.moves tr')⟩) :
    MClean dn dp s' ∧ MEffect dn dp s.graph.obs s'.graph.obs (s.view dn dp) (s'.view dn dp) (.op .compactNodes b) := by
  subst hs
  have hM := hg.ok h2m hmax
  have hr := C39_flat_reach h2m hmax hg
  obtain ⟨⟨g1, tr⟩, e, hx⟩ := Option.map_eq_some_iff.1 hm
  cases hx
  obtain ⟨g2, tr2, e', hcalls, h3, -, -, h6, -⟩ := Follow.compact_calls hmax hr
  rw [e] at e'; cases e'
  obtain ⟨ρ, hren, h4, h5⟩ := he
  have hlen : tr.length = s.graph.graph.nodeCount := by
    obtain ⟨g3, tr3, e3, -, -, h7, -⟩ := C15_compact_nodes hmax hr
    rw [e] at e3; cases e3
    have := congrArg List.length h7; simpa using this
  obtain ⟨d1, d2⟩ := rekeyAll_clean hc.dnode hcalls (fun y _ hy => hc.node y fun h => hy ((h3 y).2 (obs_node.1 h).1))
  have hsh : ∀ x, (shrinkIf b g1.nodeCount (rekeyAll dn s.weights.nodes tr)).get x = (rekeyAll dn s.weights.nodes tr).get x :=
    fun x => get_shrinkIf _ _ _ _ fun hx => by rw [d2 x (by omega), d1]
  have hmv : ∀ x ∈ tr, (rekeyAll dn s.weights.nodes tr).get x.2 = s.weights.nodes.get x.1 :=
    (moves_increasing (moves_rekey dn) tr s.weights.nodes 0 hc.dnode hcalls.inc hcalls.new (by simp)).1
  have hρ : ∀ x ∈ tr, s.graph.obs.node x.1 → ρ x.1 = x.2 := by
    intro x hx hn
    exact (Follow.total_mem hcalls (h4 _ hn)).symm.trans (Follow.total_mem hcalls hx)
  obtain ⟨c, mv, on⟩ := mmoved (s' := ⟨{ s.graph with graph := g1, copy := tr.foldl (fun f y => swapFlag f y.1 y.2) s.graph.copy },
    { s.weights with nodes := shrinkIf b g1.nodeCount (rekeyAll dn s.weights.nodes tr) }⟩) hM hM' hc hren rfl
    (by simp only [default_shrinkIf]; exact d1) (fun n hn => by
      simp only
      rw [hsh]
      exact hmv _ (h4 n hn)) (fun n hn => by
      simp only
      rw [hsh]
      rcases Nat.lt_or_ge n tr.length with hlt | hge
      · have : n ∈ tr.map (·.2) := by rw [hcalls.new, ← List.range_eq_range']; exact List.mem_range.2 hlt
        obtain ⟨x, hx, rfl⟩ := List.mem_map.1 this
        rw [hmv x hx]
        refine hc.node _ fun h => hn ?_
        exact (hren.node _).2 ⟨x.1, h, (hρ x hx h).symm⟩
      · exact d2 n (by omega))
  exact ⟨c, ρ, hren, h5, mv, on⟩

theorem mports_ok (h2m : 2 ≤ maxOff) (hmax : maxOff ≤ 32767) (hg : MReach maxOff s.graph) (hc : MClean dn dp s)
    {m' : MG} {b : Bool} {tr' : List (Nat × Nat)} (hg' : MReach maxOff m') (hm : s.graph.compactPorts = some (m', tr'))
    (he : Multi.Effect s.graph.obs m'.obs .compactPorts (.moves tr')) {s' : MBoth N P}
    (hs : s' = ⟨m', follow dn dp s.graph m' s.weights b .compactPorts (.moves tr')⟩) :
    MClean dn dp s' ∧ s'.view dn dp = (s.view dn dp).only dn dp s'.graph.obs := by
  subst hs
  have hM := hg.ok h2m hmax
  have hM' := hg'.ok h2m hmax
  have hr := C39_flat_reach h2m hmax hg
  have hr' := C39_flat_reach h2m hmax hg'
  obtain ⟨⟨g1, tr⟩, e, hx⟩ := Option.map_eq_some_iff.1 hm
  cases hx
  obtain ⟨g2, tr2, e', -, i2, i3, i4, -, -, -, i6, -⟩ := C16_compact_ports_partial hmax hr
  rw [e] at e'; cases e'
  obtain ⟨π, hren, h4, -⟩ := he
  have hlen : tr.length = s.graph.graph.portCount := by
    have := congrArg List.length i4; simpa using this
  have hcalls : Follow.Calls 0 tr := ⟨i2, by rw [i4, hlen, List.range_eq_range'], fun _ _ => Nat.zero_le _⟩
  obtain ⟨d1, d2⟩ := rekeyAll_clean hc.dport hcalls (fun y _ hy => hc.port y fun f hf => hy ((i3 y).2
    (containsPort_iff.2 (by rw [((obs_pos hM).1 hf).1.port hM.inv]; rfl))))
  have hcnt : g1.portCount = s.graph.graph.portCount := by
    obtain ⟨l, hl1, hl2, hl3, -⟩ := C06_ports_iter hmax hr'
    have : l.Perm (List.range s.graph.graph.portCount) := by
      rw [List.perm_ext_iff_of_nodup (hl2.imp Nat.ne_of_lt) List.nodup_range]
      intro q; rw [hl1, i6, List.mem_range]
    exact hl3.trans (by rw [this.length_eq, List.length_range])
  have hsh : ∀ x, (shrinkIf b g1.portCount (rekeyAll dp s.weights.ports tr)).get x = (rekeyAll dp s.weights.ports tr).get x :=
    fun x => get_shrinkIf _ _ _ _ fun hx => by rw [d2 x (by omega), d1]
  have hmv : ∀ x ∈ tr, (rekeyAll dp s.weights.ports tr).get x.2 = s.weights.ports.get x.1 :=
    (moves_increasing (moves_rekey dp) tr s.weights.ports 0 hc.dport hcalls.inc hcalls.new (by simp)).1
  have hpos : ∀ p f, s.graph.obs.pos p f →
      (MG.obs { s.graph with graph := g1, multi := tr.foldl (fun f y => swapFlag f y.1 y.2) s.graph.multi }).pos (π p) f :=
    fun p f h => (hren.pos _ _).2 ⟨p, f.1, f.2.1, f.2.2, h, rfl, rfl⟩
  refine massemble hM hM' hc.dnode (by simp only [follow, default_shrinkIf]; exact d1) (fun m _ _ => rfl) (fun m h => ?_)
    (fun p q f h1 h2 => ?_) (fun q h => ?_)
  · exact hc.node m fun h1 => h ⟨h1, (hren.node _).2 ⟨m, h1, rfl⟩⟩
  · simp only [follow]
    rw [hsh, ← (obs_wf hM').pos_one _ _ _ (hpos p f h1) h2]
    exact hmv _ (h4 p f h1)
  · simp only [follow]
    rw [hsh]
    rcases Nat.lt_or_ge q tr.length with hlt | hge
    · have : q ∈ tr.map (·.2) := by rw [hcalls.new, ← List.range_eq_range']; exact List.mem_range.2 hlt
      obtain ⟨x, hx, rfl⟩ := List.mem_map.1 this
      rw [hmv x hx]
      refine hc.port _ fun f hf => h _ _ hf ?_
      have : π x.1 = x.2 := (Follow.total_mem hcalls (h4 _ _ hf)).symm.trans (Follow.total_mem hcalls hx)
      rw [← this]; exact hpos _ _ hf
    · exact d2 q (by omega)

theorem mswap_ok (hM : MOk s.graph) (hc : MClean dn dp s) {a c : Nat} {m' : MG} {b : Bool} {r : MRes} (hM' : MOk m')
    (he : Multi.Effect s.graph.obs m'.obs (.swapNodes a c) .none) {s' : MBoth N P}
    (hs : s' = ⟨m', follow dn dp s.graph m' s.weights b (.swapNodes a c) r⟩) :
    MClean dn dp s' ∧ MEffect dn dp s.graph.obs s'.graph.obs (s.view dn dp) (s'.view dn dp) (.op (.swapNodes a c) b) := by
  subst hs
  have hren : s.graph.obs.Rename m'.obs (exchange a c) id := he
  have hex : ∀ n, exchange a c (exchange a c n) = n := Follow.transpose_transpose a c
  have hget : ∀ n, (s.weights.nodes.swap a c).get n = s.weights.nodes.get (exchange a c n) := by
    intro n
    rw [Dense.get_swap]
    unfold exchange
    split <;> rename_i h1
    · rfl
    · split <;> rfl
  have hd : (s.weights.nodes.swap a c).default = s.weights.nodes.default := by
    have := Dense.default_call dn s.weights.nodes (.swap a c)
    simpa only [Dense.call] using this
  obtain ⟨k, mv, on⟩ := mmoved (s' := ⟨m', follow dn dp s.graph m' s.weights b (.swapNodes a c) r⟩) hM hM' hc hren rfl
    (hd.trans hc.dnode) (fun n _ => by simp only [follow]; rw [hget, hex]) (fun n hn => by
      simp only [follow]
      rw [hget]
      exact hc.node _ fun h => hn ((hren.node _).2 ⟨_, h, (hex n).symm⟩))
  exact ⟨k, hren, mv, on⟩

open Classical in
/-- One call: it returns, and the weights change as specified. -/
theorem mstep_ok (h2m : 2 ≤ maxOff) (hmax : maxOff ≤ 32767) (hg : MReach maxOff s.graph) (hc : MClean dn dp s)
    {c : MCall N P} (hok : c.ok maxOff s.graph) : ∃ s', mstep maxOff dn dp s c = some s' ∧ MReach maxOff s'.graph ∧
      MClean dn dp s' ∧ MEffect dn dp s.graph.obs s'.graph.obs (s.view dn dp) (s'.view dn dp) c := by
  have hM := hg.ok h2m hmax
  cases c with
  | setNode n v =>
    have hn : s.graph.obs.node n := hok
    have hd : (s.weights.nodes.set n v).default = s.weights.nodes.default := by
      have := Dense.default_call dn s.weights.nodes (.set n v)
      simpa only [Dense.call] using this
    refine ⟨_, rfl, hg, ⟨hd.trans hc.dnode, hc.dport, fun m hm => ?_, hc.port⟩, rfl, ?_⟩
    · simp only [Weights.setNode, Dense.get_set]
      rw [if_neg (by rintro rfl; exact hm hn)]
      exact hc.node m hm
    · unfold MBoth.view
      congr 1
      funext x
      simp only [Weights.setNode, Weights.node, Dense.get_set]
      by_cases hx : x = n
      · subst hx
        have : s.graph.containsNode x = true := hn
        simp [this]
      · simp [hx]
  | setPort p v =>
    obtain ⟨f, hf⟩ : ∃ f, s.graph.obs.pos p f := by
      obtain ⟨f, hf⟩ := (port_vat hM).1 hok
      exact ⟨f, (obs_pos hM).2 hf⟩
    have hd : (s.weights.ports.set p v).default = s.weights.ports.default := by
      have := Dense.default_call dp s.weights.ports (.set p v)
      simpa only [Dense.call] using this
    refine ⟨⟨s.graph, s.weights.setPort p v⟩, rfl, hg, ⟨hc.dnode, hd.trans hc.dport, hc.node, fun q hq => ?_⟩, rfl, ?_⟩
    · simp only [Weights.setPort, Dense.get_set]
      rw [if_neg (by rintro rfl; exact hq _ hf)]
      exact hc.port q hq
    · have key : ∀ e, (MBoth.view dn dp ⟨s.graph, s.weights.setPort p v⟩).port e =
          if s.graph.obs.pos p e then v else (s.view dn dp).port e := by
        intro e
        by_cases he : ∃ q, s.graph.obs.pos q e
        · obtain ⟨q, hq⟩ := he
          rw [view_pos (s := ⟨s.graph, s.weights.setPort p v⟩) hM hq, view_pos hM hq]
          simp only [Weights.setPort, Dense.get_set]
          by_cases hqp : q = p
          · subst hqp; rw [if_pos rfl, if_pos hq]
          · rw [if_neg hqp, if_neg]
            intro h; exact hqp ((obs_wf hM).pos_one _ _ _ hq h)
        · rw [view_nopos (s := ⟨s.graph, s.weights.setPort p v⟩) hM fun q hq => he ⟨q, hq⟩,
            view_nopos hM fun q hq => he ⟨q, hq⟩, if_neg]
          intro h; exact he ⟨p, h⟩
      exact AW.mk.injEq .. ▸ ⟨rfl, funext key⟩
  | op a b =>
    obtain ⟨r, m', h1, he, hg'⟩ := C39_calls_partial h2m hmax hg hok
    have hM' := hg'.ok h2m hmax
    refine ⟨⟨m', follow dn dp s.graph m' s.weights b a r⟩, by simp only [mstep, h1, Option.map_some], hg', ?_⟩
    cases a with
    | addNode i o =>
      cases r <;> try exact he.elim
      obtain ⟨e1, e2, e3, -⟩ := he
      exact mgrows hM hM' hc rfl (fun x h => (e2 x).2 (.inr h)) fun p f h => (e3 p f (fun h' => e1 (by
        rw [← h']; exact (obs_wf hM).pos_node _ _ h))).2 h
    | removeNode n =>
      cases r <;> try exact he.elim
      exact mremove_ok hM hc hM' he rfl
    | linkPorts x y =>
      cases r <;> try exact he.elim
      obtain ⟨e1, e2, -⟩ := he
      exact mgrows hM hM' hc rfl (fun x h => (e1 x).2 h) fun p f h => (e2 p f).2 h
    | unlinkPort x =>
      cases r <;> try exact he.elim
      obtain ⟨e1, e2, -⟩ := he
      exact mgrows hM hM' hc rfl (fun x h => (e1 x).2 h) fun p f h => (e2 p f).2 h
    | setNumPorts n i o =>
      cases r <;> try exact he.elim
      obtain ⟨⟨m1, tr⟩, h4, h5⟩ := Option.map_eq_some_iff.1 h1
      cases h5
      exact mset_ok h2m hmax hg hc hM' hok h4 he rfl
    | compactNodes =>
      cases r <;> try exact he.elim
      obtain ⟨⟨m1, tr⟩, h4, h5⟩ := Option.map_eq_some_iff.1 h1
      cases h5
      exact mnodes_ok h2m hmax hg hc hM' h4 he rfl
    | compactPorts =>
      cases r <;> try exact he.elim
      obtain ⟨⟨m1, tr⟩, h4, h5⟩ := Option.map_eq_some_iff.1 h1
      cases h5
      exact mports_ok h2m hmax hg hc hg' h4 he rfl
    | swapNodes x y =>
      cases r <;> try exact he.elim
      exact mswap_ok hM hc hM' he rfl
    | clear =>
      cases r <;> try exact he.elim
      obtain ⟨e1, e2, -⟩ := he
      exact massemble hM hM' rfl rfl (fun n _ h => absurd h (e1 n)) (fun n _ => rfl) (fun p q f _ h => absurd h (e2 q f)) fun q _ => rfl
    | linkSubports x y =>
      cases r <;> try exact he.elim
      obtain ⟨e1, e2, -⟩ := he
      exact mgrows hM hM' hc rfl (fun x h => (e1 x).2 h) fun p f h => (e2 p f).2 h
    | unlinkSubport x =>
      cases r <;> try exact he.elim
      obtain ⟨e1, e2, -⟩ := he
      exact mgrows hM hM' hc rfl (fun x h => (e1 x).2 h) fun p f h => (e2 p f).2 h

/-- **C89** One call: it returns, the multigraph changes as specified for it alone, and the weights change as specified.
Partial: with the `rekey` callbacks, removing the weights of a removed node and its ports, and shrinking only after a
compaction and to the counts that include helpers; for calls that the multigraph accepts (`MCall.ok`). -/
theorem C89_step_partial (h2m : 2 ≤ maxOff) (hmax : maxOff ≤ 32767) (hg : MReach maxOff s.graph) (hc : MClean dn dp s)
    {c : MCall N P} (hok : c.ok maxOff s.graph) : ∃ s', mstep maxOff dn dp s c = some s' ∧ MReach maxOff s'.graph ∧
      MClean dn dp s' ∧
      (∀ a b, c = .op a b → ∃ r, s.graph.step maxOff a = some (r, s'.graph) ∧ Multi.Effect s.graph.obs s'.graph.obs a r) ∧
      MEffect dn dp s.graph.obs s'.graph.obs (s.view dn dp) (s'.view dn dp) c := by
  obtain ⟨s', h1, h2, h3, h4⟩ := mstep_ok h2m hmax hg hc hok
  refine ⟨s', h1, h2, h3, ?_, h4⟩
  rintro a b rfl
  obtain ⟨r, m', e1, e2, -⟩ := C39_calls_partial h2m hmax hg hok
  simp only [mstep, e1, Option.map_some, Option.some.injEq] at h1
  subst h1
  exact ⟨r, e1, e2⟩

/-- **C89** Any history: every slot that belongs to no node and no port that is shown holds the default weight, in particular
the slots of helpers, and the next call returns with the specified effect. Partial as `C89_step_partial`. -/
theorem C89_history_partial (h2m : 2 ≤ maxOff) (hmax : maxOff ≤ 32767) (h : WReach maxOff dn dp s) :
    MReach maxOff s.graph ∧
    (∀ n, s.graph.containsNode n = false → s.weights.node n = dn) ∧
    (∀ p, s.graph.containsPort p = false → s.weights.port p = dp) ∧
    ∀ c : MCall N P, c.ok maxOff s.graph → ∃ s', mstep maxOff dn dp s c = some s' ∧
      (∀ a b, c = .op a b → ∃ r, s.graph.step maxOff a = some (r, s'.graph) ∧ Multi.Effect s.graph.obs s'.graph.obs a r) ∧
      MEffect dn dp s.graph.obs s'.graph.obs (s.view dn dp) (s'.view dn dp) c := by
  have key : MReach maxOff s.graph ∧ MClean dn dp s := by
    induction h with
    | init hg => exact ⟨.init hg, rfl, rfl, fun _ _ => rfl, fun _ _ => rfl⟩
    | step _ hok he ih =>
      obtain ⟨s', h1, h2, h3, -⟩ := mstep_ok h2m hmax ih.1 ih.2 hok
      rw [he] at h1
      cases h1
      exact ⟨h2, h3⟩
  refine ⟨key.1, fun n hn => key.2.node n fun h => ?_, fun p hp => key.2.port p fun e he => ?_, fun c hok => ?_⟩
  · have h' : s.graph.containsNode n = true := h
    rw [hn] at h'; cases h'
  · have := he.1
    rw [hp] at this; cases this
  · obtain ⟨s', h1, -, -, h4, h5⟩ := C89_step_partial h2m hmax key.1 key.2 hok
    exact ⟨s', h1, h4, h5⟩

end

/-- Calls one after another. -/
def mrun (s : MBoth Nat Nat) : List (MCall Nat Nat) → Option (MBoth Nat Nat)
  | [] => some s
  | c :: cs => (mstep 32767 0 0 s c).bind fun s => mrun s cs

/-- Two nodes with two links, and a third node with weight 7 that is added afterwards, behind the two helpers. -/
def exM : MBoth Nat Nat :=
  (mrun ⟨MG.ofGraph PG.empty, .new 0 0⟩ [.op (.addNode 0 1) false, .op (.addNode 1 0) false, .op (.linkPorts 0 1) false,
    .op (.linkPorts 0 1) false, .op (.addNode 1 0) false, .setNode 4 7, .setPort 8 9]).getD ⟨MG.ofGraph PG.empty, .new 0 0⟩

/-- **C89 fails** for the documented shrinking to `node_count()` and `port_count()` (`src/weights.rs` lines 36–39), even after
both compactions: these do not count helpers, and a node behind the helpers loses its weight. Nothing is lost when all nodes are
counted. -/
theorem C89_witness_counts : exM.graph.nodes = [0, 1, 4] ∧ exM.graph.nodeCount = 3 ∧ exM.weights.node 4 = 7 ∧
    ((mrun exM [.op .compactNodes false, .op .compactPorts false]).map fun s =>
      (s.graph.nodes, s.weights.node 4, (s.weights.nodes.shrinkTo s.graph.nodeCount).get 4,
        s.graph.portsIter, s.weights.port 8, (s.weights.ports.shrinkTo s.graph.portCount).get 8)) =
      some ([0, 1, 4], 7, 0, [0, 1, 8], 9, 0) ∧
    ((mrun exM [.op .compactNodes true, .op .compactPorts true]).map fun s => (s.weights.node 4, s.weights.port 8)) =
      some (7, 9) := by
  decide +kernel

theorem wreach_step {s : MBoth Nat Nat} (h : WReach 32767 0 0 s) (c : MCall Nat Nat) (hok : c.ok 32767 s.graph)
    (hs : (mstep 32767 0 0 s c).isSome = true) : WReach 32767 0 0 ((mstep 32767 0 0 s c).getD ⟨MG.ofGraph PG.empty, .new 0 0⟩) := by
  obtain ⟨s', e⟩ := Option.isSome_iff_exists.1 hs
  rw [e]
  exact .step h hok e

theorem room_of_two {m : MG} {p : Nat} {L : List Subport} (h : m.subportsAt? p = some L) (hl : L.length ≤ 32766) : m.room p := by
  intro L' hL
  rw [h] at hL
  cases hL
  exact .inl hl

theorem exM_reach : WReach 32767 0 0 exM := by
  have h1 := wreach_step (.init .init) (.op (.addNode 0 1) false) ⟨by decide, by decide⟩ (by decide +kernel)
  have h2 := wreach_step h1 (.op (.addNode 1 0) false) ⟨by decide, by decide⟩ (by decide +kernel)
  have h3 := wreach_step h2 (.op (.linkPorts 0 1) false) ⟨by decide +kernel, by decide +kernel,
    room_of_two (L := [(0, 0)]) (by decide +kernel) (by decide), room_of_two (L := [(1, 0)]) (by decide +kernel) (by decide)⟩
    (by decide +kernel)
  have h4 := wreach_step h3 (.op (.linkPorts 0 1) false) ⟨by decide +kernel, by decide +kernel,
    room_of_two (L := [(0, 0)]) (by decide +kernel) (by decide), room_of_two (L := [(1, 0)]) (by decide +kernel) (by decide)⟩
    (by decide +kernel)
  have h5 := wreach_step h4 (.op (.addNode 1 0) false) ⟨by decide, by decide⟩ (by decide +kernel)
  have h6 := wreach_step h5 (.setNode 4 7) (by simp only [MCall.ok]; decide +kernel) (by decide +kernel)
  exact wreach_step h6 (.setPort 8 9) (by simp only [MCall.ok]; decide +kernel) (by decide +kernel)

example := C89_history_partial (by decide) (by decide) exM_reach
example := (C89_history_partial (by decide) (by decide) exM_reach).2.2.2 (.op .compactNodes true) trivial
example := C89_step_partial (dn := 0) (dp := 0) (maxOff := 32767) (s := ⟨MG.ofGraph PG.empty, .new 0 0⟩) (c := .op (.addNode 3 3) false)
  (by decide) (by decide) (.init .init) ⟨rfl, rfl, fun _ _ => rfl, fun _ _ => rfl⟩ ⟨by decide, by decide⟩

#print axioms C89_step_partial
#print axioms C89_history_partial
#print axioms C89_witness_counts

end Verif.Weights
