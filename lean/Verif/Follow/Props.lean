import Verif.Follow.Lemmas
import Verif.PortGraph.PropsOps
import Verif.PortGraph.PropsSet
import Verif.PortGraph.PropsQuery
import Verif.PortGraph.NodeSlots

/-!
# C87 A hierarchy follows its graph

Specification: `InUse` (a node has a parent or children), and all nodes in use are nodes of the graph.
-/

namespace Verif.Follow

open Verif.Hier Verif.PG

/-- All nodes with a place in the hierarchy are nodes of the graph. -/
def Follows (g : PG) (h : Hierarchy) : Prop := ∀ n, InUse h.kids n → g.containsNode n = true

/-- The node is in use and keeps its index when the graph is compacted: all indices below are taken. -/
def Stays (g : PG) (h : Hierarchy) (n : Nat) : Prop := InUse h.kids n ∧ ∀ m, m ≤ n → g.containsNode m = true

theorem live_iff_counts {g : PG} {n : Nat} : g.containsNode n = true ↔ (g.abs.counts n).isSome := by
  rw [containsNode_iff, abs_counts]; simp

theorem live_lt {g : PG} {n : Nat} (h : g.containsNode n = true) : n < g.nodeMeta.length :=
  PG.node?_lt (containsNode_iff.1 h)

theorem live_renamed {ρ : Nat → Nat} {g g' : PG} (h : AGraph.Renamed ρ g.abs g'.abs) {n : Nat} :
    g'.containsNode n = true ↔ ∃ a, ρ a = n ∧ g.containsNode a = true := by
  simp only [live_iff_counts, Option.isSome_iff_exists, h.counts]
  constructor
  · rintro ⟨c, a, h1, h2⟩; exact ⟨a, h1, c, h2⟩
  · rintro ⟨a, h1, c, h2⟩; exact ⟨c, a, h1, h2⟩

/-- What `compact_nodes` reports, in the form used here. -/
theorem compact_calls {maxOff : Nat} (hmax : maxOff ≤ 32767) {g : PG} (hg : PG.Reach maxOff g) :
    ∃ g' tr, g.compactNodes = some (g', tr) ∧ Calls 0 tr ∧ (∀ n, n ∈ tr.map (·.1) ↔ g.containsNode n = true) ∧
      (∀ ρ, (∀ x ∈ tr, ρ x.1 = x.2) → AGraph.Renamed ρ g.abs g'.abs) ∧
      (∀ x ∈ tr, x.2 < g'.nodeCount) ∧ g'.nodeCount = g.nodeCount ∧ PG.Reach maxOff g' := by
  obtain ⟨g', tr, h1, h2, h3, h4, h5, -, h6, -⟩ := C15_compact_nodes hmax hg
  have hl : tr.length = g.nodeCount := by
    have := congrArg List.length h4
    simpa using this
  refine ⟨g', tr, h1, ⟨h2, by rw [h4, hl, List.range_eq_range'], fun _ _ => Nat.zero_le _⟩, h3, fun ρ hρ => (h5 ρ hρ).1, ?_, h6,
    .step (op := .compactNodes) hg trivial (by simp [PG.step, h1])⟩
  intro x hx
  have : x.2 ∈ tr.map (·.2) := List.mem_map_of_mem hx
  rw [h4] at this
  rw [h6]
  exact List.mem_range.1 this

theorem calls_lt {g : PG} {tr : List (Nat × Nat)} (hlen : g.nodeMeta.length ≤ 2 ^ 31)
    (hm : ∀ n, n ∈ tr.map (·.1) ↔ g.containsNode n = true) : ∀ x ∈ tr, x.1 < 2 ^ 31 := by
  intro x hx
  have := live_lt ((hm x.1).1 (List.mem_map_of_mem hx))
  omega

theorem Calls.le {tr : List (Nat × Nat)} : ∀ {s : Nat}, Calls s tr → ∀ x ∈ tr, x.2 ≤ x.1 := by
  induction tr with
  | nil => intro s _ x hx; cases hx
  | cons y tr ih =>
    intro s hc x hx
    obtain ⟨c1, c2, c3, c4⟩ := hc.head
    rcases List.mem_cons.1 hx with rfl | hx
    · omega
    · exact ih c4 x hx

theorem stays_iff {g : PG} {h : Hierarchy} {tr : List (Nat × Nat)} (hc : Calls 0 tr)
    (hm : ∀ n, n ∈ tr.map (·.1) ↔ g.containsNode n = true) :
    (∃ n, Stays g h n) ↔ ∃ x ∈ tr, x.1 = x.2 ∧ InUse h.kids x.1 := by
  constructor
  · rintro ⟨n, hu, hl⟩
    obtain ⟨x, hx, rfl⟩ := List.mem_map.1 ((hm n).2 (hl n (Nat.le_refl _)))
    exact ⟨x, hx, (hc.keeps hx).2 fun m _ h2 => (hm m).2 (hl m h2), hu⟩
  · rintro ⟨x, hx, he, hu⟩
    exact ⟨x.1, hu, fun m h2 => (hm m).1 ((hc.keeps hx).1 he m (Nat.zero_le _) h2)⟩

/-- The result of moving everything: names and children are those of the graph, and nothing is cut off. -/
theorem moved_follows {g g' : PG} {h h' : Hierarchy} {tr : List (Nat × Nat)}
    (hc : Calls 0 tr) (hm : ∀ n, n ∈ tr.map (·.1) ↔ g.containsNode n = true)
    (hren : ∀ ρ, (∀ x ∈ tr, ρ x.1 = x.2) → AGraph.Renamed ρ g.abs g'.abs) (hlt : ∀ x ∈ tr, x.2 < g'.nodeCount)
    (hf : Follows g h) (hr : Hier.Reach h') (hk : Moved (total tr) h.kids h'.kids) (extra : Nat) :
    (∀ ρ, (∀ x ∈ tr, ρ x.1 = x.2) → ∀ n, g.containsNode n = true → h'.kids (ρ n) = (h.kids n).map ρ) ∧
    Follows g' h' ∧
    ∃ h'', h'.shrinkTo (h'.data.data.length + extra) g'.nodeCount = some h'' ∧ Hier.Reach h'' ∧ h''.kids = h'.kids := by
  have htot : ∀ n, g.containsNode n = true → ∃ x ∈ tr, x.1 = n ∧ total tr n = x.2 := by
    intro n hn
    obtain ⟨x, hx, rfl⟩ := List.mem_map.1 ((hm n).2 hn)
    exact ⟨x, hx, rfl, total_mem hc hx⟩
  have huse : ∀ n, InUse h'.kids n → ∃ x ∈ tr, n = x.2 := by
    intro n hn
    obtain ⟨a, rfl⟩ := total_surj tr n
    obtain ⟨x, hx, -, e⟩ := htot a (hf a ((inUse_moved (fun _ _ => total_inj) (total_surj tr) hk).1 hn))
    exact ⟨x, hx, e⟩
  have hless : ∀ n, InUse h'.kids n → n < g'.nodeCount := by
    intro n hn
    obtain ⟨x, hx, rfl⟩ := huse n hn
    exact hlt x hx
  refine ⟨?_, ?_, ?_⟩
  · intro ρ hρ n hn
    have he : ∀ m, g.containsNode m = true → ρ m = total tr m := by
      intro m h1
      obtain ⟨x, hx, rfl, e⟩ := htot m h1
      rw [e, hρ x hx]
    rw [he n hn, hk n]
    exact List.map_congr_left fun m h1 => (he m (hf m (.inl ⟨n, h1⟩))).symm
  · intro n hn
    obtain ⟨x, hx, rfl⟩ := huse n hn
    rw [live_renamed (hren (total tr) fun y hy => total_mem hc hy)]
    exact ⟨x.1, total_mem hc hx, (hm _).1 (List.mem_map_of_mem hx)⟩
  · obtain ⟨h'', e, k⟩ := (C24_calls_partial hr (op := .shrinkTo extra g'.nodeCount) trivial).2 _ _ rfl
    obtain ⟨h2, e1, e2⟩ := Option.map_eq_some_iff.1 e
    cases e2
    refine ⟨h'', e1, .step hr (op := .shrinkTo extra g'.nodeCount) trivial e, ?_⟩
    rw [k]
    funext p
    unfold Kids.cut
    split
    · rw [List.filter_eq_self]
      intro a ha
      simpa using hless a (.inl ⟨p, ha⟩)
    · rename_i hp
      by_cases h0 : h'.kids p = []
      · exact h0.symm
      · exact absurd (hless p (.inr h0)) hp

/-- **C87** The callback of the documentation panics exactly if a node with a place in the hierarchy
keeps its index. -/
theorem C87_rekey_iff {maxOff : Nat} (hmax : maxOff ≤ 32767) {g : PG} (hg : PG.Reach maxOff g) {h : Hierarchy}
    (hh : Hier.Reach h) (hlen : g.nodeMeta.length ≤ 2 ^ 31) (hf : Follows g h) :
    ∃ g' tr, g.compactNodes = some (g', tr) ∧ (rekeyAll h tr = none ↔ ∃ n, Stays g h n) := by
  obtain ⟨g', tr, h1, hc, hm, -, -⟩ := compact_calls hmax hg
  refine ⟨g', tr, h1, ?_⟩
  have hb := calls_lt hlen hm
  rw [stays_iff hc hm]
  constructor
  · intro hn
    by_contra hno
    obtain ⟨h', e, -⟩ := rekey_run hh hc hb (fun n _ hu => (hm n).2 (hf n hu))
      (fun x hx he hu => hno ⟨x, hx, he, hu⟩)
    rw [e] at hn; cases hn
  · rintro ⟨x, hx, he, hu⟩
    exact rekey_stuck hh hc hb hx he hu

/-- **C87** Otherwise the documented calls return, and every child list is that of the graph before
with all nodes renamed as in the graph. Missing for the full claim: the nodes that keep their
index, for which it is false (`C87_rekey_iff`). -/
theorem C87_rekey_partial {maxOff : Nat} (hmax : maxOff ≤ 32767) {g : PG} (hg : PG.Reach maxOff g) {h : Hierarchy}
    (hh : Hier.Reach h) (hlen : g.nodeMeta.length ≤ 2 ^ 31) (hf : Follows g h) (hno : ∀ n, ¬ Stays g h n) (extra : Nat) :
    ∃ g' tr h', g.compactNodes = some (g', tr) ∧ compact ⟨g, h⟩ false extra = some ⟨g', h'⟩ ∧ PG.Reach maxOff g' ∧
      Hier.Reach h' ∧ Follows g' h' ∧
      ∀ ρ, (∀ x ∈ tr, ρ x.1 = x.2) → AGraph.Renamed ρ g.abs g'.abs ∧
        ∀ n, g.containsNode n = true → h'.kids (ρ n) = (h.kids n).map ρ := by
  obtain ⟨g', tr, h1, hc, hm, hren, hlt, -, hr'⟩ := compact_calls hmax hg
  have hs := (not_congr (stays_iff (h := h) hc hm)).1 fun ⟨n, hn⟩ => hno n hn
  obtain ⟨h2, e, r2, k2⟩ := rekey_run hh hc (calls_lt hlen hm) (fun n _ hu => (hm n).2 (hf n hu))
    (fun x hx he hu => hs ⟨x, hx, he, hu⟩)
  obtain ⟨m1, m2, h3, e3, r3, k3⟩ := moved_follows hc hm hren hlt hf r2 k2 extra
  refine ⟨g', tr, h3, h1, by simp [compact, h1, e, e3], hr', r3, ?_, fun ρ hρ => ⟨hren ρ hρ, ?_⟩⟩
  · intro n hn; rw [k3] at hn; exact m2 n hn
  · rw [k3]; exact m1 ρ hρ

/-- **C87** With `swap_nodes` as the callback the same holds without exception. -/
theorem C87_swap {maxOff : Nat} (hmax : maxOff ≤ 32767) {g : PG} (hg : PG.Reach maxOff g) {h : Hierarchy}
    (hh : Hier.Reach h) (hlen : g.nodeMeta.length ≤ 2 ^ 31) (hf : Follows g h) (extra : Nat) :
    ∃ g' tr h', g.compactNodes = some (g', tr) ∧ compact ⟨g, h⟩ true extra = some ⟨g', h'⟩ ∧ PG.Reach maxOff g' ∧
      Hier.Reach h' ∧ Follows g' h' ∧
      ∀ ρ, (∀ x ∈ tr, ρ x.1 = x.2) → AGraph.Renamed ρ g.abs g'.abs ∧
        ∀ n, g.containsNode n = true → h'.kids (ρ n) = (h.kids n).map ρ := by
  obtain ⟨g', tr, h1, hc, hm, hren, hlt, -, hr'⟩ := compact_calls hmax hg
  have hb := calls_lt hlen hm
  obtain ⟨h2, e, r2, k2⟩ := swap_run (tr := tr) hh fun x hx => ⟨hb x hx, by have := hc.le x hx; have := hb x hx; omega⟩
  obtain ⟨m1, m2, h3, e3, r3, k3⟩ := moved_follows hc hm hren hlt hf r2 k2 extra
  refine ⟨g', tr, h3, h1, by simp [compact, h1, e, e3], hr', r3, ?_, fun ρ hρ => ⟨hren ρ hρ, ?_⟩⟩
  · intro n hn; rw [k3] at hn; exact m2 n hn
  · rw [k3]; exact m1 ρ hρ

/-- **C87** Removing a node in both: the graph and the forest lose it, and its children become roots. -/
theorem C87_remove {maxOff : Nat} (hmax : maxOff ≤ 32767) {g : PG} (hg : PG.Reach maxOff g) {h : Hierarchy}
    (hh : Hier.Reach h) (hf : Follows g h) {n : Nat} (hn : n < 2 ^ 31) :
    ∃ g' h', step maxOff ⟨g, h⟩ (.removeNode n) = some ⟨g', h'⟩ ∧ PG.Reach maxOff g' ∧ Hier.Reach h' ∧ Follows g' h' ∧
      (∀ m, g'.containsNode m = true ↔ g.containsNode m = true ∧ m ≠ n) ∧ ¬ InUse h'.kids n ∧
      ∀ m, m ≠ n → h'.kids m = (h.kids m).filter (· ≠ n) := by
  obtain ⟨h', e, k⟩ := (C24_calls_partial hh (op := .remove n) hn).2 _ _ rfl
  have hr' : Hier.Reach h' := .step hh (op := .remove n) hn e
  obtain ⟨h1, e1, e2⟩ := Option.map_eq_some_iff.1 e
  cases e2
  have hg' : ∃ g', g.removeNode n = some g' ∧ ∀ m, g'.containsNode m = true ↔ g.containsNode m = true ∧ m ≠ n := by
    cases hc : g.containsNode n with
    | false =>
      refine ⟨g, C09_remove_node_unknown hc, fun m => ⟨fun hm => ⟨hm, ?_⟩, fun hm => hm.1⟩⟩
      rintro rfl; rw [hc] at hm; cases hm
    | true =>
      obtain ⟨g', e, ha, -⟩ := C09_remove_node hmax hg hc
      refine ⟨g', e, fun m => ?_⟩
      rw [live_iff_counts, live_iff_counts, ha]
      simp only [AGraph.remove]
      split <;> simp_all
  obtain ⟨g', eg, hl⟩ := hg'
  have hnu : ¬ InUse h'.kids n := by
    rw [k]
    rintro (⟨p, hp⟩ | hp)
    · simp [Kids.erase] at hp
    · simp [Kids.erase, Kids.set] at hp
  have hkm : ∀ m, m ≠ n → h'.kids m = (h.kids m).filter (· ≠ n) := by
    intro m hm; rw [k]; simp [Kids.erase, Kids.set, hm]
  refine ⟨g', h', by simp [step, eg, e1], .step (op := .removeNode n) hg trivial eg, hr', ?_, hl, hnu, hkm⟩
  intro m hm
  refine (hl m).2 ⟨hf m ?_, ?_⟩
  · rcases hm with ⟨p, hp⟩ | hp
    · by_cases hpn : p = n
      · subst hpn; exact absurd (.inr fun e => by rw [e] at hp; cases hp) hnu
      · rw [hkm p hpn] at hp
        exact .inl ⟨p, (List.mem_filter.1 hp).1⟩
    · by_cases hpn : m = n
      · subst hpn; exact absurd (.inr hp) hnu
      · right; intro e; rw [hkm m hpn, e] at hp; exact hp rfl
  · rintro rfl; exact hnu hm

/-- The calls of the hierarchy alone, where only nodes in `L` are attached. -/
def treeOk (L : Nat → Prop) : Hier.Op → Prop
  | .pushChild n p | .pushFrontChild n p => n ≠ p ∧ L n ∧ L p
  | .insertBefore n b | .insertAfter n b => L n ∧ L b
  | .detach n | .detachChildren n => n < 2 ^ 31
  | .ensureCapacity _ _ => True
  | _ => False

/-- The calls of a history: what the methods themselves ask (`PG.Op.ok`, `Hier.Op.ok`), that only nodes of the
graph are attached, and for the documented callback that no node in use keeps its index. -/
def Call.ok (maxOff : Nat) (s : Both) : Call → Prop
  | .addNode i o => i ≤ maxOff ∧ o ≤ maxOff
  | .removeNode n => n < 2 ^ 31
  | .swapNodes a b => s.graph.swappable a b = true
  | .compact swap _ => swap = true ∨ ∀ n, ¬ Stays s.graph s.tree n
  | .ports op => PG.Op.ok maxOff s.graph op ∧
    match op with
    | .linkPorts _ _ | .unlinkPort _ | .setNumPorts _ _ _ | .compactPorts => True
    | _ => False
  | .tree op => treeOk (s.graph.containsNode · = true) op

/-- The pairs that arise by such calls, as long as the graph has at most `2^31` node slots (`src/index.rs`). -/
inductive Reach (maxOff : Nat) : Both → Prop where
  | init : Reach maxOff ⟨PG.empty, .new⟩
  | step {s s' : Both} {c : Call} : Reach maxOff s → s.graph.nodeMeta.length ≤ 2 ^ 31 → Call.ok maxOff s c →
      Follow.step maxOff s c = some s' → Reach maxOff s'

theorem inUse_set {K : Kids} {p m : Nat} {l : List Nat} (h : InUse (K.set p l) m) : InUse K m ∨ m = p ∨ m ∈ l := by
  rcases h with ⟨q, hq⟩ | hq
  · unfold Kids.set at hq
    split at hq
    · exact .inr (.inr hq)
    · exact .inl (.inl ⟨q, hq⟩)
  · unfold Kids.set at hq
    split at hq
    · rename_i h; exact .inr (.inl h)
    · exact .inl (.inr hq)

theorem inUse_erase {K : Kids} {n m : Nat} (h : InUse (K.erase n) m) : InUse K m := by
  rcases h with ⟨q, hq⟩ | hq
  · exact .inl ⟨q, (List.mem_filter.1 hq).1⟩
  · right; intro e; apply hq; simp [Kids.erase, e]

theorem mem_putBefore {n b x : Nat} : ∀ {l : List Nat}, x ∈ putBefore n b l → x = n ∨ x ∈ l
  | [], h => by cases h
  | y :: l, h => by
    unfold putBefore at h
    split at h
    · simpa using h
    · rcases List.mem_cons.1 h with rfl | h
      · simp
      · rcases mem_putBefore h with h | h <;> simp [h]

theorem mem_putAfter {n b x : Nat} : ∀ {l : List Nat}, x ∈ putAfter n b l → x = n ∨ x ∈ l
  | [], h => by cases h
  | y :: l, h => by
    unfold putAfter at h
    split at h
    · simp at h ⊢; grind
    · rcases List.mem_cons.1 h with rfl | h
      · simp
      · rcases mem_putAfter h with h | h <;> simp [h]

theorem parent_mem {K : Kids} {b p : Nat} (h : K.parent b = some p) : b ∈ K p := by
  unfold Kids.parent at h
  split at h
  · rename_i ha; cases h; exact Classical.choose_spec ha
  · cases h

/-- Calls of the hierarchy on nodes of the graph: what is in use afterwards. -/
theorem tree_uses {L : Nat → Prop} {h : Hierarchy} {op : Hier.Op} (hf : ∀ n, InUse h.kids n → L n) (hok : treeOk L op) : ∃ r K, spec h.kids op = some (r, K) ∧
      ∀ m, InUse K m → L m := by
  have hset : ∀ {n p : Nat} {l : List Nat}, L n → L p →
      (∀ x ∈ l, x = n ∨ x ∈ h.kids p) → ∀ m, InUse (h.kids.set p l) m → L m := by
    intro n p l hn hp hl m hm
    rcases inUse_set hm with hm | rfl | hm
    · exact hf m hm
    · exact hp
    · rcases hl m hm with rfl | hm
      · exact hn
      · exact hf m (.inl ⟨p, hm⟩)
  cases op with
  | pushChild n p =>
    obtain ⟨-, hn, hp⟩ := hok
    unfold spec; simp only
    split
    · exact ⟨_, _, rfl, hf⟩
    split
    · exact ⟨_, _, rfl, hf⟩
    · exact ⟨_, _, rfl, hset hn hp fun x hx => by simp at hx; grind⟩
  | pushFrontChild n p =>
    obtain ⟨-, hn, hp⟩ := hok
    unfold spec; simp only
    split
    · exact ⟨_, _, rfl, hf⟩
    split
    · exact ⟨_, _, rfl, hf⟩
    · exact ⟨_, _, rfl, hset hn hp fun x hx => by simpa using hx⟩
  | insertBefore n b =>
    obtain ⟨hn, hb⟩ := hok
    unfold spec; simp only
    split
    · exact ⟨_, _, rfl, hf⟩
    split
    · exact ⟨_, _, rfl, hf⟩
    rename_i p hp
    split
    · exact ⟨_, _, rfl, hf⟩
    · exact ⟨_, _, rfl, hset hn (hf p (.inr fun e => by have := parent_mem hp; rw [e] at this; cases this)) fun x hx => mem_putBefore hx⟩
  | insertAfter n b =>
    obtain ⟨hn, hb⟩ := hok
    unfold spec; simp only
    split
    · exact ⟨_, _, rfl, hf⟩
    split
    · exact ⟨_, _, rfl, hf⟩
    rename_i p hp
    split
    · exact ⟨_, _, rfl, hf⟩
    · exact ⟨_, _, rfl, hset hn (hf p (.inr fun e => by have := parent_mem hp; rw [e] at this; cases this)) fun x hx => mem_putAfter hx⟩
  | detach n => exact ⟨_, _, rfl, fun m hm => hf m (inUse_erase hm)⟩
  | detachChildren n =>
    refine ⟨_, _, rfl, fun m hm => hf m ?_⟩
    rcases hm with ⟨q, hq⟩ | hq
    · unfold Kids.set at hq
      split at hq
      · cases hq
      · exact .inl ⟨q, hq⟩
    · unfold Kids.set at hq
      split at hq
      · exact absurd rfl hq
      · exact .inr hq
  | ensureCapacity e c => exact ⟨_, _, rfl, hf⟩
  | remove n => exact hok.elim
  | swapNodes a b => exact hok.elim
  | rekey a b => exact hok.elim
  | shrinkTo e c => exact hok.elim

theorem tree_follows {maxOff : Nat} {g : PG} {h : Hierarchy} {op : Hier.Op} (hf : Follows g h)
    (hok : Call.ok maxOff ⟨g, h⟩ (.tree op)) : ∃ r K, spec h.kids op = some (r, K) ∧
      ∀ m, InUse K m → g.containsNode m = true := tree_uses hf hok

theorem treeOk_ok {L : Nat → Prop} {op : Hier.Op} (hl : ∀ n, L n → n < 2 ^ 31) (hok : treeOk L op) : op.ok := by
  cases op with
  | pushChild n p => exact ⟨hl n hok.2.1, hl p hok.2.2, hok.1⟩
  | pushFrontChild n p => exact ⟨hl n hok.2.1, hl p hok.2.2, hok.1⟩
  | insertBefore n b => exact ⟨hl n hok.1, hl b hok.2⟩
  | insertAfter n b => exact ⟨hl n hok.1, hl b hok.2⟩
  | detach n => exact hok
  | detachChildren n => exact hok
  | ensureCapacity e c => trivial
  | remove n => exact hok.elim
  | swapNodes a b => exact hok.elim
  | rekey a b => exact hok.elim
  | shrinkTo e c => exact hok.elim

theorem tree_ok {maxOff : Nat} {g : PG} {h : Hierarchy} {op : Hier.Op} (hlen : g.nodeMeta.length ≤ 2 ^ 31)
    (hok : Call.ok maxOff ⟨g, h⟩ (.tree op)) : op.ok :=
  treeOk_ok (L := (g.containsNode · = true)) (fun n hn => by have := live_lt hn; omega) hok

theorem ports_live {maxOff : Nat} (hmax : maxOff ≤ 32767) {g g' : PG} (hg : PG.Reach maxOff g) {h : Hierarchy} {op : PG.Op}
    (hok : Call.ok maxOff ⟨g, h⟩ (.ports op)) (he : g.step maxOff op = some g') {n : Nat}
    (hn : g.containsNode n = true) : g'.containsNode n = true := by
  have hmeta : g'.nodeMeta = g.nodeMeta → g'.containsNode n = true := by
    intro e
    rw [containsNode_iff] at hn ⊢
    simpa [PG.node?, e] using hn
  cases op with
  | linkPorts a b =>
    obtain ⟨r, e, rfl⟩ := Option.map_eq_some_iff.1 he
    exact hmeta (linkPorts_slots e)
  | unlinkPort p =>
    obtain ⟨r, e, rfl⟩ := Option.map_eq_some_iff.1 he
    exact hmeta (unlinkPort_slots e)
  | setNumPorts k i o =>
    obtain ⟨r, e, rfl⟩ := Option.map_eq_some_iff.1 he
    cases hk : g.containsNode k with
    | false =>
      rw [C12_set_num_ports_unknown hk hok.1.1 hok.1.2.1] at e
      cases e; exact hn
    | true =>
      have ha := (C12_set_num_ports hmax hg hk e).1
      rw [live_iff_counts] at hn ⊢
      rw [ha]
      simp only [AGraph.resize]
      split <;> simp_all
  | compactPorts =>
    obtain ⟨r, e, rfl⟩ := Option.map_eq_some_iff.1 he
    obtain ⟨g1, tr, e1, -, -, -, -, ha, -⟩ := C16_compact_ports_partial hmax hg
    rw [e] at e1; cases e1
    rw [live_iff_counts] at hn ⊢
    rw [ha]; exact hn
  | addNode i o => exact hok.2.elim
  | removeNode n => exact hok.2.elim
  | compactNodes => exact hok.2.elim
  | swapNodes a b => exact hok.2.elim
  | clear => exact hok.2.elim

theorem swappable_lt {g : PG} {a b : Nat} (h : g.swappable a b = true) : a < g.nodeMeta.length ∧ b < g.nodeMeta.length := by
  have key : ∀ n, (g.containsNode n || g.spare n) = true → n < g.nodeMeta.length := by
    intro n hn
    rcases Bool.or_eq_true_iff.1 hn with h | h
    · exact live_lt h
    · simp [PG.spare] at h; exact h.1.1
  simp only [PG.swappable, Bool.and_eq_true] at h
  exact ⟨key a h.1.1, key b h.1.2⟩

/-- What a call does: the graph changes as if alone, a call of the hierarchy does what is specified for it, and otherwise child
lists change only with the names of the nodes. -/
def Effect (maxOff : Nat) (s s' : Both) : Call → Prop
  | .addNode i o => PG.step maxOff s.graph (.addNode i o) = some s'.graph ∧ s'.tree.kids = s.tree.kids
  | .removeNode n => PG.step maxOff s.graph (.removeNode n) = some s'.graph ∧ s'.tree.kids n = [] ∧
      ∀ m, m ≠ n → s'.tree.kids m = (s.tree.kids m).filter (· ≠ n)
  | .swapNodes a b => PG.step maxOff s.graph (.swapNodes a b) = some s'.graph ∧
      let ρ := fun n => if n = a then b else if n = b then a else n
      ∀ n, s'.tree.kids (ρ n) = (s.tree.kids n).map ρ
  | .compact _ _ => PG.step maxOff s.graph .compactNodes = some s'.graph ∧
      ∃ ρ, AGraph.Renamed ρ s.graph.abs s'.graph.abs ∧
        ∀ n, s.graph.containsNode n = true → s'.tree.kids (ρ n) = (s.tree.kids n).map ρ
  | .ports op => PG.step maxOff s.graph op = some s'.graph ∧ s'.tree.kids = s.tree.kids
  | .tree op => s'.graph = s.graph ∧ ∃ r, spec s.tree.kids op = some (r, s'.tree.kids)

/-- **C87** One step: the calls on the pair return, and the hierarchy follows the graph. -/
theorem C87_step_partial {maxOff : Nat} (hmax : maxOff ≤ 32767) {g : PG} (hg : PG.Reach maxOff g) {h : Hierarchy}
    (hh : Hier.Reach h) (hlen : g.nodeMeta.length ≤ 2 ^ 31) (hf : Follows g h) {c : Call} (hok : c.ok maxOff ⟨g, h⟩) :
    ∃ s', step maxOff ⟨g, h⟩ c = some s' ∧ PG.Reach maxOff s'.graph ∧ Hier.Reach s'.tree ∧ Follows s'.graph s'.tree ∧
      Effect maxOff ⟨g, h⟩ s' c := by
  cases c with
  | addNode i o =>
    obtain ⟨n, g', e, hn, ha, -⟩ := C08_add_node hmax hg hok.1 hok.2
    refine ⟨⟨g', h⟩, by simp [step, e], .step (op := .addNode i o) hg hok (by simp [PG.step, e]), hh, fun m hm => ?_,
      by simp [PG.step, e], rfl⟩
    have := hf m hm
    rw [live_iff_counts] at this ⊢
    simp only [ha, AGraph.add]
    split <;> simp_all
  | removeNode n =>
    obtain ⟨g', h', e, r1, r2, f, -, f2, f3⟩ := C87_remove hmax hg hh hf hok
    refine ⟨_, e, r1, r2, f, ?_, ?_, f3⟩
    · simp only [step] at e
      simp only [PG.step]
      split at e
      · rename_i e1 e2; cases e; exact e1
      · cases e
    · exact Classical.byContradiction fun hne => f2 (.inr hne)
  | swapNodes a b =>
    obtain ⟨g', e, r, hren, -⟩ := C17_swap_nodes_partial hmax hg hok
    obtain ⟨ha, hb⟩ := swappable_lt hok
    simp only at ha hb
    obtain ⟨h', e', r', k⟩ := swap_step hh (by omega : a < 2 ^ 31) (by omega : b < 2 ^ 31)
    refine ⟨⟨g', h'⟩, by simp [step, e, e'], r, r', fun m hm => ?_, e, fun n => ?_⟩
    · simp only at hm ⊢
      rw [k, inUse_swap] at hm
      exact (live_renamed hren).2 ⟨transpose a b m, transpose_transpose a b m, hf _ hm⟩
    · have := transpose_transpose a b n
      simp only [k, Kids.swap]
      unfold transpose at this ⊢
      rw [this]
  | compact swap extra =>
    cases swap with
    | true =>
      obtain ⟨g', tr, h', e0, e, r1, r2, f, m⟩ := C87_swap hmax hg hh hlen hf extra
      obtain ⟨g1, tr1, e1, hc, -⟩ := compact_calls hmax hg
      rw [e0] at e1; cases e1
      exact ⟨_, e, r1, r2, f, by simp [PG.step, e0], total tr, m _ fun x hx => total_mem hc hx⟩
    | false =>
      obtain ⟨g', tr, h', e0, e, r1, r2, f, m⟩ := C87_rekey_partial hmax hg hh hlen hf (hok.resolve_left (by decide)) extra
      obtain ⟨g1, tr1, e1, hc, -⟩ := compact_calls hmax hg
      rw [e0] at e1; cases e1
      exact ⟨_, e, r1, r2, f, by simp [PG.step, e0], total tr, m _ fun x hx => total_mem hc hx⟩
  | ports op =>
    obtain ⟨g', e, r, -⟩ := C04_step_partial hmax hg op hok.1
    exact ⟨⟨g', h⟩, by simp [step, e], r, hh, fun m hm => ports_live hmax hg hok e (hf m hm), e, rfl⟩
  | tree op =>
    have ho := tree_ok hlen hok
    obtain ⟨r, K, e, hK⟩ := tree_follows hf hok
    obtain ⟨h', e', k⟩ := (C24_calls_partial hh ho).2 r K e
    exact ⟨⟨g, h'⟩, by simp [step, e'], hg, .step hh ho e', fun m hm => hK m (by simpa only [k] using hm), rfl, r,
      by simp only [k]; exact e⟩

/-- **C87** After any history of calls on graph and hierarchy every node with a parent or children is a
node of the graph, and the next call returns. Missing for the full claim: the documented callback on
nodes that keep their index (`C87_witness_documented`), and what the methods alone ask of their arguments. -/
theorem C87_history_partial {maxOff : Nat} (hmax : maxOff ≤ 32767) {s : Both} (hs : Reach maxOff s) :
    PG.Reach maxOff s.graph ∧ Hier.Reach s.tree ∧ Follows s.graph s.tree ∧
      (s.graph.nodeMeta.length ≤ 2 ^ 31 → ∀ c : Call, c.ok maxOff s → (step maxOff s c).isSome = true) := by
  have key : PG.Reach maxOff s.graph ∧ Hier.Reach s.tree ∧ Follows s.graph s.tree := by
    induction hs with
    | init =>
      refine ⟨.init, .new, fun n hn => ?_⟩
      have hk : Hierarchy.new.kids = fun _ => [] := kids_eq inv_new.repr
      simp only [hk] at hn
      rcases hn with ⟨p, hp⟩ | hp
      · cases hp
      · exact absurd rfl hp
    | step _ hlen hok he ih =>
      obtain ⟨s1, e, r1, r2, f, -⟩ := C87_step_partial hmax ih.1 ih.2.1 hlen ih.2.2 hok
      rw [he] at e; cases e
      exact ⟨r1, r2, f⟩
  refine ⟨key.1, key.2.1, key.2.2, fun hlen c hok => ?_⟩
  obtain ⟨s1, e, -⟩ := C87_step_partial hmax key.1 key.2.1 hlen key.2.2 hok
  rw [e]; rfl

/-! ## Examples -/

/-- The calls, `none` as soon as one panics. -/
def run (s : Both) : List Call → Option Both
  | [] => some s
  | c :: cs => (step 32767 s c).bind fun s => run s cs

/-- **C87 fails** for the documented callback: two nodes, one the child of the other, nothing removed. With `swap_nodes`
as the callback the same calls return. -/
theorem C87_witness_documented :
    (run ⟨PG.empty, .new⟩ [.addNode 1 1, .addNode 1 1, .tree (.pushChild 1 0)]).isSome = true ∧
    (run ⟨PG.empty, .new⟩ [.addNode 1 1, .addNode 1 1, .tree (.pushChild 1 0), .compact false 0]).isNone = true ∧
    (run ⟨PG.empty, .new⟩ [.addNode 1 1, .addNode 1 1, .tree (.pushChild 1 0), .compact true 0]).isSome = true := by
  decide +kernel

/-- As in the documentation: four nodes, two of them below a third; the first is removed. -/
def exS : Both :=
  (run ⟨PG.empty, .new⟩ [.addNode 1 1, .addNode 1 1, .addNode 1 1, .addNode 1 1, .tree (.pushChild 2 1), .tree (.pushChild 3 1),
    .removeNode 0]).getD ⟨PG.empty, .new⟩

theorem reach_step {s : Both} (h : Reach 32767 s) (c : Call) (hl : s.graph.nodeMeta.length ≤ 2 ^ 31) (hok : c.ok 32767 s)
    (hs : (step 32767 s c).isSome = true) : Reach 32767 ((step 32767 s c).getD ⟨PG.empty, .new⟩) := by
  obtain ⟨s', e⟩ := Option.isSome_iff_exists.1 hs
  rw [e]
  exact .step h hl hok e

theorem exS_reach : Reach 32767 exS := by
  have h1 := reach_step .init (.addNode 1 1) (by decide) ⟨by decide, by decide⟩ (by decide +kernel)
  have h2 := reach_step h1 (.addNode 1 1) (by decide +kernel) ⟨by decide, by decide⟩ (by decide +kernel)
  have h3 := reach_step h2 (.addNode 1 1) (by decide +kernel) ⟨by decide, by decide⟩ (by decide +kernel)
  have h4 := reach_step h3 (.addNode 1 1) (by decide +kernel) ⟨by decide, by decide⟩ (by decide +kernel)
  have h5 := reach_step h4 (.tree (.pushChild 2 1)) (by decide +kernel) ⟨by decide, by decide +kernel, by decide +kernel⟩
    (by decide +kernel)
  have h6 := reach_step h5 (.tree (.pushChild 3 1)) (by decide +kernel) ⟨by decide, by decide +kernel, by decide +kernel⟩
    (by decide +kernel)
  exact reach_step h6 (.removeNode 0) (by decide +kernel) (by simp [Call.ok]) (by decide +kernel)

theorem exS_stays (n : Nat) : ¬ Stays exS.graph exS.tree n := fun h =>
  absurd (h.2 0 (Nat.zero_le _)) (by decide +kernel)

theorem exS_facts : PG.Reach 32767 exS.graph ∧ Hier.Reach exS.tree ∧ Follows exS.graph exS.tree :=
  have h := C87_history_partial (by decide) exS_reach
  ⟨h.1, h.2.1, h.2.2.1⟩

example : exS.tree.kids 1 = [2, 3] ∧ exS.graph.containsNode 0 = false ∧ exS.graph.containsNode 3 = true ∧
    ((compact exS false 0).map fun s => (s.tree.kids 0, s.graph.nodeCount)) = some ([1, 2], 3) := by decide +kernel

example := C87_rekey_partial (maxOff := 32767) (by decide) exS_facts.1 exS_facts.2.1 (by decide +kernel) exS_facts.2.2 exS_stays 0
example := C87_rekey_iff (maxOff := 32767) (by decide) exS_facts.1 exS_facts.2.1 (by decide +kernel) exS_facts.2.2
example := C87_swap (maxOff := 32767) (by decide) exS_facts.1 exS_facts.2.1 (by decide +kernel) exS_facts.2.2 0
example := C87_remove (maxOff := 32767) (by decide) exS_facts.1 exS_facts.2.1 exS_facts.2.2 (n := 1) (by decide)
example := C87_step_partial (maxOff := 32767) (by decide) exS_facts.1 exS_facts.2.1 (by decide +kernel) exS_facts.2.2
  (c := .tree (.insertBefore 2 3)) ⟨by decide +kernel, by decide +kernel⟩

#print axioms C87_rekey_iff
#print axioms C87_rekey_partial
#print axioms C87_swap
#print axioms C87_remove
#print axioms C87_step_partial
#print axioms C87_history_partial
#print axioms C87_witness_documented

end Verif.Follow
