import Verif.Follow.MultiModel
import Verif.Follow.Props
import Verif.Multi.Props
import Verif.Multi.FullProps

/-!
# C90 A hierarchy follows a multigraph
-/

namespace Verif.Follow

open Verif.Hier Verif.PG Verif.Multi

/-- All nodes with a place in the hierarchy are nodes that the multigraph shows. -/
def MFollows (m : MG) (h : Hierarchy) : Prop := ∀ n, InUse h.kids n → m.obs.node n

/-- The calls of a history: what the methods themselves ask (`MOp.ok`, `Hier.Op.ok`), that only shown nodes are attached, and for
the documented callback that no node in use keeps its index. -/
def MCall.ok (maxOff : Nat) (s : MBoth) : MCall → Prop
  | .graph op swap _ => op.ok maxOff s.graph ∧
    match op with
    | .removeNode n => n < 2 ^ 31
    | .compactNodes => swap = true ∨ ∀ n, ¬ Stays s.graph.graph s.tree n
    | _ => True
  | .tree op => treeOk s.graph.obs.node op

/-- The pairs that arise by such calls, as long as there are at most `2^31` node slots (`src/index.rs`). -/
inductive MBReach (maxOff : Nat) : MBoth → Prop where
  | init {g : PG} : PG.Reach maxOff g → MBReach maxOff ⟨MG.ofGraph g, .new⟩
  | step {s s' : MBoth} {c : MCall} : MBReach maxOff s → s.graph.graph.nodeMeta.length ≤ 2 ^ 31 → c.ok maxOff s →
      mstep maxOff s c = some s' → MBReach maxOff s'

/-- What a call does: the multigraph changes as if alone, a call of the hierarchy does what is specified for it, and otherwise
child lists change only with the names of the nodes. -/
def MEffect (maxOff : Nat) (s s' : MBoth) : MCall → Prop
  | .graph op _ _ => (∃ r, s.graph.step maxOff op = some (r, s'.graph) ∧ Multi.Effect s.graph.obs s'.graph.obs op r) ∧
    match op with
    | .removeNode n => s'.tree.kids n = [] ∧ ∀ x, x ≠ n → s'.tree.kids x = (s.tree.kids x).filter (· ≠ n)
    | .swapNodes a b =>
      let ρ := fun n => if n = a then b else if n = b then a else n
      ∀ n, s'.tree.kids (ρ n) = (s.tree.kids n).map ρ
    | .compactNodes => ∃ (tr : List (Nat × Nat)) (ρ : Nat → Nat), s.graph.step maxOff .compactNodes = some (.moves tr, s'.graph) ∧
        (∀ n, s.graph.obs.node n → (n, ρ n) ∈ tr) ∧ s.graph.obs.Rename s'.graph.obs ρ id ∧
        ∀ n, s.graph.obs.node n → s'.tree.kids (ρ n) = (s.tree.kids n).map ρ
    | .clear => ∀ n, s'.tree.kids n = []
    | _ => s'.tree.kids = s.tree.kids
  | .tree op => s'.graph = s.graph ∧ ∃ r, spec s.tree.kids op = some (r, s'.tree.kids)

theorem inUse_remove {K K' : Kids} {n : Nat} (h1 : K' n = []) (h2 : ∀ x, x ≠ n → K' x = (K x).filter (· ≠ n)) {x : Nat}
    (h : InUse K' x) : InUse K x ∧ x ≠ n := by
  rcases h with ⟨p, hp⟩ | h
  · by_cases hpn : p = n
    · subst hpn; rw [h1] at hp; cases hp
    · rw [h2 p hpn, List.mem_filter] at hp
      exact ⟨.inl ⟨p, hp.1⟩, by simpa using hp.2⟩
  · by_cases hxn : x = n
    · subst hxn; exact absurd h1 h
    · refine ⟨.inr fun e => h ?_, hxn⟩
      rw [h2 x hxn, e]; rfl

/-- The child lists after `remove`. -/
theorem remove_kids {h : Hierarchy} (hh : Hier.Reach h) {n : Nat} (hn : n < 2 ^ 31) :
    ∃ h', h.remove n = some h' ∧ Hier.Reach h' ∧ h'.kids n = [] ∧ ∀ x, x ≠ n → h'.kids x = (h.kids x).filter (· ≠ n) := by
  obtain ⟨h', e, k⟩ := (C24_calls_partial hh (op := .remove n) hn).2 _ _ rfl
  have hr' : Hier.Reach h' := .step hh (op := .remove n) hn e
  obtain ⟨h1, e1, e2⟩ := Option.map_eq_some_iff.1 e
  cases e2
  refine ⟨h', e1, hr', ?_, fun x hx => ?_⟩ <;> rw [k] <;> simp [Kids.set, Kids.erase, *]

section

variable {maxOff : Nat} {s : MBoth}

theorem mcompact_ok (h2m : 2 ≤ maxOff) (hmax : maxOff ≤ 32767) (hg : MReach maxOff s.graph) (hh : Hier.Reach s.tree)
    (hlen : s.graph.graph.nodeMeta.length ≤ 2 ^ 31) (hf : MFollows s.graph s.tree) {swap : Bool} {extra : Nat}
    (hok : swap = true ∨ ∀ n, ¬ Stays s.graph.graph s.tree n) {m' : MG} {tr' : List (Nat × Nat)}
    (hm : s.graph.compactNodes = some (m', tr'))
    (he : Multi.Effect s.graph.obs m'.obs .compactNodes (.moves tr')) :
    ∃ h', propagate m' s.tree swap extra .compactNodes (.moves tr') = some h' ∧ Hier.Reach h' ∧ MFollows m' h' ∧
      ∃ ρ : Nat → Nat, (∀ n, s.graph.obs.node n → (n, ρ n) ∈ tr') ∧ s.graph.obs.Rename m'.obs ρ id ∧ ∀ n, s.graph.obs.node n → h'.kids (ρ n) = (s.tree.kids n).map ρ := by
  have hr := C39_flat_reach h2m hmax hg
  have hF : Follows s.graph.graph s.tree := fun n hn => (obs_node.1 (hf n hn)).1
  obtain ⟨⟨g1, tr⟩, e, hx⟩ := Option.map_eq_some_iff.1 hm
  cases hx
  obtain ⟨ρ, hren, h4, -⟩ := he
  obtain ⟨g2, tr2, e2, hcalls, -⟩ := compact_calls hmax hr
  rw [e] at e2; cases e2
  have key : ∃ h', compact ⟨s.graph.graph, s.tree⟩ swap extra = some ⟨g1, h'⟩ ∧ Hier.Reach h' ∧ Follows g1 h' ∧
      ∀ ρ, (∀ x ∈ tr, ρ x.1 = x.2) → AGraph.Renamed ρ s.graph.graph.abs g1.abs ∧
        ∀ n, s.graph.graph.containsNode n = true → h'.kids (ρ n) = (s.tree.kids n).map ρ := by
    cases swap with
    | true =>
      obtain ⟨g', tr1, h', e0, e1, r1, r2, f, k⟩ := C87_swap hmax hr hh hlen hF extra
      rw [e] at e0; cases e0
      exact ⟨h', e1, r2, f, k⟩
    | false =>
      obtain ⟨g', tr1, h', e0, e1, r1, r2, f, k⟩ := C87_rekey_partial hmax hr hh hlen hF (hok.resolve_left (by decide)) extra
      rw [e] at e0; cases e0
      exact ⟨h', e1, r2, f, k⟩
  obtain ⟨h', e1, r2, f, k⟩ := key
  obtain ⟨k1, k2⟩ := k (total tr) fun x hx => total_mem hcalls hx
  have hρ : ∀ n, s.graph.obs.node n → ρ n = total tr n := fun n hn => (total_mem hcalls (h4 n hn)).symm
  have hmap : ∀ n, s.graph.obs.node n → (s.tree.kids n).map (total tr) = (s.tree.kids n).map ρ := by
    intro n _
    refine List.map_congr_left fun x hx => ?_
    exact (hρ x (hf x (.inl ⟨n, hx⟩))).symm
  have hk : ∀ n, s.graph.obs.node n → h'.kids (ρ n) = (s.tree.kids n).map ρ := fun n hn => by
    rw [hρ n hn, k2 n (obs_node.1 hn).1, hmap n hn]
  refine ⟨h', ?_, r2, fun x hx => ?_, ρ, h4, hren, hk⟩
  · simp only [compact, e] at e1
    simp only [propagate]
    split at e1
    · cases e1
    · rename_i h1 e3
      simp only [e3]
      obtain ⟨h2, e4, e5⟩ := Option.map_eq_some_iff.1 e1
      cases e5
      exact e4
  · have hsrc : ∀ y, g1.containsNode y = true → ∃ z, total tr z = y ∧ h'.kids y = (s.tree.kids z).map (total tr) := by
      intro y hy
      obtain ⟨z, rfl, hz⟩ := (live_renamed k1).1 hy
      exact ⟨z, rfl, k2 z hz⟩
    have hnode := fun z (hz : InUse s.tree.kids z) => (hren.node (total tr z)).2 ⟨z, hf z hz, (hρ z (hf z hz)).symm⟩
    rcases hx with ⟨p, hp⟩ | hx
    · have hpl := f p (.inr (List.ne_nil_of_mem hp))
      obtain ⟨z, -, h5⟩ := hsrc p hpl
      rw [h5] at hp
      obtain ⟨y, hy, rfl⟩ := List.mem_map.1 hp
      exact hnode y (.inl ⟨z, hy⟩)
    · obtain ⟨z, h6, h5⟩ := hsrc x (f x (.inr hx))
      rw [← h6]
      refine hnode z (.inr fun h7 => hx ?_)
      rw [h5, h7]; rfl

/-- **C90** One call: it returns, and the hierarchy follows the multigraph. Partial: for the documented callback `rekey` only if
no node in use keeps its index, and `shrink_to` with the number of all nodes; what the methods ask (`MCall.ok`). -/
theorem C90_step_partial (h2m : 2 ≤ maxOff) (hmax : maxOff ≤ 32767) (hg : MReach maxOff s.graph) (hh : Hier.Reach s.tree)
    (hlen : s.graph.graph.nodeMeta.length ≤ 2 ^ 31) (hf : MFollows s.graph s.tree) {c : MCall} (hok : c.ok maxOff s) :
    ∃ s', mstep maxOff s c = some s' ∧ MReach maxOff s'.graph ∧ Hier.Reach s'.tree ∧ MFollows s'.graph s'.tree ∧
      MEffect maxOff s s' c := by
  have hM := hg.ok h2m hmax
  cases c with
  | tree op =>
    have hok' : treeOk s.graph.obs.node op := hok
    have ho := treeOk_ok (fun n hn => by have := live_lt (obs_node.1 hn).1; omega) hok'
    obtain ⟨r, K, e, hK⟩ := tree_uses hf hok'
    obtain ⟨h', e', k⟩ := (C24_calls_partial hh ho).2 r K e
    exact ⟨⟨s.graph, h'⟩, by simp [mstep, e'], hg, .step hh ho e', fun m hm => hK m (by simpa only [k] using hm), rfl, r,
      by simp only [k]; exact e⟩
  | graph op swap extra =>
    obtain ⟨hok1, hok2⟩ := hok
    obtain ⟨r, m', h1, he, hg'⟩ := C39_calls_partial h2m hmax hg hok1
    have fin : ∀ h', propagate m' s.tree swap extra op r = some h' →
        mstep maxOff s (.graph op swap extra) = some ⟨m', h'⟩ := fun h' e => by simp only [mstep, h1, e, Option.map_some]
    have same : (∀ n, s.graph.obs.node n → m'.obs.node n) → MFollows m' s.tree := fun h n hn => h n (hf n hn)
    have hr : ∃ r, s.graph.step maxOff op = some (r, m') ∧ Multi.Effect s.graph.obs m'.obs op r := ⟨r, h1, he⟩
    cases op with
    | addNode i o =>
      cases r <;> try exact he.elim
      exact ⟨⟨m', s.tree⟩, fin _ rfl, hg', hh, same fun n hn => (he.2.1 n).2 (.inr hn), hr, rfl⟩
    | removeNode n =>
      cases r <;> try exact he.elim
      obtain ⟨h', e, r', k1, k2⟩ := remove_kids hh hok2
      refine ⟨⟨m', h'⟩, fin _ e, hg', r', fun x hx => ?_, hr, k1, k2⟩
      obtain ⟨u1, u2⟩ := inUse_remove k1 k2 hx
      exact (he.1 x).2 ⟨hf x u1, u2⟩
    | linkPorts a b =>
      cases r <;> try exact he.elim
      exact ⟨⟨m', s.tree⟩, fin _ rfl, hg', hh, same fun n hn => (he.1 n).2 hn, hr, rfl⟩
    | unlinkPort p =>
      cases r <;> try exact he.elim
      exact ⟨⟨m', s.tree⟩, fin _ rfl, hg', hh, same fun n hn => (he.1 n).2 hn, hr, rfl⟩
    | setNumPorts n i o =>
      cases r <;> try exact he.elim
      exact ⟨⟨m', s.tree⟩, fin _ rfl, hg', hh, same fun n hn => (he.1 n).2 hn, hr, rfl⟩
    | compactNodes =>
      cases r <;> try exact he.elim
      obtain ⟨⟨m1, tr⟩, h4, h5⟩ := Option.map_eq_some_iff.1 h1
      cases h5
      obtain ⟨h', e, r', f, ρ, k⟩ := mcompact_ok (extra := extra) h2m hmax hg hh hlen hf hok2 h4 he
      exact ⟨⟨_, h'⟩, fin _ e, hg', r', f, hr, _, ρ, h1, k⟩
    | compactPorts =>
      cases r <;> try exact he.elim
      obtain ⟨π, hren, -⟩ := id he
      exact ⟨⟨m', s.tree⟩, fin _ rfl, hg', hh, same fun n hn => (hren.node _).2 ⟨n, hn, rfl⟩, hr, rfl⟩
    | swapNodes a b =>
      cases r <;> try exact he.elim
      obtain ⟨ha, hb⟩ := swappable_lt hok1.1
      obtain ⟨h', e', r', k⟩ := swap_step hh (by omega : a < 2 ^ 31) (by omega : b < 2 ^ 31)
      have hren : s.graph.obs.Rename m'.obs (transpose a b) id := he
      refine ⟨⟨m', h'⟩, fin _ e', hg', r', fun x hx => ?_, hr, fun n => ?_⟩
      · simp only at hx ⊢
        rw [k, inUse_swap] at hx
        exact (hren.node _).2 ⟨_, hf _ hx, (transpose_transpose a b x).symm⟩
      · have := transpose_transpose a b n
        simp only [k, Kids.swap]
        unfold transpose at this ⊢
        rw [this]
    | clear =>
      cases r <;> try exact he.elim
      have hk : Hierarchy.new.kids = fun _ => [] := kids_eq inv_new.repr
      refine ⟨⟨m', .new⟩, fin _ rfl, hg', .new, fun x hx => ?_, hr, fun n => by rw [hk]⟩
      simp only [hk] at hx
      rcases hx with ⟨p, hp⟩ | hp
      · cases hp
      · exact absurd rfl hp
    | linkSubports x y =>
      cases r <;> try exact he.elim
      exact ⟨⟨m', s.tree⟩, fin _ rfl, hg', hh, same fun n hn => (he.1 n).2 hn, hr, rfl⟩
    | unlinkSubport x =>
      cases r <;> try exact he.elim
      exact ⟨⟨m', s.tree⟩, fin _ rfl, hg', hh, same fun n hn => (he.1 n).2 hn, hr, rfl⟩

/-- **C90** After any history of calls every node with a parent or children is a node that the multigraph shows, never a helper,
and the next call returns with its effect. Partial as `C90_step_partial`. -/
theorem C90_history_partial (h2m : 2 ≤ maxOff) (hmax : maxOff ≤ 32767) (hs : MBReach maxOff s) :
    MReach maxOff s.graph ∧ Hier.Reach s.tree ∧ MFollows s.graph s.tree ∧
      (s.graph.graph.nodeMeta.length ≤ 2 ^ 31 → ∀ c : MCall, c.ok maxOff s → ∃ s', mstep maxOff s c = some s' ∧
        MEffect maxOff s s' c) := by
  have key : MReach maxOff s.graph ∧ Hier.Reach s.tree ∧ MFollows s.graph s.tree := by
    induction hs with
    | init hg =>
      refine ⟨.init hg, .new, fun n hn => ?_⟩
      have hk : Hierarchy.new.kids = fun _ => [] := kids_eq inv_new.repr
      simp only [hk] at hn
      rcases hn with ⟨p, hp⟩ | hp
      · cases hp
      · exact absurd rfl hp
    | step _ hlen hok he ih =>
      obtain ⟨s1, e, r1, r2, f, -⟩ := C90_step_partial h2m hmax ih.1 ih.2.1 hlen ih.2.2 hok
      rw [he] at e
      cases e
      exact ⟨r1, r2, f⟩
  refine ⟨key.1, key.2.1, key.2.2, fun hlen c hok => ?_⟩
  obtain ⟨s1, e, -, -, -, k⟩ := C90_step_partial h2m hmax key.1 key.2.1 hlen key.2.2 hok
  exact ⟨s1, e, k⟩

end

def mrun (s : MBoth) : List MCall → Option MBoth
  | [] => some s
  | c :: cs => (mstep 32767 s c).bind (mrun · cs)

/-- Nodes `1`, `2`, `5`, each but the first a child of the one before; `3` and `4` are the helpers of two links from `1` to `2`. -/
def exMF : MBoth :=
  (mrun ⟨MG.ofGraph PG.empty, .new⟩ [.graph (.addNode 0 0) false 0, .graph (.addNode 0 1) false 0, .graph (.addNode 1 0) false 0,
    .graph (.linkPorts 0 1) false 0, .graph (.linkPorts 0 1) false 0, .graph (.addNode 1 0) false 0, .tree (.pushChild 2 1),
    .tree (.pushChild 5 2), .graph (.removeNode 0) false 0]).getD ⟨MG.ofGraph PG.empty, .new⟩

/-- **C90 fails** for the documented shrinking to `node_count()` (`src/hierarchy.rs` line 48): it does not count helpers, and a
node behind them loses its place. With all nodes counted it keeps it. -/
theorem C90_witness_count : exMF.graph.nodes = [1, 2, 5] ∧ exMF.tree.kids 2 = [5] ∧
    ((mrun exMF [.graph .compactNodes false 0]).bind fun s =>
      (s.tree.shrinkTo s.tree.data.data.length s.graph.nodeCount).map fun h =>
        (s.graph.nodes, s.graph.nodeCount, s.tree.kids 1, h.kids 1)) = some ([0, 1, 4], 3, [4], []) := by
  decide +kernel

theorem mbreach_step {s : MBoth} (h : MBReach 32767 s) (c : MCall) (hl : s.graph.graph.nodeMeta.length ≤ 2 ^ 31)
    (hok : c.ok 32767 s) (hs : (mstep 32767 s c).isSome = true) :
    MBReach 32767 ((mstep 32767 s c).getD ⟨MG.ofGraph PG.empty, .new⟩) := by
  obtain ⟨s', e⟩ := Option.isSome_iff_exists.1 hs
  rw [e]
  exact .step h hl hok e

theorem room_of {m : MG} {p : Nat} {L : List Subport} (h : m.subportsAt? p = some L) (hl : L.length ≤ 32766) : m.room p := by
  intro L' hL
  rw [h] at hL
  cases hL
  exact .inl hl

theorem exMF_reach : MBReach 32767 exMF := by
  have h0 := mbreach_step (.init .init) (.graph (.addNode 0 0) false 0) (by decide) ⟨⟨by decide, by decide⟩, trivial⟩
    (by decide +kernel)
  have h1 := mbreach_step h0 (.graph (.addNode 0 1) false 0) (by decide +kernel) ⟨⟨by decide, by decide⟩, trivial⟩
    (by decide +kernel)
  have h2 := mbreach_step h1 (.graph (.addNode 1 0) false 0) (by decide +kernel) ⟨⟨by decide, by decide⟩, trivial⟩
    (by decide +kernel)
  have h3 := mbreach_step h2 (.graph (.linkPorts 0 1) false 0) (by decide +kernel) ⟨⟨by decide +kernel, by decide +kernel,
    room_of (L := [(0, 0)]) (by decide +kernel) (by decide), room_of (L := [(1, 0)]) (by decide +kernel) (by decide)⟩, trivial⟩
    (by decide +kernel)
  have h4 := mbreach_step h3 (.graph (.linkPorts 0 1) false 0) (by decide +kernel) ⟨⟨by decide +kernel, by decide +kernel,
    room_of (L := [(0, 0)]) (by decide +kernel) (by decide), room_of (L := [(1, 0)]) (by decide +kernel) (by decide)⟩, trivial⟩
    (by decide +kernel)
  have h5 := mbreach_step h4 (.graph (.addNode 1 0) false 0) (by decide +kernel) ⟨⟨by decide, by decide⟩, trivial⟩
    (by decide +kernel)
  have h6 := mbreach_step h5 (.tree (.pushChild 2 1)) (by decide +kernel)
    ⟨by decide, obs_node.2 (by unfold VNode; decide +kernel), obs_node.2 (by unfold VNode; decide +kernel)⟩ (by decide +kernel)
  have h7 := mbreach_step h6 (.tree (.pushChild 5 2)) (by decide +kernel)
    ⟨by decide, obs_node.2 (by unfold VNode; decide +kernel), obs_node.2 (by unfold VNode; decide +kernel)⟩ (by decide +kernel)
  exact mbreach_step h7 (.graph (.removeNode 0) false 0) (by decide +kernel) ⟨by simp only [MOp.ok]; decide +kernel, by decide⟩
    (by decide +kernel)

theorem exMF_stays (n : Nat) : ¬ Stays exMF.graph.graph exMF.tree n := fun h =>
  absurd (h.2 0 (Nat.zero_le _)) (by decide +kernel)

theorem exMF_facts : MReach 32767 exMF.graph ∧ Hier.Reach exMF.tree ∧ MFollows exMF.graph exMF.tree :=
  have h := C90_history_partial (by decide) (by decide) exMF_reach
  ⟨h.1, h.2.1, h.2.2.1⟩

example := C90_step_partial (maxOff := 32767) (by decide) (by decide) exMF_facts.1 exMF_facts.2.1 (by decide +kernel)
  exMF_facts.2.2 (c := .graph .compactNodes false 0) ⟨trivial, .inr exMF_stays⟩
example := C90_step_partial (maxOff := 32767) (by decide) (by decide) exMF_facts.1 exMF_facts.2.1 (by decide +kernel)
  exMF_facts.2.2 (c := .tree (.insertBefore 1 5)) ⟨obs_node.2 (by unfold VNode; decide +kernel), obs_node.2 (by unfold VNode; decide +kernel)⟩
example := C90_history_partial (maxOff := 32767) (by decide) (by decide) exMF_reach

#print axioms C90_step_partial
#print axioms C90_history_partial
#print axioms C90_witness_count

end Verif.Follow
