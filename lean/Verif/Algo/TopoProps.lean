import Verif.Algo.TopoRun
import Verif.PortGraph.Example

/-!
# C27: `toposort` yields a topological order

The theorems speak about port graphs reached by any history of calls; `Arc g d m n` says that a
`d` port of `m` is linked with a port of `n`.
-/

namespace Verif.Algo

open Verif (Direction)
open Verif.PG

/-- A diamond with a tail: 0→1, 0→2, 1→3, 2→3, 3→4, and a loose node 5 without ports. -/
def dagOps : List PG.Op :=
  [.addNode 0 2, .addNode 1 1, .addNode 1 1, .addNode 3 1, .addNode 1 1, .addNode 0 0,
   .linkPorts 0 2, .linkPorts 1 4, .linkPorts 3 6, .linkPorts 5 7, .linkPorts 9 10]

def dagG : PG := (PG.run 32767 PG.empty dagOps).getD PG.empty

theorem dagG_run : checkedRun 32767 PG.empty dagOps = some dagG := by decide +kernel

theorem dagG_reach : PG.Reach 32767 dagG := checkedRun_reach .init dagG_run

theorem ofPG_nodes {g : PG} {n} : n ∈ (ofPG g).nodes ↔ g.containsNode n = true := by
  simp only [ofPG, List.mem_filter, List.mem_range]
  constructor
  · exact fun h => h.2
  · intro h
    refine ⟨?_, h⟩
    unfold PG.containsNode at h
    obtain ⟨m, hm⟩ := Option.isSome_iff_exists.1 h
    exact node?_lt hm

/-- For every graph, acyclic or not, and any set `S` of sources: the sort does not panic, yields
every node at most once and all sources; any other node it yields has a predecessor and comes
after all its predecessors; and no node is left out all of whose predecessors (at least one)
were yielded. At the end, the ports not visited are those of the nodes not yielded. -/
theorem C27_toposort {maxOff : Nat} (hmax : maxOff ≤ 32767) {g : PG} (hg : PG.Reach maxOff g) (d : Direction)
    (dflt : Bool) {S : List Nat} (hS : S.Nodup) :
    ∃ l s, toposort (ofPG g) .all d dflt S = some (l, s) ∧ l.Nodup ∧ (∀ n ∈ S, n ∈ l) ∧
      (∀ n ∈ l, n ∉ S → (∃ m, Arc g d m n) ∧ ∀ m, Arc g d m n → Before l m n) ∧
      (∀ n, (∃ m, Arc g d m n) → (∀ m, Arc g d m n → m ∈ l) → n ∈ l) ∧
      (∀ n, g.containsNode n = true → ((n ∈ l ∨ ∀ d', g.ports n d' = []) ↔
        ∀ d', ∀ p ∈ g.ports n d', p ∉ Topo.portsRemaining (ofPG g) s)) := by
  have hI := hg.inv hmax
  obtain ⟨l, s, h1, h2, h3, h4, h5, h6⟩ := toposort_all (ofPG_wf hI) (ofPG_single.to d) dflt hS
  simp only [varc_iff hI] at h4 h5
  exact ⟨l, s, h1, h2, h3, h4, h5, fun n hn => h6 n (ofPG_nodes.2 hn)⟩

example := C27_toposort (by decide) dagG_reach .outgoing false (S := [0, 5]) (by decide)

/-- On an acyclic graph with all source nodes given the sort yields exactly the nodes of the
graph, each once, every node given no other predecessor than earlier ones, and no port remains. -/
theorem C27_acyclic {maxOff : Nat} (hmax : maxOff ≤ 32767) {g : PG} (hg : PG.Reach maxOff g) (d : Direction)
    (dflt : Bool) {S : List Nat} (hS : S.Nodup) (hac : Acyclic (Arc g d))
    (hsrc : ∀ n, n ∈ S ↔ g.containsNode n = true ∧ ∀ m, ¬ Arc g d m n) :
    ∃ l s, toposort (ofPG g) .all d dflt S = some (l, s) ∧ l.Nodup ∧ (∀ n, n ∈ l ↔ g.containsNode n = true) ∧
      (∀ m n, Arc g d m n → Before l m n) ∧ Topo.portsRemaining (ofPG g) s = [] := by
  have hI := hg.inv hmax
  have hac' : Acyclic (VArc (ofPG g) d) := by
    have : VArc (ofPG g) d = Arc g d := by funext m n; exact propext (varc_iff hI)
    rw [this]; exact hac
  obtain ⟨l, s, h1, h2, h3, h4, h5⟩ := toposort_acyclic (ofPG_wf hI) (ofPG_single.to d) dflt hS hac'
    (fun n hn => ofPG_nodes.2 ((hsrc n).1 hn).1)
    (fun n hn h => (hsrc n).2 ⟨ofPG_nodes.1 hn, fun m hm => h m ((varc_iff hI).2 hm)⟩)
  refine ⟨l, s, h1, h2, fun n => (h3 n).trans ofPG_nodes, ?_, h5⟩
  intro m n hmn
  refine h4 n ?_ m ((varc_iff hI).2 hmn)
  intro hn; exact ((hsrc n).1 hn).2 m hmn

/-- The other direction of the remark at `ports_remaining`: if a cycle can be seen, i.e. some node
of the graph reaches itself and is not below a source, ports remain. -/
theorem C27_cycle_not_yielded {maxOff : Nat} (hmax : maxOff ≤ 32767) {g : PG} (hg : PG.Reach maxOff g) (d : Direction)
    (dflt : Bool) {S : List Nat} (hS : S.Nodup) {n : Nat} (hcyc : Relation.TransGen (Arc g d) n n)
    (hns : ∀ m, Relation.ReflTransGen (Arc g d) m n → m ∉ S) :
    ∃ l s, toposort (ofPG g) .all d dflt S = some (l, s) ∧ n ∉ l ∧ Topo.portsRemaining (ofPG g) s ≠ [] := by
  have hI := hg.inv hmax
  obtain ⟨l, s, h1, h2, h3, h4, h5, h6⟩ := C27_toposort hmax hg d dflt hS
  have hpre : ∀ m, Relation.TransGen (Arc g d) m n → n ∈ l → Before l m n := by
    intro m hm hn
    induction hm using Relation.TransGen.head_induction_on with
    | single h => exact (h4 n hn (hns n .refl)).2 _ h
    | head h htl ih =>
      rename_i a b
      obtain ⟨x, y, hxy, hb⟩ := ih
      have hbl : b ∈ l := by rw [hxy]; simp [hb]
      obtain ⟨x', y', hx', ha⟩ := (h4 b hbl (hns b htl.to_reflTransGen)).2 a h
      obtain ⟨u, w, rfl⟩ := List.append_of_mem hb
      have hnd := h2
      have e : x' ++ b :: y' = u ++ b :: (w ++ n :: y) := by rw [← hx', hxy]; simp
      have hux : x' = u := by
        rw [hx', List.nodup_append] at hnd
        have hbx : b ∉ x' := fun hc => hnd.2.2 b hc b (by simp) rfl
        have hnd2 := h2
        rw [hxy, List.nodup_append] at hnd2
        have hnd3 := hnd2.1
        rw [List.nodup_append] at hnd3
        have hbu : b ∉ u := fun hc => hnd3.2.2 b hc b (by simp) rfl
        rcases List.append_eq_append_iff.1 e with ⟨t, ht1, ht2⟩ | ⟨t, ht1, ht2⟩
        · cases t with
          | nil => simp at ht1; exact ht1.symm
          | cons c t =>
            simp at ht2
            exact absurd (by rw [ht1, ht2.1]; simp) hbu
        · cases t with
          | nil => simp at ht1; exact ht1
          | cons c t =>
            simp at ht2
            exact absurd (by rw [ht1, ht2.1]; simp) hbx
      subst hux
      exact ⟨_, y, hxy, by simp [ha]⟩
  have hn : n ∉ l := by
    intro hn
    obtain ⟨a, b, hab, ha⟩ := hpre n hcyc hn
    rw [hab, List.nodup_append] at h2
    exact h2.2.2 n ha n (by simp) rfl
  refine ⟨l, s, h1, hn, ?_⟩
  obtain ⟨m, -, hm⟩ := Relation.TransGen.tail'_iff.1 hcyc
  obtain ⟨p, hp, q, hq, hqn⟩ := (varc_iff hI).2 hm
  have hnn : g.containsNode n = true := ofPG_nodes.1 (varc_nodes (ofPG_wf hI) ((varc_iff hI).2 hm)).2
  intro hc
  have := (h6 n hnn).2 (fun d' p _ => by rw [hc]; simp)
  rcases this with h | h
  · exact hn h
  · have hqn' : q ∈ g.ports n d.reverse := hqn
    rw [h] at hqn'; simp at hqn'

example := C27_cycle_not_yielded (by decide) exG_reach .outgoing false (S := []) (by decide) (n := 0)
  (.single ⟨1, 1, by decide⟩) (by simp)

/-- With filters. A node is yielded only if the node filter accepts it; a node which is not a
source is yielded after all the nodes linked with its accepted ports, each of them through a port
accepted by the filter on that side; and it is yielded if one such link reaches it and all its
accepted ports are reached. -/
theorem C27_filtered {maxOff : Nat} (hmax : maxOff ≤ 32767) {g : PG} (hg : PG.Reach maxOff g) (F : Filter)
    (d : Direction) (dflt : Bool) {S : List Nat} (hS : S.Nodup) :
    ∃ l s, toposort (ofPG g) F d dflt S = some (l, s) ∧ l.Nodup ∧ (∀ n ∈ l, F.node n = true) ∧
      (∀ n ∈ S, F.node n = true → n ∈ l) ∧
      (∀ n ∈ l, n ∉ S → ∀ q ∈ g.ports n d.reverse, F.port n q = true → ∀ p, g.portLink? q = some (some p) →
        ∃ m, g.portNode p = some m ∧ F.port m p = true ∧ Before l m n) ∧
      (∀ n, n ∉ S → F.node n = true →
        (n ∈ l ↔ (∃ q ∈ g.ports n d.reverse, ∃ p, g.portLink? q = some (some p) ∧
            ∃ m ∈ l, g.portNode p = some m ∧ F.port m p = true) ∧
          ∀ q ∈ g.ports n d.reverse, F.port n q = true → ∀ p, g.portLink? q = some (some p) →
            ∃ m ∈ l, g.portNode p = some m ∧ F.port m p = true)) := by
  have hI := hg.inv hmax
  have hG := ofPG_wf hI
  obtain ⟨l, s, e, hf⟩ := toposort_ok hG F (ofPG_single.to d) dflt hS
  have hlink : ∀ q p, p ∈ (ofPG g).links q ↔ g.portLink? q = some (some p) := by
    intro q p
    simp only [ofPG, Option.mem_toList]
    cases g.portLink? q with
    | none => simp
    | some x => cases x <;> simp
  have hown : ∀ n q p m, q ∈ g.ports n d.reverse → g.portLink? q = some (some p) → (g.portNode p = some m ↔ p ∈ g.ports m d) := by
    intro n q p m hq hl
    obtain ⟨m', hm'⟩ := hG.link_dir _ _ _ _ hq ((hlink q p).2 hl)
    have : d.reverse.reverse = d := by cases d <;> rfl
    rw [this] at hm'
    constructor
    · intro h
      have := (hG.ports_node _ _ _ hm').1
      have h' : some m' = some m := this.symm.trans h
      cases h'; exact hm'
    · intro h; exact (hG.ports_node _ _ _ h).1
  have hSm : ∀ n, F.node n = true → (n ∈ S.filter F.node ↔ n ∈ S) := by
    intro n hn; simp [hn]
  refine ⟨l, s, e, hf.nodup, hf.filt, fun n hn hF => hf.sources n ((hSm n hF).2 hn), ?_, ?_⟩
  · intro n hn hnS q hq hacc p hp
    obtain ⟨m, h1, h2, h3⟩ := hf.order n hn (fun hc => hnS ((hSm n (hf.filt n hn)).1 hc)) q hq hacc p ((hlink _ _).2 hp)
    exact ⟨m, (hown n q p m hq hp).2 h1, h2, h3⟩
  · intro n hnS hF
    constructor
    · intro hn
      have hnS' : n ∉ S.filter F.node := fun hc => hnS ((hSm n hF).1 hc)
      constructor
      · obtain ⟨q, hq, p, hp, m, hm, h1, h2⟩ := hf.enter n hn hnS'
        exact ⟨q, hq, p, (hlink _ _).1 hp, m, hm, (hG.ports_node _ _ _ h1).1, h2⟩
      · intro q hq hacc p hp
        obtain ⟨m, h1, h2, h3⟩ := hf.order n hn hnS' q hq hacc p ((hlink _ _).2 hp)
        exact ⟨m, (before_index h3).1, (hown n q p m hq hp).2 h1, h2⟩
    · rintro ⟨⟨q, hq, p, hp, m, hm, h1, h2⟩, hall⟩
      refine hf.complete n hF ⟨q, hq, p, (hlink _ _).2 hp, m, hm, (hown n q p m hq hp).1 h1, h2⟩ ?_
      intro q' hq' hacc p' hp'
      obtain ⟨m', hm', h3, h4⟩ := hall q' hq' hacc p' ((hlink _ _).1 hp')
      exact ⟨m', hm', (hown n q' p' m' hq' ((hlink _ _).1 hp')).1 h3, h4⟩

example := C27_filtered (by decide) dagG_reach ⟨fun n => n != 2, fun _ p => p != 7⟩ .outgoing false (S := [0, 5, 2]) (by decide)

/-- Any sequence of calls to `next` and `add_sources` on a sort: no call panics, no node is
yielded twice, and a node which was never given as a source comes after all its predecessors. -/
theorem C27_histories {maxOff : Nat} (hmax : maxOff ≤ 32767) {g : PG} (hg : PG.Reach maxOff g) (d : Direction)
    (dflt : Bool) {S : List Nat} (hS : S.Nodup) (cs : List Topo.Call) :
    ∃ l s, Topo.run (ofPG g) .all d cs (Topo.new (ofPG g) .all d dflt S) = some (l, s) ∧ l.Nodup ∧
      ∀ n ∈ l, n ∉ S → n ∉ Topo.added cs → (∃ m, Arc g d m n) ∧ ∀ m, Arc g d m n → Before l m n := by
  have hI := hg.inv hmax
  have hG := ofPG_wf hI
  have h0 := Topo.new_ok (F := .all) (d := d) (dflt := dflt) hG hS
  obtain ⟨l, s, A, e, h, hA⟩ := Topo.run_ok hG (ofPG_single.to d) cs h0
  rw [List.nil_append] at h
  have hnd := h.core.nodup
  rw [List.nodup_append] at hnd
  refine ⟨l, s, e, hnd.1, ?_⟩
  intro n hn hnS hnA
  have hn' : n ∉ S.filter Filter.all.node ++ A := by
    rw [List.mem_append]
    rintro (hc | hc)
    · exact hnS (List.mem_filter.1 hc).1
    · exact hnA (hA n hc)
  constructor
  · obtain ⟨q, hq, p, hp, m, hm, h1, _⟩ := h.core.enter n (by simp [hn]) hn'
    exact ⟨m, (varc_iff hI).1 ⟨p, h1, q, hG.link_sym _ _ hp, hq⟩⟩
  · intro m hm
    obtain ⟨p, hp, q, hq, hqn⟩ := (varc_iff hI).2 hm
    obtain ⟨a, b, hab⟩ := List.append_of_mem hn
    obtain ⟨m', hm', h1, _⟩ := h.core.order a n (b ++ s.cand) (by rw [hab]; simp) hn' q hqn rfl p (hG.link_sym _ _ hq)
    have := Topo.owner_unique hG hp h1
    subst this
    exact ⟨a, b, hab, hm'⟩

example := C27_histories (by decide) dagG_reach .outgoing false (S := [0]) (by decide) [.next, .addSources [0, 2, 3], .next, .next]

/-- `add_sources` with nodes which have ports: each of them is yielded later on, unless it already
was, and none twice. -/
theorem C27_add_sources {maxOff : Nat} (hmax : maxOff ≤ 32767) {g : PG} (hg : PG.Reach maxOff g) (d : Direction)
    (dflt : Bool) {S : List Nat} (hS : S.Nodup) (cs : List Topo.Call) (ns : List Nat) :
    ∃ l s, Topo.run (ofPG g) .all d cs (Topo.new (ofPG g) .all d dflt S) = some (l, s) ∧
      ∃ l' s', Topo.collect (ofPG g) .all d ((S ++ Topo.added cs ++ ns).length + (ofPG g).nodes.length + 1)
          (Topo.addSources (ofPG g) .all d s ns) = some (l', s') ∧ (l ++ l').Nodup ∧
        ∀ n ∈ ns, (∃ d', g.ports n d' ≠ []) → n ∈ l ∨ n ∈ l' := by
  have hI := hg.inv hmax
  have hG := ofPG_wf hI
  have h0 := Topo.new_ok (F := .all) (d := d) (dflt := dflt) hG hS
  obtain ⟨l, s, A, e, h, hA⟩ := Topo.run_ok hG (ofPG_single.to d) cs h0
  rw [List.nil_append] at h
  obtain ⟨A', hA', h', _, hin⟩ := Topo.addSources_ok hG ns h
  obtain ⟨l', s', e', h2, h3, _⟩ := Topo.collect_ok (B := S ++ Topo.added cs ++ ns) hG (ofPG_single.to d) (by
    intro x hx
    simp only [List.mem_append, List.mem_filter] at hx ⊢
    rcases hx with (⟨hx, _⟩ | hx) | hx
    · exact .inl (.inl hx)
    · exact .inl (.inr (hA x hx))
    · exact .inr (hA' x hx)) ((S ++ Topo.added cs ++ ns).length + (ofPG g).nodes.length + 1) h' (by omega)
  refine ⟨l, s, e, l', s', e', ?_, ?_⟩
  · have := h2.core.nodup
    rw [h3, List.append_nil] at this
    exact this
  · intro n hn hp
    have hm := hin n hn rfl hp
    rw [List.mem_append] at hm
    rcases hm with hm | hm
    · exact .inl hm
    · obtain ⟨l2, hl2⟩ := Topo.collect_prefix e'
      exact .inr (by rw [hl2]; simp [hm])

example := C27_add_sources (by decide) dagG_reach .outgoing false (S := [0]) (by decide) [.next, .addSources [2], .next] [5, 3]

/-- A node without ports is not added by `add_sources`, though nothing of it was yielded. -/
theorem C27_witness_add_isolated :
    (Topo.collect (ofPG dagG) .all .outgoing 20
      (Topo.addSources (ofPG dagG) .all .outgoing (Topo.new (ofPG dagG) .all .outgoing false [0]) [5])).map (·.1) =
    some [0, 1, 2, 3, 4] := by decide +kernel

/-- A source given twice is yielded twice. -/
theorem C27_witness_duplicate_source :
    (toposort (ofPG dagG) .all .outgoing false [0, 0]).map (·.1) = some [0, 0, 1, 2, 3, 4] := by decide +kernel

/-- `size_hint` of a sort over live sources does not underflow and is correct after any number of
calls. -/
theorem C27_size_hint {maxOff : Nat} (hmax : maxOff ≤ 32767) {g : PG} (hg : PG.Reach maxOff g) (d : Direction)
    (dflt : Bool) {S : List Nat} (hS : S.Nodup) (hlive : ∀ n ∈ S, g.containsNode n = true) (k : Nat) :
    ∃ l s lo hi l' s', Topo.run (ofPG g) .all d (List.replicate k .next) (Topo.new (ofPG g) .all d dflt S) = some (l, s) ∧
      Topo.sizeHint (ofPG g) s = some (lo, hi) ∧
      Topo.collect (ofPG g) .all d (S.length + (ofPG g).nodes.length + 1) s = some (l', s') ∧
      lo ≤ l'.length ∧ l'.length ≤ hi := by
  have hI := hg.inv hmax
  have hG := ofPG_wf hI
  have h0 := Topo.new_ok (F := .all) (d := d) (dflt := dflt) hG hS
  obtain ⟨l, s, A, e, h, hA⟩ := Topo.run_ok hG (ofPG_single.to d) (List.replicate k .next) h0
  have hadd : ∀ k, Topo.added (List.replicate k .next) = [] := by
    intro k
    induction k with
    | zero => rfl
    | succ k ih => simpa [List.replicate_succ, Topo.added] using ih
  have hA0 : A = [] := by
    rw [List.eq_nil_iff_forall_not_mem]
    intro x hx
    have := hA x hx
    rw [hadd] at this; simp at this
  subst hA0
  rw [List.nil_append, List.append_nil] at h
  have hB : ∀ x ∈ S.filter Filter.all.node, x ∈ S := fun x hx => (List.mem_filter.1 hx).1
  obtain ⟨l', s', e', h2, h3, h4⟩ := Topo.collect_ok (B := S) hG (ofPG_single.to d) hB (S.length + (ofPG g).nodes.length + 1) h (by omega)
  have hle : ∀ {done s}, Topo.NInv (ofPG g) .all d (S.filter Filter.all.node) done s → (done ++ s.cand).length ≤ (ofPG g).nodes.length := by
    intro done s h
    have hsub : ∀ n ∈ done ++ s.cand, n ∈ (ofPG g).nodes := by
      intro n hn
      by_cases hnS : n ∈ S.filter Filter.all.node
      · exact ofPG_nodes.2 (hlive n (hB n hnS))
      · obtain ⟨q, hq, _⟩ := h.core.enter n hn hnS
        exact (hG.ports_node _ _ _ hq).2.1
    exact (List.Nodup.subperm h.core.nodup hsub).length_le
  have hle1 := hle h
  have hle2 := hle h2
  simp only [List.length_append] at hle1 hle2
  refine ⟨l, s, s.cand.length, (ofPG g).nodes.length - s.seen, l', s', e, ?_, e', h4, ?_⟩
  · rw [Topo.sizeHint, if_pos]
    rw [h.seen]; omega
  · rw [h.seen]; omega

example := C27_size_hint (by decide) dagG_reach .outgoing false (S := [0, 5]) (by decide) (by decide) 3

/-- With a source that is not in the graph the subtraction in `size_hint` underflows. -/
theorem C27_witness_size_hint :
    ((toposort (ofPG dagG) .all .outgoing false [0, 5, 77]).map fun r => (r.1, Topo.sizeHint (ofPG dagG) r.2)) =
    some ([0, 5, 77, 1, 2, 3, 4], none) := by decide +kernel

/-! The hypotheses can be met: a diamond, sorted both ways and with filters. -/

example : (toposort (ofPG dagG) .all .outgoing false [0, 5]).map (·.1) = some [0, 5, 1, 2, 3, 4] := by decide +kernel
example : (toposort (ofPG dagG) .all .outgoing true [0, 5]).map (·.1) = some [0, 5, 1, 2, 3, 4] := by decide +kernel
example : (toposort (ofPG dagG) .all .incoming false [4, 5]).map (·.1) = some [4, 5, 3, 1, 2, 0] := by decide +kernel
example : ∃ l s, toposort (ofPG dagG) .all .outgoing false [0, 5] = some (l, s) ∧ l.Nodup ∧
    (∀ n, n ∈ l ↔ dagG.containsNode n = true) ∧ (∀ m n, Arc dagG .outgoing m n → Before l m n) ∧
    Topo.portsRemaining (ofPG dagG) s = [] := by
  have hI := dagG_reach.inv (by decide)
  have harc : ∀ m n, Arc dagG .outgoing m n → (m, n) ∈ [(0, 1), (0, 2), (1, 3), (2, 3), (3, 4)] := by
    intro m n h
    obtain ⟨p, hp, q, hq, hn⟩ := (varc_iff hI).2 h
    have hm : m ∈ (ofPG dagG).nodes := ((ofPG_wf hI).ports_node _ _ _ hp).2.1
    have hn' : n ∈ (ofPG dagG).nodes := ((ofPG_wf hI).ports_node _ _ _ hn).2.1
    have e : (ofPG dagG).nodes = [0, 1, 2, 3, 4, 5] := by decide +kernel
    rw [e] at hm hn'
    have key : ∀ m ∈ [0, 1, 2, 3, 4, 5], ∀ n ∈ [0, 1, 2, 3, 4, 5], ∀ p ∈ (ofPG dagG).ports m .outgoing,
        ∀ q ∈ (ofPG dagG).links p, q ∈ (ofPG dagG).ports n Direction.outgoing.reverse →
        (m, n) ∈ [(0, 1), (0, 2), (1, 3), (2, 3), (3, 4)] := by decide +kernel
    exact key m hm n hn' p hp q hq hn
  have hlt : ∀ m n, Relation.TransGen (Arc dagG .outgoing) m n → m < n := by
    intro m n h
    induction h with
    | single h => have := harc _ _ h; simp at this; omega
    | tail _ h ih => have := harc _ _ h; simp at this; omega
  have hback : ∀ mn ∈ [(0, 1), (0, 2), (1, 3), (2, 3), (3, 4)], Arc dagG .outgoing mn.1 mn.2 := by
    have key : ∀ mn ∈ [(0, 1), (0, 2), (1, 3), (2, 3), (3, 4)], ∃ p ∈ (ofPG dagG).ports mn.1 .outgoing,
        ∃ q ∈ (ofPG dagG).links p, q ∈ (ofPG dagG).ports mn.2 Direction.outgoing.reverse := by decide +kernel
    intro mn h
    exact (varc_iff hI).1 (key mn h)
  refine C27_acyclic (by decide) dagG_reach .outgoing false (by decide) (fun n h => Nat.lt_irrefl _ (hlt n n h)) ?_
  intro n
  constructor
  · intro h
    simp at h
    refine ⟨?_, fun m hm => ?_⟩
    · rcases h with rfl | rfl <;> decide
    · have := harc _ _ hm; simp at this; omega
  · rintro ⟨h, h'⟩
    have hn : n ∈ (ofPG dagG).nodes := ofPG_nodes.2 h
    have e : (ofPG dagG).nodes = [0, 1, 2, 3, 4, 5] := by decide +kernel
    rw [e] at hn
    simp at hn
    rcases hn with rfl | rfl | rfl | rfl | rfl | rfl
    · simp
    · exact absurd (hback (0, 1) (by simp)) (h' 0)
    · exact absurd (hback (0, 2) (by simp)) (h' 0)
    · exact absurd (hback (1, 3) (by simp)) (h' 1)
    · exact absurd (hback (3, 4) (by simp)) (h' 3)
    · simp
example : (toposort (ofPG dagG) ⟨fun n => n != 2, fun _ p => p != 7⟩ .outgoing false [0, 5, 2]).map (·.1) =
    some [0, 5, 1, 3, 4] := by decide +kernel
example : (toposort (ofPG exG) .all .outgoing false []).map (fun r => (r.1, Topo.portsRemaining (ofPG exG) r.2)) =
    some ([], [0, 1, 2, 3, 4, 5, 6, 8, 9]) := by decide +kernel
example : (Topo.run (ofPG dagG) .all .outgoing [.next, .addSources [0, 2, 3], .next, .next, .next, .next, .next]
    (Topo.new (ofPG dagG) .all .outgoing false [0])).map (·.1) = some [0, 1, 2, 3, 4] := by decide +kernel

#print axioms C27_toposort
#print axioms C27_acyclic
#print axioms C27_cycle_not_yielded
#print axioms C27_filtered
#print axioms C27_histories
#print axioms C27_add_sources
#print axioms C27_size_hint
#print axioms C27_witness_size_hint

end Verif.Algo
