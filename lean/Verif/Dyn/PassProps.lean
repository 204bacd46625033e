import Verif.Dyn.PassModel
import Verif.Dyn.ConvexProps
import Verif.PortGraph.PropsCompact
import Verif.PortGraph.PropsSet
import Mathlib.Data.List.Sort

/-!
# C70: the graph calls that the dynamic convexity checker passes on

`set_num_ports` and `compact_ports` keep the order valid. `swap_nodes`, `compact_nodes` and `clear` rename or
remove nodes and leave the order as it is; the theorems say exactly when it is still valid.
-/

namespace Verif.Dyn

open Verif (Direction)
open Verif.PG
open Verif.Algo
open Verif.Convex

/-- An order that is valid stays so if the nodes are the same and no arc is new. -/
theorem Valid.subset {D : TSort} {V V' : Nat → Prop} {R R' : Nat → Nat → Prop} (h : Valid D V R) (hV : ∀ n, V' n ↔ V n)
    (hR : ∀ a b, R' a b → R a b) : Valid D V' R' :=
  ⟨h.nodup, fun n => (h.mem n).trans (hV n).symm, h.pos, fun a b hab => h.forward a b (hR a b hab)⟩

/-- `set_num_ports` acts on the graph as its own method does, and keeps the order valid. -/
theorem C70_set_num_ports {maxOff : Nat} (hmax : maxOff ≤ 32767) {c : Checker} (h : Ok maxOff c) {n i o : Nat}
    (hok : PG.Op.ok maxOff c.graph (.setNumPorts n i o)) :
    ∃ c' tr, c.setNumPorts n i o = some (c', tr) ∧ c.graph.setNumPorts n i o = some (c'.graph, tr) ∧ c'.topo = c.topo ∧
      Ok maxOff c' := by
  obtain ⟨g', h1, h2⟩ := step_ok hmax (h.graph.inv hmax) hok
  have hr : PG.Reach maxOff g' := h.graph.step hok h1
  simp only [PG.step, Option.map_eq_some_iff] at h1
  obtain ⟨⟨g2, tr⟩, h3, rfl⟩ := h1
  refine ⟨⟨c.topo, g2⟩, tr, by simp [Checker.setNumPorts, h3], h3, rfl, hr, ?_⟩
  cases hn : c.graph.containsNode n with
  | false =>
    obtain ⟨hi, ho, -⟩ := hok
    rw [C12_set_num_ports_unknown hn hi ho] at h3
    cases h3
    exact h.topo
  | true =>
    obtain ⟨ha, -⟩ := C12_set_num_ports hmax h.graph hn h3
    refine h.topo.subset (fun x => ?_) ?_
    · rw [live_counts, live_counts, ha]
      simp only [AGraph.resize]
      by_cases hx : x = n
      · simp only [hx, if_true, Option.isSome_some, true_iff]
        exact live_counts.1 hn
      · simp only [hx, if_false]
    · rintro a b ⟨j, k, hl⟩
      simp only [ha, AGraph.resize] at hl
      exact ⟨j, k, (cut_link.1 hl).1⟩

/-- `compact_ports` (where it keeps the graph in order, see C16) keeps the order valid. -/
theorem C70_compact_ports {maxOff : Nat} (hmax : maxOff ≤ 32767) {c : Checker} (h : Ok maxOff c)
    (hok : PG.Op.ok maxOff c.graph .compactPorts) :
    ∃ c' tr, c.compactPorts = some (c', tr) ∧ c.graph.compactPorts = some (c'.graph, tr) ∧ c'.topo = c.topo ∧ Ok maxOff c' := by
  obtain ⟨g', tr, h1, h2, -, -, -, h3, -⟩ := C16_compact_ports_partial hmax h.graph
  refine ⟨⟨c.topo, g'⟩, tr, by simp [Checker.compactPorts, h1], h1, rfl, h2 hok, ?_⟩
  refine h.topo.subset (fun x => ?_) ?_
  · simp only [live_counts, h3]
  · rintro a b ⟨j, k, hl⟩
    exact ⟨j, k, by rw [← h3]; exact hl⟩

theorem exchange_exchange (a b n : Nat) : exchange a b (exchange a b n) = n := by unfold exchange; grind

/-- The nodes and arcs after a renaming of the nodes by an exchange. -/
theorem renamed_live {g g' : PG} {a b : Nat} (h : AGraph.Renamed (exchange a b) g.abs g'.abs) (n : Nat) :
    g'.containsNode n = true ↔ g.containsNode (exchange a b n) = true := by
  rw [live_counts, live_counts, Option.isSome_iff_exists, Option.isSome_iff_exists]
  constructor
  · rintro ⟨x, hx⟩
    obtain ⟨m, rfl, hm⟩ := (h.counts n x).1 hx
    rw [exchange_exchange]; exact ⟨x, hm⟩
  · rintro ⟨x, hx⟩
    exact ⟨x, (h.counts n x).2 ⟨_, exchange_exchange a b n, hx⟩⟩

theorem renamed_arc {g g' : PG} {a b : Nat} (h : AGraph.Renamed (exchange a b) g.abs g'.abs) (x y : Nat) :
    Arc g' .outgoing x y ↔ Arc g .outgoing (exchange a b x) (exchange a b y) := by
  unfold Arc
  constructor
  · rintro ⟨j, k, hl⟩
    obtain ⟨e, f, he, hf, hl'⟩ := (h.link _ _).1 hl
    obtain ⟨e1, e2⟩ := e
    obtain ⟨f1, f2⟩ := f
    simp only [AGraph.mapNode, Prod.mk.injEq] at he hf
    obtain ⟨rfl, rfl⟩ := he
    obtain ⟨rfl, rfl⟩ := hf
    exact ⟨j, k, by simpa only [exchange_exchange] using hl'⟩
  · rintro ⟨j, k, hl⟩
    exact ⟨j, k, (h.link _ _).2 ⟨_, _, by simp [AGraph.mapNode, exchange_exchange], by simp [AGraph.mapNode, exchange_exchange], hl⟩⟩

/-- `swap_nodes` leaves the order. It is valid for the new graph exactly if both nodes are live and every arc
goes forward after the exchange of the two nodes in it. -/
theorem C70_swap_nodes {maxOff : Nat} (hmax : maxOff ≤ 32767) {c : Checker} (h : Ok maxOff c) {a b : Nat}
    (hab : c.graph.swappable a b = true) :
    ∃ c', c.swapNodes a b = some c' ∧ c.graph.swapNodes a b = some c'.graph ∧ c'.topo = c.topo ∧
      (Ok maxOff c' ↔ c.graph.containsNode a = true ∧ c.graph.containsNode b = true ∧
        ∀ x y, Arc c.graph .outgoing x y → Before c.topo.order (exchange a b x) (exchange a b y)) := by
  obtain ⟨g', h1, h2, h3, -⟩ := C17_swap_nodes_partial hmax h.graph hab
  refine ⟨⟨c.topo, g'⟩, by simp [Checker.swapNodes, h1], h1, rfl, ?_⟩
  have ea : exchange a b a = b := by simp [exchange]
  have eb : exchange a b b = a := by unfold exchange; grind
  constructor
  · intro h'
    have hm : ∀ n, c.graph.containsNode n = true ↔ c.graph.containsNode (exchange a b n) = true := by
      intro n
      rw [← renamed_live h3, ← h.topo.mem, ← h'.topo.mem]
    have hl : c.graph.containsNode a = true ∨ c.graph.containsNode b = true := by
      unfold PG.swappable at hab
      cases e1 : c.graph.containsNode a <;> cases e2 : c.graph.containsNode b <;> simp [e1, e2] at hab ⊢
    have hmm := hm a
    rw [ea] at hmm
    have hboth : c.graph.containsNode a = true ∧ c.graph.containsNode b = true := by
      rcases hl with hl | hl
      · exact ⟨hl, hmm.1 hl⟩
      · exact ⟨hmm.2 hl, hl⟩
    refine ⟨hboth.1, hboth.2, fun x y hxy => ?_⟩
    refine h'.topo.forward _ _ ((renamed_arc h3 _ _).2 ?_)
    rwa [exchange_exchange, exchange_exchange]
  · rintro ⟨ha, hb, harc⟩
    refine ⟨h2, h.topo.nodup, fun n => ?_, h.topo.pos, fun x y hxy => ?_⟩
    · rw [h.topo.mem, renamed_live h3]
      unfold exchange
      by_cases e1 : n = a
      · simp [e1, ha, hb]
      · by_cases e2 : n = b
        · subst e2; simp [e1, ha, hb]
        · simp [e1, e2]
    · have := harc _ _ ((renamed_arc h3 x y).1 hxy)
      simpa only [exchange_exchange] using this

/-- The nodes after `compact_nodes` are the first indices; they are the old ones, renamed. -/
theorem compact_live {maxOff : Nat} (hmax : maxOff ≤ 32767) {g g' : PG} (hg : PG.Reach maxOff g) {tr}
    (h1 : g.compactNodes = some (g', tr)) :
    ∃ ρ : Nat → Nat, (∀ x ∈ tr, ρ x.1 = x.2) ∧ AGraph.Renamed ρ g.abs g'.abs ∧
      ∀ n, g'.containsNode n = true ↔ n < g.nodeCount := by
  obtain ⟨g2, tr2, e1, h2, h3, h4, h5, -⟩ := C15_compact_nodes hmax hg
  rw [h1] at e1; cases e1
  have hnd : (tr.map (·.1)).Nodup := h2.imp (fun h => Nat.ne_of_lt h)
  obtain ⟨ρ, hρ⟩ : ∃ ρ : Nat → Nat, ∀ x ∈ tr, ρ x.1 = x.2 := by
    clear h1 h2 h3 h4 h5
    induction tr with
    | nil => exact ⟨id, by simp⟩
    | cons x tr ih =>
      simp only [List.map_cons, List.nodup_cons] at hnd
      obtain ⟨ρ, hρ⟩ := ih hnd.2
      refine ⟨fun n => if n = x.1 then x.2 else ρ n, fun y hy => ?_⟩
      rcases List.mem_cons.1 hy with rfl | hy
      · simp
      · have : y.1 ≠ x.1 := fun e => hnd.1 (by rw [← e]; exact List.mem_map_of_mem hy)
        simp only [this, if_false]; exact hρ y hy
  obtain ⟨hren, -⟩ := h5 ρ hρ
  have hlive : ∀ n, g'.containsNode n = true ↔ n < g.nodeCount := by
    intro n
    rw [live_counts, Option.isSome_iff_exists, ← List.mem_range, ← h4, List.mem_map]
    constructor
    · rintro ⟨x, hx⟩
      obtain ⟨m, rfl, hm⟩ := (hren.counts n x).1 hx
      obtain ⟨y, hy, hy'⟩ := List.mem_map.1 ((h3 m).2 (live_counts.2 (by rw [hm]; rfl)))
      exact ⟨y, hy, by rw [← hρ y hy, hy']⟩
    · rintro ⟨y, hy, rfl⟩
      have := (h3 y.1).1 (List.mem_map_of_mem hy)
      obtain ⟨x, hx⟩ := Option.isSome_iff_exists.1 (live_counts.1 this)
      exact ⟨x, (hren.counts _ x).2 ⟨y.1, hρ y hy, hx⟩⟩
  exact ⟨ρ, hρ, hren, hlive⟩

/-- `compact_nodes` leaves the order. It is valid for the new graph exactly if the node indices had no gaps. -/
theorem C70_compact_nodes {maxOff : Nat} (hmax : maxOff ≤ 32767) {c : Checker} (h : Ok maxOff c) :
    ∃ c' tr, c.compactNodes = some (c', tr) ∧ c.graph.compactNodes = some (c'.graph, tr) ∧ c'.topo = c.topo ∧
      (Ok maxOff c' ↔ ∀ n, c.graph.containsNode n = true ↔ n < c.graph.nodeCount) := by
  obtain ⟨g', tr, h1, h2, h3, h4, h5, -⟩ := C15_compact_nodes hmax h.graph
  have hr : PG.Reach maxOff g' := h.graph.step (op := .compactNodes) trivial (by simp [PG.step, h1])
  refine ⟨⟨c.topo, g'⟩, tr, by simp [Checker.compactNodes, h1], h1, rfl, ?_⟩
  obtain ⟨ρ, hρ, hren, hlive⟩ := compact_live hmax h.graph h1
  constructor
  · intro h' n
    rw [← h.topo.mem, ← hlive, ← h'.topo.mem]
  · intro hgap
    -- nothing moves
    have hfst : tr.map (·.1) = List.range c.graph.nodeCount :=
      h2.eq_of_mem_iff (List.pairwise_lt_range) fun n => by rw [h3, hgap, List.mem_range]
    have hsame : ∀ n, c.graph.containsNode n = true → ρ n = n := by
      intro n hn
      obtain ⟨i, hi, rfl⟩ := List.mem_iff_getElem.1 ((h3 n).2 hn)
      have hi' : i < tr.length := by simpa using hi
      have e1 := congrArg (·[i]?) hfst
      have e2 := congrArg (·[i]?) h4
      have hc : i < c.graph.nodeCount := by
        have := congrArg List.length h4
        simp at this; omega
      simp only [List.getElem?_map, List.getElem?_eq_getElem hi', List.getElem?_range hc, Option.map_some,
        Option.some.injEq] at e1 e2
      rw [List.getElem_map, hρ _ (List.getElem_mem hi'), e1, e2]
    refine ⟨hr, h.topo.subset (fun n => by rw [hlive, hgap]) ?_⟩
    rintro a b ⟨j, k, hl⟩
    obtain ⟨⟨e1, e2⟩, ⟨f1, f2⟩, he, hf, hl'⟩ := (hren.link _ _).1 hl
    simp only [AGraph.mapNode, Prod.mk.injEq] at he hf
    have harc : Arc c.graph .outgoing e1 f1 := by
      obtain ⟨-, rfl⟩ := he
      obtain ⟨-, rfl⟩ := hf
      exact ⟨j, k, hl'⟩
    obtain ⟨l1, l2⟩ := arc_live (h.graph.inv hmax) harc
    rw [hsame _ l1] at he
    rw [hsame _ l2] at hf
    rw [← he.1, ← hf.1]; exact harc

/-- What the checker does with a node that is not in its order, and with one that is only in its order. -/
theorem C70_stale (c : Checker) (k : Nat) :
    (c.topo.pos k = none → c.isConvex [k] [] [] = some false ∧ c.removeNode k = none) ∧
      (∀ i, c.topo.pos k = some i → c.isConvex [k] [] [] = some true) := by
  refine ⟨fun hk => ⟨by simp [Checker.isConvex, hk], ?_⟩, fun i hk => by simp [Checker.isConvex, hk]⟩
  unfold Checker.removeNode
  cases c.graph.removeNode k with
  | none => rfl
  | some g => simp [TSort.removeNode, hk]

/-- If the node indices had gaps, then after `compact_nodes` some node of the graph is unknown to the order: it
is not convex, and its removal panics. -/
theorem C70_compact_nodes_lost {maxOff : Nat} (hmax : maxOff ≤ 32767) {c c' : Checker} (h : Ok maxOff c) {tr}
    (hc : c.compactNodes = some (c', tr)) {n : Nat} (hn : c.graph.containsNode n = true) (hgap : c.graph.nodeCount ≤ n) :
    (∃ k, c'.graph.containsNode k = true ∧ c'.isConvex [k] [] [] = some false ∧ c'.removeNode k = none) ∧
      c'.graph.containsNode n = false ∧ c'.isConvex [n] [] [] = some true := by
  obtain ⟨c2, tr2, h1, h2, h3, -⟩ := C70_compact_nodes hmax h
  rw [hc] at h1; cases h1
  obtain ⟨g', tr', e1, e2, e3, e4, -⟩ := C15_compact_nodes hmax h.graph
  rw [h2] at e1; cases e1
  obtain ⟨-, -, -, hlive⟩ := compact_live hmax h.graph h2
  obtain ⟨i, hi⟩ := h.topo.tracked.1 hn
  refine ⟨?_, ?_, (C70_stale c' n).2 i (by rw [h3]; exact hi)⟩
  · -- the order has as many nodes as there are indices, and one of them is too large
    by_contra hno
    have hall : ∀ k < c.graph.nodeCount, k ∈ c.topo.order := by
      intro k hk
      by_contra hko
      refine hno ⟨k, (hlive k).2 hk, (C70_stale c' k).1 ?_⟩
      rw [h3]
      cases hp : c.topo.pos k with
      | none => rfl
      | some i => exact absurd ((h.topo.mem k).2 (h.topo.tracked.2 ⟨i, hp⟩)) hko
    have hlen : c.topo.order.length = c.graph.nodeCount := by
      have hperm : c.topo.order.Perm (tr.map (·.1)) :=
        (List.perm_ext_iff_of_nodup h.topo.nodup (e2.imp (fun h => Nat.ne_of_lt h))).2 fun x => by
          rw [h.topo.mem, e3]
      have hl := congrArg List.length e4
      simp only [List.length_map, List.length_range] at hl
      rw [hperm.length_eq, List.length_map, hl]
    have hsub : (n :: List.range c.graph.nodeCount).Subperm c.topo.order := by
      refine List.Nodup.subperm ?_ ?_
      · refine List.nodup_cons.2 ⟨?_, List.nodup_range⟩
        rw [List.mem_range]; omega
      · intro x hx
        rcases List.mem_cons.1 hx with rfl | hx
        · exact (h.topo.mem _).2 hn
        · exact hall x (List.mem_range.1 hx)
    have := hsub.length_le
    simp only [List.length_cons, List.length_range] at this
    omega
  · have := hlive n
    rw [Bool.eq_false_iff]
    intro hx
    have := this.1 hx
    omega

/-- `clear` leaves the order. It is valid for the empty graph exactly if the graph had no nodes. A node that was
there is still convex, and no node can be removed. -/
theorem C70_clear {maxOff : Nat} {c : Checker} (h : Ok maxOff c) :
    (Ok maxOff c.clear ↔ ∀ n, c.graph.containsNode n = false) ∧
      ∀ n, c.graph.containsNode n = true → c.clear.graph.containsNode n = false ∧ c.clear.isConvex [n] [] [] = some true := by
  have hempty : ∀ n, c.clear.graph.containsNode n = false := fun n => rfl
  refine ⟨⟨fun h' n => ?_, fun hn => ⟨.init, h.topo.subset (fun n => by rw [hempty, hn]) ?_⟩⟩, fun n hn => ⟨hempty n, ?_⟩⟩
  · rw [Bool.eq_false_iff]
    intro hx
    have := (h'.topo.mem n).1 ((h.topo.mem n).2 hx)
    rw [hempty] at this; cases this
  · rintro a b ⟨j, k, hl⟩
    simp only [Checker.clear, (C18_clear (maxOff := maxOff) c.graph []).2.1, AGraph.empty] at hl
    cases hl
  · obtain ⟨i, hi⟩ := h.topo.tracked.1 hn
    exact (C70_stale c.clear n).2 i hi

/-- Checkers obtained by any calls, where a call that would leave the order behind (see above) is excluded. -/
inductive UsedAll (maxOff : Nat) : Checker → Prop where
  | new {g c} : PG.Reach maxOff g → Acyclic (Arc g .outgoing) → Checker.new g = some c → UsedAll maxOff c
  | add {c i o n c'} : UsedAll maxOff c → i ≤ maxOff → o ≤ maxOff → c.addNode maxOff i o = some (n, c') → UsedAll maxOff c'
  | remove {c n c'} : UsedAll maxOff c → c.removeNode n = some c' → UsedAll maxOff c'
  | unlink {c p r c'} : UsedAll maxOff c → c.unlinkPort p = some (r, c') → UsedAll maxOff c'
  | link {c p q a b pa pb c'} : UsedAll maxOff c → c.graph.portDirection p = some .outgoing →
      c.graph.portNode p = some a → c.graph.portNode q = some b →
      c.topo.pos a = some pa → c.topo.pos b = some pb → Good c.topo (Arc c.graph .outgoing) (ofPG c'.graph) a b pa pb →
      c.linkPorts p q = some (.ok (p, q), c') → UsedAll maxOff c'
  | fail {c p q e c'} : UsedAll maxOff c → c.linkPorts p q = some (.error e, c') → UsedAll maxOff c'
  | setPorts {c n i o c' tr} : UsedAll maxOff c → PG.Op.ok maxOff c.graph (.setNumPorts n i o) →
      c.setNumPorts n i o = some (c', tr) → UsedAll maxOff c'
  | packPorts {c c' tr} : UsedAll maxOff c → PG.Op.ok maxOff c.graph .compactPorts →
      c.compactPorts = some (c', tr) → UsedAll maxOff c'
  | packNodes {c c' tr} : UsedAll maxOff c → (∀ n, c.graph.containsNode n = true ↔ n < c.graph.nodeCount) →
      c.compactNodes = some (c', tr) → UsedAll maxOff c'
  | swap {c a b c'} : UsedAll maxOff c → c.graph.containsNode a = true → c.graph.containsNode b = true →
      (∀ x y, Arc c.graph .outgoing x y → Before c.topo.order (exchange a b x) (exchange a b y)) →
      c.swapNodes a b = some c' → UsedAll maxOff c'
  | clear {c} : UsedAll maxOff c → (∀ n, c.graph.containsNode n = false) → UsedAll maxOff c.clear

/-- The graph and the order stay in step. What is missing: the calls that leave the order behind; for each of
them the theorems above and C34 say exactly which they are. -/
theorem C70_history_partial {maxOff : Nat} (hmax : maxOff ≤ 32767) {c : Checker} (h : UsedAll maxOff c) : Ok maxOff c := by
  induction h with
  | new hg hac hc =>
    obtain ⟨c', h1, -, h2⟩ := C34_new hmax hg hac
    rw [hc] at h1; cases h1; exact h2
  | add hu hi ho hc ih =>
    obtain ⟨n', c'', h1, -, h2⟩ := C34_add_node hmax ih hi ho
    rw [hc] at h1; cases h1; exact h2
  | @remove c n c' hu hc ih =>
    cases hn : c.graph.containsNode n with
    | false => rw [(C34_remove_unknown ih hn).1] at hc; simp at hc
    | true =>
      obtain ⟨c'', h1, -, h2⟩ := C34_remove_node hmax ih hn
      rw [hc] at h1; cases h1; exact h2
  | unlink hu hc ih =>
    obtain ⟨r, c'', h1, -, -, h2⟩ := C34_unlink_port hmax ih _
    rw [hc] at h1; cases h1; exact h2
  | link hu hd ha hb hpa hpb hgood hc ih => exact link_ok hmax ih hd ha hb hpa hpb hgood hc
  | fail hu hc ih => rw [C34_link_error hmax ih hc]; exact ih
  | setPorts hu hok hc ih =>
    obtain ⟨c'', tr, h1, -, -, h2⟩ := C70_set_num_ports hmax ih hok
    rw [hc] at h1; cases h1; exact h2
  | packPorts hu hok hc ih =>
    obtain ⟨c'', tr, h1, -, -, h2⟩ := C70_compact_ports hmax ih hok
    rw [hc] at h1; cases h1; exact h2
  | packNodes hu hgap hc ih =>
    obtain ⟨c'', tr, h1, -, -, h2⟩ := C70_compact_nodes hmax ih
    rw [hc] at h1; cases h1; exact h2.2 hgap
  | @swap c a b c' hu ha hb harc hc ih =>
    have hs : c.graph.swappable a b = true := by simp [PG.swappable, ha, hb]
    obtain ⟨c'', h1, -, -, h2⟩ := C70_swap_nodes hmax ih hs
    rw [hc] at h1; cases h1; exact h2.2 ⟨ha, hb, harc⟩
  | clear hu hn ih => exact (C70_clear ih).1.2 hn

/-! ## Examples -/

-- the hypotheses hold for the checker of a diamond, whose indices have no gaps
example : ∃ c, Checker.new dagG = some c ∧ Ok 32767 c ∧ c.graph.swappable 0 3 = true ∧ PG.Op.ok 32767 c.graph (.setNumPorts 1 2 2) := by
  obtain ⟨c, h1, h0, h2⟩ := C34_new (by decide) dagG_reach dagG_acyclic
  exact ⟨c, h1, h2, by rw [h0]; decide +kernel, by decide, by decide, .inl (by decide)⟩

/-- Failure: after the exchange of the ends of the chain 0 → 1 → 2 the arcs go backward, and the two ends are accepted
as convex. -/
theorem C70_witness_swap : ((three.bind (linkAll [(1, 2), (3, 4)])).bind fun c => c.swapNodes 0 2).map
    (fun c => (c.topo.order, c.isConvex [0, 2] [] [])) = some ([0, 1, 2], some true) := by decide +kernel

/-- Failure: after the removal of node 0 and `compact_nodes` the graph has the nodes 0 and 1, and the order 1 and 2. The
set of both nodes is refused, and the removal of node 0 panics. -/
theorem C70_witness_compact : ((three.bind fun c => c.removeNode 0).bind fun c => c.compactNodes).map
    (fun x => (x.1.topo.order, (ofPG x.1.graph).nodes, x.1.isConvex [0, 1] [] [], (x.1.removeNode 0).isNone)) =
    some ([1, 2], [0, 1], some false, true) := by decide +kernel

-- after `clear` a new node that gets the index of an old one is at the place of the old one
example : ((three.map fun c => c.clear).bind fun c => c.addNode 32767 1 1).map (fun x => (x.1, x.2.topo.order)) =
    some (0, [0, 1, 2]) := by decide +kernel

-- `set_num_ports` with fewer ports drops the link, and then the reverse link can be made
example : (((three.bind (linkAll [(1, 2)])).bind fun c => c.setNumPorts 0 1 0).bind fun x => linkAll [(3, 0)] x.1).map
    (fun c => c.topo.order) = some [1, 0, 2] := by decide +kernel

example := C70_set_num_ports (by decide) dagC_ok.2 (n := 1) (i := 2) (o := 2) ⟨by decide, by decide, .inl (by decide)⟩

example := C70_compact_ports (by decide) dagC_ok.2 (okCheck_ok (by rw [dagC_ok.1]; decide +kernel))

example := C70_swap_nodes (by decide) dagC_ok.2 (a := 1) (b := 2) (by rw [dagC_ok.1]; decide +kernel)

example := C70_compact_nodes (by decide) dagC_ok.2

example : ∃ c c' tr, Ok 32767 c ∧ c.compactNodes = some (c', tr) ∧ c.graph.containsNode 5 = true ∧ c.graph.nodeCount ≤ 5 := by
  obtain ⟨c, h1, h2, h3⟩ := C34_remove_node (by decide) dagC_ok.2 (n := 3) (by rw [dagC_live]; decide +kernel)
  obtain ⟨c', tr, h4, -⟩ := C70_compact_nodes (by decide) h3
  rw [dagC_ok.1] at h2
  have h5 : dagG.removeNode 3 = some ((dagG.removeNode 3).getD dagG) := by rfl
  rw [h5, Option.some.injEq] at h2
  refine ⟨c, c', tr, h3, h4, ?_, ?_⟩ <;> rw [← h2] <;> decide +kernel

example := C70_clear dagC_ok.2

#print axioms C70_set_num_ports
#print axioms C70_compact_ports
#print axioms C70_swap_nodes
#print axioms C70_compact_nodes
#print axioms C70_compact_nodes_lost
#print axioms C70_stale
#print axioms C70_clear
#print axioms C70_history_partial
#print axioms C70_witness_swap
#print axioms C70_witness_compact

end Verif.Dyn
