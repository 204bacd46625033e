import Verif.Convex.TopoGen
import Verif.Algo.TopoProps
import Verif.Algo.PostProps

/-!
# Properties of `TopoConvexChecker`
-/

namespace Verif.Convex

open Verif (Direction)
open Verif.PG
open Verif.Algo

/-- `order` lists the nodes of `g` once, and every link goes forward. -/
structure TopoOrder (g : PG) (order : List Nat) : Prop where
  nodup : order.Nodup
  mem : ∀ n, n ∈ order ↔ g.containsNode n = true
  arcs : ∀ m n, Arc g .outgoing m n → Before order m n

/-- The checker for a given order. -/
def Topo.ofOrder (g : PG) (order : List Nat) : Topo :=
  ⟨ofPG g, order, fun n => if n ∈ order then order.idxOf n else 0⟩

theorem arc_live {g : PG} (hI : Inv g) {d m n} (h : Arc g d m n) :
    g.containsNode m = true ∧ g.containsNode n = true := by
  have := varc_nodes (ofPG_wf hI) ((varc_iff hI).2 h)
  exact ⟨ofPG_nodes.1 this.1, ofPG_nodes.1 this.2⟩

/-- Whatever topological order was precomputed, `is_node_convex(S)` does not panic and holds
exactly when no path between two nodes of `S` leaves `S`. -/
theorem C31_any_order {maxOff : Nat} (hmax : maxOff ≤ 32767) {g : PG} (hg : PG.Reach maxOff g) {order : List Nat}
    (ho : TopoOrder g order) {S : List Nat} (hS : ∀ n ∈ S, g.containsNode n = true) :
    ∃ r, (Topo.ofOrder g order).isNodeConvex S = some r ∧ (r = true ↔ Convex (Arc g .outgoing) S) := by
  have hI := hg.inv hmax
  refine checker_ok (c := Topo.ofOrder g order) ho.nodup ho.arcs (fun n hn => if_pos hn) ?_ fun n hn => (ho.mem n).2 (hS n hn)
  intro m _ n
  rw [← varc_iff hI]
  exact mem_neighbours (ofPG_wf hI)

/-- On an acyclic graph `TopoConvexChecker::new` finds a topological order. -/
theorem C31_new {maxOff : Nat} (hmax : maxOff ≤ 32767) {g : PG} (hg : PG.Reach maxOff g)
    (hac : Acyclic (Arc g .outgoing)) :
    ∃ order, Topo.new (ofPG g) = some (Topo.ofOrder g order) ∧ TopoOrder g order := by
  have hI := hg.inv hmax
  obtain ⟨l, s, h1, h2, h3, h4, _⟩ := C27_acyclic hmax hg .outgoing false
    (S := (ofPG g).nodes.filter fun n => (neighbours (ofPG g) n .incoming).isEmpty)
    ((ofPG_wf hI).nodes_nodup.filter _) hac (by
      intro n
      simp only [List.mem_filter, ofPG_nodes, List.isEmpty_iff, List.eq_nil_iff_forall_not_mem,
        mem_neighbours (ofPG_wf hI)]
      refine and_congr_right fun _ => forall_congr' fun m => ?_
      rw [not_iff_not, ← varc_iff hI]
      constructor <;> rintro ⟨p, hp, q, hq, hn⟩
      · exact ⟨q, by simpa [Direction.reverse] using hn, p, (ofPG_wf hI).link_sym _ _ hq, hp⟩
      · exact ⟨q, by simpa [Direction.reverse] using hn, p, (ofPG_wf hI).link_sym _ _ hq, hp⟩)
  exact ⟨l, by simp only [Topo.new, h1]; rfl, h2, h3, h4⟩

/-- On an acyclic graph, the checker made by `new` answers `is_node_convex(S)` with true exactly
when no path between two nodes of `S` leaves `S`. -/
theorem C31_is_node_convex {maxOff : Nat} (hmax : maxOff ≤ 32767) {g : PG} (hg : PG.Reach maxOff g)
    (hac : Acyclic (Arc g .outgoing)) {S : List Nat} (hS : ∀ n ∈ S, g.containsNode n = true) :
    ∃ c r, Topo.new (ofPG g) = some c ∧ c.isNodeConvex S = some r ∧ (r = true ↔ Convex (Arc g .outgoing) S) := by
  obtain ⟨order, h1, h2⟩ := C31_new hmax hg hac
  obtain ⟨r, h3, h4⟩ := C31_any_order hmax hg h2 hS
  exact ⟨_, r, h1, h3, h4⟩

theorem link_arc {g : PG} (hI : Inv g) {m n : Nat} : Arc g .outgoing m n ↔ ∃ p q, Link g m p q n := by
  rw [← varc_iff hI]
  unfold VArc Link
  constructor
  · rintro ⟨p, hp, q, hq, hn⟩
    refine ⟨p, q, hp, ?_, hn⟩
    simp only [ofPG] at hq
    cases e : g.portLink? p with
    | none => simp [e] at hq
    | some o => simp [e] at hq; simp [hq]
  · rintro ⟨p, q, hp, hq, hn⟩
    exact ⟨p, hp, q, by simp [ofPG, hq], hn⟩

/-- Convexity of a subgraph is convexity of its nodes, and that no output port is linked to an input
port. -/
theorem portConvex_iff {g : PG} (hI : Inv g) {S inputs outputs : List Nat}
    (hin : ∀ p ∈ inputs, ∃ n ∈ S, p ∈ g.ports n .incoming)
    (hout : ∀ p ∈ outputs, ∃ n ∈ S, p ∈ g.ports n .outgoing) :
    PortConvex g S inputs outputs ↔
      (¬ ∃ p ∈ outputs, ∃ q ∈ inputs, g.portLink? p = some (some q)) ∧ Convex (Arc g .outgoing) S := by
  constructor
  · intro h
    refine ⟨?_, ?_⟩
    · rintro ⟨p, hp, q, hq, e⟩
      obtain ⟨m, hm, hpm⟩ := hout p hp
      obtain ⟨n, hn, hqn⟩ := hin q hq
      exact (h m hm n hn m p q n .refl ⟨hpm, e, hqn⟩ .refl).2.2 ⟨hp, hq⟩
    · intro s hs t ht x hsx hxt
      cases Relation.ReflTransGen.cases_head hxt with
      | inl e => exact e ▸ ht
      | inr hy =>
        obtain ⟨y, hxy, hyt⟩ := hy
        obtain ⟨p, q, hl⟩ := (link_arc hI).1 hxy
        exact (h s hs t ht x p q y hsx hl hyt).1
  · rintro ⟨hc, h⟩ s hs t ht m p q n hsm hl hnt
    have ha := (link_arc hI).2 ⟨p, q, hl⟩
    refine ⟨h s hs t ht m hsm (.head ha hnt), h s hs t ht n (hsm.tail ha) hnt, ?_⟩
    rintro ⟨hp, hq⟩
    exact hc ⟨p, hp, q, hq, hl.2.1⟩

/-- The check of the boundary ports. -/
theorem any_links {g : PG} {inputs outputs : List Nat} :
    (inputs.any fun p => (outputs.filterMap fun p => ((ofPG g).links p).head?).contains p) = true ↔
      ∃ p ∈ outputs, ∃ q ∈ inputs, g.portLink? p = some (some q) := by
  simp only [List.any_eq_true, List.contains_eq_mem, decide_eq_true_eq, List.mem_filterMap, ofPG]
  constructor
  · rintro ⟨q, hq, p, hp, e⟩
    refine ⟨p, hp, q, hq, ?_⟩
    cases e' : g.portLink? p with
    | none => simp [e'] at e
    | some o => simp [e'] at e; simp [e]
  · rintro ⟨p, hp, q, hq, e⟩
    exact ⟨q, hq, p, hp, by simp [e]⟩

/-- `is_convex(S, inputs, outputs)`, for input ports and output ports of nodes of `S`: it holds
exactly when every link on a path between two nodes of `S` is within the subgraph. -/
theorem C31_is_convex {maxOff : Nat} (hmax : maxOff ≤ 32767) {g : PG} (hg : PG.Reach maxOff g)
    (hac : Acyclic (Arc g .outgoing)) {S inputs outputs : List Nat} (hS : ∀ n ∈ S, g.containsNode n = true)
    (hin : ∀ p ∈ inputs, ∃ n ∈ S, p ∈ g.ports n .incoming)
    (hout : ∀ p ∈ outputs, ∃ n ∈ S, p ∈ g.ports n .outgoing) :
    ∃ c r, Topo.new (ofPG g) = some c ∧ c.isConvex S inputs outputs = some r ∧
      (r = true ↔ PortConvex g S inputs outputs) := by
  have hI := hg.inv hmax
  obtain ⟨order, h1, h2⟩ := C31_new hmax hg hac
  obtain ⟨r, h3, h4⟩ := C31_any_order hmax hg h2 hS
  have key := any_links (g := g) (inputs := inputs) (outputs := outputs)
  rw [portConvex_iff hI hin hout]
  by_cases hc : ∃ p ∈ outputs, ∃ q ∈ inputs, g.portLink? p = some (some q)
  · exact ⟨_, false, h1, if_pos (key.2 hc), by simp [hc]⟩
  · exact ⟨_, r, h1, (if_neg (fun h => hc (key.1 h))).trans h3, by rw [h4]; simp only [hc, not_false_eq_true, true_and]⟩

/-- A node that is not in the graph has position 0, so that the answer about it is wrong: nodes 77
(not in the graph) and 3 are taken for the nodes 0 and 3. -/
theorem C31_witness_foreign_node :
    ((Topo.new (ofPG dagG)).bind fun c => c.isNodeConvex [77, 3]) = some false := by decide +kernel

/-- Computable check that all links go from smaller to larger node indices. -/
def upward (G : View) : Bool := G.nodes.all fun m => (neighbours G m .outgoing).all fun n => decide (m < n)

theorem acyclic_of_upward {g : PG} (hI : Inv g) (h : upward (ofPG g) = true) : Acyclic (Arc g .outgoing) := by
  have key : ∀ m n, Relation.TransGen (Arc g .outgoing) m n → m < n := by
    intro m n hmn
    have step : ∀ m n, Arc g .outgoing m n → m < n := by
      intro m n ha
      have hv := (varc_iff hI).2 ha
      have := List.all_eq_true.1 h m (varc_nodes (ofPG_wf hI) hv).1
      simpa using List.all_eq_true.1 this n ((mem_neighbours (ofPG_wf hI)).2 hv)
    induction hmn with
    | single h => exact step _ _ h
    | tail _ h ih => have := step _ _ h; omega
  exact fun n hn => Nat.lt_irrefl _ (key n n hn)

theorem dagG_acyclic : Acyclic (Arc dagG .outgoing) :=
  acyclic_of_upward (dagG_reach.inv (by decide)) (by decide +kernel)

example := C28_acyclic (by decide) dagG_reach .outgoing (cap := 8) (by decide) (S := [0, 5]) (by decide) dagG_acyclic

-- the hypotheses of the theorems above are met
example : ∃ c r, Topo.new (ofPG dagG) = some c ∧ c.isConvex [0, 1] [] (dagG.ports 1 .outgoing) = some r ∧
    (r = true ↔ PortConvex dagG [0, 1] [] (dagG.ports 1 .outgoing)) :=
  C31_is_convex (by decide) dagG_reach dagG_acyclic (by decide +kernel) (by simp) (fun p hp => ⟨1, by simp, hp⟩)
-- the links 1 → 3 from an output port to an input port
example : ((Topo.new (ofPG dagG)).bind fun c =>
    c.isConvex [1, 3] (dagG.ports 3 .incoming) (dagG.ports 1 .outgoing)) = some false := by decide +kernel
example : ((Topo.new (ofPG dagG)).bind fun c => c.isConvex [1, 3] [] (dagG.ports 1 .outgoing)) = some true := by
  decide +kernel
-- the diamond 0 → 1, 2 → 3 → 4 with the isolated node 5
example : (Topo.new (ofPG dagG)).map (·.order) = some [0, 5, 1, 2, 3, 4] := by decide +kernel
example : ((Topo.new (ofPG dagG)).bind fun c => c.isNodeConvex [0, 1, 2, 3]) = some true := by decide +kernel
example : ((Topo.new (ofPG dagG)).bind fun c => c.isNodeConvex [3, 1, 0]) = some false := by decide +kernel
example : ((Topo.new (ofPG dagG)).bind fun c => c.isNodeConvex [0, 4]) = some false := by decide +kernel
example : ((Topo.new (ofPG dagG)).bind fun c => c.isNodeConvex [1, 2, 5]) = some true := by decide +kernel

example := C31_new (by decide) dagG_reach dagG_acyclic

example : ∃ order, TopoOrder dagG order ∧ ∃ r, (Topo.ofOrder dagG order).isNodeConvex [0, 4] = some r ∧
    (r = true ↔ Convex (Arc dagG .outgoing) [0, 4]) := by
  obtain ⟨order, -, h⟩ := C31_new (by decide) dagG_reach dagG_acyclic
  exact ⟨order, h, C31_any_order (by decide) dagG_reach h (by decide +kernel)⟩

example := C31_is_node_convex (by decide) dagG_reach dagG_acyclic (S := [0, 1, 3]) (by decide +kernel)

#print axioms C31_any_order
#print axioms C31_new
#print axioms C31_is_node_convex
#print axioms C31_is_convex
#print axioms C31_witness_foreign_node

end Verif.Convex
