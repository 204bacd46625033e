import Verif.ViewAlgo.Lemmas
import Verif.Algo.DomProps
import Verif.Convex.TopoProps
import Verif.View.Props
import Verif.Multi.Props

/-!
# C53: the traversals on every view

The theorems hold for every view whose queries describe one graph (`GView.Ok`), and so for
reachable port graphs, multiport graphs, filtered graphs, regions and subgraphs, see C36–C38 and
`ofMG_ok`.
-/

namespace Verif.View

open Verif (Direction)
open Verif.Algo Verif.Convex

variable {E : Type} {G : GView E}

/-- `toposort` on any view in which the ports where links end have one link each: the sort does not
panic, yields every node at most once and all sources, only nodes of the view, any other node after
all its predecessors in the view, and leaves out no node all of whose predecessors were yielded.
Several links may start from one port.

Full statement: the same for any number of links per port. It is false, see
`C53_witness_toposort_multi`. -/
theorem C53_toposort_partial (ok : G.Ok) {d : Direction} (hs : G.SingleIn d) (dflt : Bool) {S : List Nat} (hS : S.Nodup)
    (hin : ∀ n ∈ S, G.containsNode n = true) :
    ∃ l s, toposort G.algo .all d dflt S = some (l, s) ∧ l.Nodup ∧ (∀ n ∈ S, n ∈ l) ∧
      (∀ n ∈ l, G.containsNode n = true) ∧
      (∀ n ∈ l, n ∉ S → (∃ m, G.ArcD d m n) ∧ ∀ m, G.ArcD d m n → Before l m n) ∧
      (∀ n, (∃ m, G.ArcD d m n) → (∀ m, G.ArcD d m n → m ∈ l) → n ∈ l) := by
  rw [toposort_in ok dflt hin]
  obtain ⟨l, s, h1, h2, h3, h4, h5, -⟩ := toposort_all (algoIn_wf ok) (algoIn_singleIn hs) dflt hS
  rw [varc_eq ok] at h4 h5
  refine ⟨l, s, h1, h2, h3, fun n hn => ?_, h4, h5⟩
  by_cases h : n ∈ S
  · exact hin n h
  · obtain ⟨m, hm⟩ := (h4 n hn h).1
    exact (arcD_nodes ok hm).2

/-- On an acyclic view, from all the nodes without predecessors in the view, the sort yields exactly
the nodes of the view, each after its predecessors. -/
theorem C53_toposort_acyclic_partial (ok : G.Ok) {d : Direction} (hs : G.SingleIn d) (dflt : Bool) {S : List Nat} (hS : S.Nodup)
    (hac : Acyclic (G.ArcD d)) (hsrc : ∀ n, n ∈ S ↔ G.containsNode n = true ∧ ∀ m, ¬ G.ArcD d m n) :
    ∃ l s, toposort G.algo .all d dflt S = some (l, s) ∧ l.Nodup ∧ (∀ n, n ∈ l ↔ G.containsNode n = true) ∧
      (∀ m n, G.ArcD d m n → Before l m n) ∧ Topo.portsRemaining G.algo s = [] := by
  have hin : ∀ n ∈ S, G.containsNode n = true := fun n hn => ((hsrc n).1 hn).1
  rw [toposort_in ok dflt hin]
  obtain ⟨l, s, h1, h2, h3, h4, h5⟩ := toposort_acyclic (algoIn_wf ok) (algoIn_singleIn hs) dflt hS
    (by rw [varc_eq ok]; exact hac) (fun n hn => (ok.mem_nodes n).2 (hin n hn)) (by
      intro n hn h
      rw [varc_eq ok] at h
      exact (hsrc n).2 ⟨(ok.mem_nodes n).1 hn, h⟩)
  rw [varc_eq ok] at h4
  exact ⟨l, s, h1, h2, fun n => (h3 n).trans (ok.mem_nodes n), fun m n h => h4 n (fun hn => ((hsrc n).1 hn).2 m h) m h, h5⟩

/-- `postorder` on any view, if the nodes of the view are below its `node_capacity`: exactly the
nodes reached from the accepted sources along the first links of the ports, each once, and a
successor before its predecessor unless that can be reached back.

Full statement: the same without the condition on the capacity, and along all links. Both are false,
see `C53_witness_capacity_subgraph`, `C53_witness_capacity_multi` and
`C53_witness_postorder_multi`. -/
theorem C53_postorder_partial (ok : G.Ok) (F : Filter) (d : Direction)
    (hcap : ∀ n, G.containsNode n = true → n < G.nodeCapacity) {S : List Nat} (hin : ∀ n ∈ S, G.containsNode n = true) :
    ∃ l s, postorder G.algo F d G.nodeCapacity S = some (l, s) ∧ l.Nodup ∧
      (∀ n, n ∈ l ↔ ∃ r ∈ S, F.node r = true ∧ Relation.ReflTransGen (G.FirstArc F d) r n) ∧
      (∀ n ∈ l, ∀ m, G.FirstArc F d n m → Before l m n ∨ Relation.ReflTransGen (G.FirstArc F d) m n) := by
  obtain ⟨l, s, h1, h2, h3, h4, -⟩ := postorder_ok (G.FirstArc F d) (firstArc_succs ok) (view_hport ok hcap)
    (S := S) fun n hn => hcap n (hin n hn)
  exact ⟨l, s, h1, h2, h3, h4⟩

/-- The same if each port has at most one link: all links are followed. -/
theorem C53_postorder_single_partial (ok : G.Ok) (hs : G.Single) (F : Filter) (d : Direction)
    (hcap : ∀ n, G.containsNode n = true → n < G.nodeCapacity) {S : List Nat} (hin : ∀ n ∈ S, G.containsNode n = true) :
    ∃ l s, postorder G.algo F d G.nodeCapacity S = some (l, s) ∧ l.Nodup ∧
      (∀ n, n ∈ l ↔ ∃ r ∈ S, F.node r = true ∧ Relation.ReflTransGen (G.FArc F d) r n) ∧
      (∀ n ∈ l, ∀ m, G.FArc F d n m → Before l m n ∨ Relation.ReflTransGen (G.FArc F d) m n) := by
  have := C53_postorder_partial ok F d hcap hin
  rwa [show G.FirstArc F d = G.FArc F d from by funext n m; exact propext (firstArc_single ok hs)] at this

/-- `dominators` on any view with at most one link per port, under the conditions above and those of
`C29_dominators_partial`: the immediate dominators with respect to the links of the view. -/
theorem C53_dominators_partial (ok : G.Ok) (hs : G.Single) (F : Filter) (d : Direction) {entry : Nat}
    (hcap : ∀ n, G.containsNode n = true → n < G.nodeCapacity) (he : G.containsNode entry = true) (hF : F.node entry = true)
    (hpred : ∀ n m, Relation.ReflTransGen (G.FArc F d) entry n → G.FArc F d m n → F.node m = true →
      Relation.ReflTransGen (G.FArc F d) entry m) :
    ∃ T, Dom.dominators G.algo F d G.nodeCapacity entry = some T ∧ T.root = entry ∧
      (∀ n, (T.idom n).isSome = true ↔ n ≠ entry ∧ Relation.ReflTransGen (G.FArc F d) entry n) ∧
      ∀ n c, T.idom n = some c → Dom.ImmDom (G.FArc F d) entry c n := by
  have hR : ∀ {d} n m, G.FArc F d n m ↔ m ∈ Post.succs G.algo F d n :=
    fun n m => (firstArc_single ok hs).symm.trans (firstArc_succs ok n m)
  refine Dom.dominators_ok (G.FArc F d) hR (view_hport ok hcap) ?_ ?_ (hcap _ he) hF hpred
  · intro n m hm hn
    have := farc_reverse ok hn ((hR n m).2 hm)
    rwa [show d.reverse.reverse = d by cases d <;> rfl] at this
  · intro m n h hm
    exact (hR n m).1 (farc_reverse ok hm h)

/-- What `dominators` computes on any view with at most one link per port: the immediate dominators
when a predecessor that cannot be reached from the entry is taken for the node listed first by
`postorder` (see `C29_dominators_exact`). -/
theorem C53_dominators_exact (ok : G.Ok) (hs : G.Single) (F : Filter) (d : Direction) {entry : Nat}
    (hcap : ∀ n, G.containsNode n = true → n < G.nodeCapacity) (he : G.containsNode entry = true) (hF : F.node entry = true) :
    ∃ T l s first, Dom.dominators G.algo F d G.nodeCapacity entry = some T ∧ T.root = entry ∧
      (∀ n, (T.idom n).isSome = true ↔ n ≠ entry ∧ Relation.ReflTransGen (G.FArc F d) entry n) ∧
      postorder G.algo F d G.nodeCapacity [entry] = some (l, s) ∧ l.head? = some first ∧
      ∀ n c, T.idom n = some c → Dom.ImmDom (Dom.Taken (G.FArc F d) (fun x => F.node x = true) entry first) entry c n := by
  have hR : ∀ {d} n m, G.FArc F d n m ↔ m ∈ Post.succs G.algo F d n :=
    fun n m => (firstArc_single ok hs).symm.trans (firstArc_succs ok n m)
  refine Dom.dominators_exact (G.FArc F d) hR (view_hport ok hcap) ?_ ?_ (hcap _ he) hF
  · intro n m hm hn
    have := farc_reverse ok hn ((hR n m).2 hm)
    rwa [show d.reverse.reverse = d by cases d <;> rfl] at this
  · intro m n h hm
    exact (hR n m).1 (farc_reverse ok hm h)

theorem neighbours_in {n : Nat} (h : G.containsNode n = true) (d : Direction) :
    neighbours G.algo n d = neighbours G.algoIn n d := by
  unfold neighbours
  rw [portsIn_eq h]
  rfl

/-- `TopoConvexChecker` on any acyclic view in which each incoming port has at most one link: `new`
does not panic, and `is_node_convex` decides whether a path between two of the given nodes leaves
them.

Full statement: the same for any number of links per port. It is false, see
`C53_witness_convex_multi`. -/
theorem C53_is_node_convex_partial (ok : G.Ok) (hs : G.SingleIn .outgoing) (hac : Acyclic (G.ArcD .outgoing)) {S : List Nat}
    (hin : ∀ n ∈ S, G.containsNode n = true) :
    ∃ c r, Convex.Topo.new G.algo = some c ∧ c.isNodeConvex S = some r ∧ (r = true ↔ Convex (G.ArcD .outgoing) S) := by
  have hnb : ∀ m d n, G.containsNode m = true → (n ∈ neighbours G.algo m d ↔ G.ArcD d m n) := by
    intro m d n hm
    rw [neighbours_in hm, mem_neighbours (algoIn_wf ok), varc_inD ok]
  obtain ⟨l, s, h1, h2, h3, h4, -⟩ := C53_toposort_acyclic_partial ok hs false
    (S := G.nodes.filter fun n => (neighbours G.algo n .incoming).isEmpty) (ok.nodes_nodup.filter _) hac (by
      intro n
      rw [List.mem_filter, ok.mem_nodes]
      refine and_congr_right fun hn => ?_
      rw [List.isEmpty_iff, List.eq_nil_iff_forall_not_mem]
      refine forall_congr' fun m => ?_
      rw [hnb n .incoming m hn, arcD_reverse ok]; rfl)
  have h1' : toposort G.algo .all .outgoing false (G.algo.nodes.filter fun n => (neighbours G.algo n .incoming).isEmpty) =
    some (l, s) := h1
  refine ⟨⟨G.algo, l, fun n => if n ∈ l then l.idxOf n else 0⟩, ?_⟩
  obtain ⟨r, h5, h6⟩ := checker_ok (c := ⟨G.algo, l, fun n => if n ∈ l then l.idxOf n else 0⟩) (R := G.ArcD .outgoing) h2 h4
    (fun n hn => if_pos hn) (fun m hm n => hnb m .outgoing n ((h3 m).1 hm)) (S := S) fun n hn => (h3 n).2 (hin n hn)
  exact ⟨r, by simp only [Convex.Topo.new, h1'], h5, h6⟩

/-! ## Where it fails -/

/-- Node 0 is linked to 1 and 2, and 2 is linked to the same port of 1. -/
def joinM : Multi.MG :=
  Multi.built [.addNode 0 2, .addNode 1 0, .addNode 1 1, .linkPorts 0 2, .linkPorts 1 3, .linkPorts 4 2]

/-- The port of node 0 is linked to 1 and 2. -/
def fanM : Multi.MG := Multi.built [.addNode 0 1, .addNode 1 0, .addNode 1 0, .linkPorts 0 1, .linkPorts 0 2]

/-- A node without links, added after four helper nodes were made for the four ports of the others. -/
def lateM : Multi.MG :=
  Multi.built [.addNode 0 2, .addNode 2 0, .linkPorts 0 2, .linkPorts 0 3, .linkPorts 1 2, .linkPorts 1 3, .addNode 0 0]

theorem joinM_ok : Multi.MOk joinM := (Multi.built_reach _).ok (by decide) (by decide)
theorem fanM_ok : Multi.MOk fanM := (Multi.built_reach _).ok (by decide) (by decide)

theorem arc_of_portLinks (ok : G.Ok) {p m n : Nat} {d : Direction} {e f : E} (h : (e, f) ∈ G.portLinks p) (hp : p ∈ G.ports m d)
    (hf : G.portNode (G.toPort f) = some n) : G.ArcD d m n := by
  have := ok.from_port _ _ _ h
  subst this
  obtain ⟨h1, h2⟩ := (ok.mem_ports _ _ _).1 hp
  exact ⟨e, f, h, h1, hf, h2⟩

/-- **C53 fails** for several links into a port: node 1 comes before its predecessor 2. -/
theorem C53_witness_toposort_multi :
    (toposort (Multi.ofMG joinM 8 8).algo .all .outgoing false [0]).map (·.1) = some [0, 1, 2] ∧
    (Multi.ofMG joinM 8 8).ArcD .outgoing 2 1 := by
  refine ⟨by decide +kernel, ?_⟩
  exact arc_of_portLinks (Multi.ofMG_ok joinM_ok 8 8) (p := 4) (e := (4, 0)) (f := (2, 1))
    (by decide +kernel) (by decide +kernel) (by decide +kernel)

/-- **C53 fails** for several links into a port: the checker says that nodes 0 and 1 are convex,
though the path 0 → 2 → 1 leaves them. -/
theorem C53_witness_convex_multi :
    ((Convex.Topo.new (Multi.ofMG joinM 8 8).algo).bind fun c => c.isNodeConvex [0, 1]) = some true ∧
    ¬ Convex ((Multi.ofMG joinM 8 8).ArcD .outgoing) [0, 1] := by
  have ok := Multi.ofMG_ok joinM_ok 8 8
  refine ⟨by decide +kernel, fun h => ?_⟩
  have h1 : (Multi.ofMG joinM 8 8).ArcD .outgoing 0 2 :=
    arc_of_portLinks ok (p := 1) (e := (1, 0)) (f := (3, 0)) (by decide +kernel) (by decide +kernel) (by decide +kernel)
  have h2 := C53_witness_toposort_multi.2
  have := h 0 (by simp) 1 (by simp) 2 (.single h1) (.single h2)
  simp at this

/-- **C53 fails** for several links from a port: node 2 is linked with node 0 but is not visited. -/
theorem C53_witness_postorder_multi :
    (postorder (Multi.ofMG fanM 8 8).algo .all .outgoing (Multi.ofMG fanM 8 8).nodeCapacity [0]).map (·.1) = some [1, 0] ∧
    (Multi.ofMG fanM 8 8).ArcD .outgoing 0 2 :=
  ⟨by decide +kernel, arc_of_portLinks (Multi.ofMG_ok fanM_ok 8 8) (p := 0) (e := (0, 1)) (f := (2, 0))
    (by decide +kernel) (by decide +kernel) (by decide +kernel)⟩

/-- **C53 fails** if the `node_capacity` of a view is too small: `postorder` and `dominators` panic
on the subgraph of the nodes 3 and 4, linked by a link, of a graph with room for 8 nodes. -/
theorem C53_witness_capacity_subgraph :
    let G := (ofPG dagG 8 16).subgraph [3, 4]
    G.containsNode 4 = true ∧ G.nodeCapacity = 4 ∧ postorder G.algo .all .outgoing G.nodeCapacity [3] = none ∧
    (Dom.dominators G.algo .all .outgoing G.nodeCapacity 3).isNone = true :=
  ⟨by decide +kernel, by decide +kernel, by decide +kernel, by decide +kernel⟩

/-- The same for a multiport graph: the helper nodes are not counted in the capacity. -/
theorem C53_witness_capacity_multi :
    let G := Multi.ofMG lateM 8 8
    lateM.graph.nodeMeta.length ≤ 8 ∧ G.containsNode 6 = true ∧ G.nodeCapacity = 4 ∧
    postorder G.algo .all .outgoing G.nodeCapacity [6] = none :=
  ⟨by decide +kernel, by decide +kernel, by decide +kernel, by decide +kernel⟩

/-! The hypotheses can be met: a multiport graph with two links from a port, a subgraph and a flat
region. -/

theorem fanM_singleIn : (Multi.ofMG fanM 8 8).SingleIn .outgoing := by
  intro n hn p hp
  have hn' : n ∈ (Multi.ofMG fanM 8 8).nodes := ((Multi.ofMG_ok fanM_ok 8 8).mem_nodes n).2 hn
  have e : (Multi.ofMG fanM 8 8).nodes = [0, 1, 2] := by decide +kernel
  rw [e] at hn'
  have key : ∀ n ∈ [0, 1, 2], ∀ p ∈ (Multi.ofMG fanM 8 8).ports n .incoming, ((Multi.ofMG fanM 8 8).portLinks p).length ≤ 1 := by
    decide +kernel
  exact key n hn' p hp

example := C53_toposort_partial (Multi.ofMG_ok fanM_ok 8 8) fanM_singleIn false (S := [0]) (by simp) (by decide +kernel)
example : (toposort (Multi.ofMG fanM 8 8).algo .all .outgoing false [0]).map (·.1) = some [0, 1, 2] := by decide +kernel
example : ((Convex.Topo.new (Multi.ofMG fanM 8 8).algo).bind fun c => c.isNodeConvex [0, 1]) = some true := by decide +kernel

theorem acyclic_of_lt {R : Nat → Nat → Prop} (h : ∀ m n, R m n → m < n) : Acyclic R := by
  intro n hn
  have key : ∀ a b, Relation.TransGen R a b → a < b := by
    intro a b hab
    induction hab with
    | single h' => exact h _ _ h'
    | tail _ h' ih => have := h _ _ h'; omega
  exact Nat.lt_irrefl _ (key n n hn)

theorem arc_check (ok : G.Ok) {d : Direction} {m n : Nat} (h : G.ArcD d m n) : m ∈ G.nodes ∧ n ∈ neighbours G.algo m d := by
  have h1 := (arcD_nodes ok h).1
  refine ⟨(ok.mem_nodes m).2 h1, ?_⟩
  rw [neighbours_in h1, mem_neighbours (algoIn_wf ok), varc_inD ok]
  exact h

theorem fanM_acyclic : Acyclic ((Multi.ofMG fanM 8 8).ArcD .outgoing) := by
  apply acyclic_of_lt
  intro m n h
  obtain ⟨h1, h2⟩ := arc_check (Multi.ofMG_ok fanM_ok 8 8) h
  have key : ∀ m ∈ (Multi.ofMG fanM 8 8).nodes, ∀ n ∈ neighbours (Multi.ofMG fanM 8 8).algo m .outgoing, m < n := by
    decide +kernel
  exact key m h1 n h2

example := C53_is_node_convex_partial (Multi.ofMG_ok fanM_ok 8 8) fanM_singleIn fanM_acyclic (S := [0, 1]) (by decide +kernel)

example := C53_toposort_acyclic_partial (Multi.ofMG_ok fanM_ok 8 8) fanM_singleIn false (S := [0]) (by simp) fanM_acyclic (by
  intro n
  have e : (Multi.ofMG fanM 8 8).nodes = [0, 1, 2] := by decide +kernel
  have key : ∀ n ∈ (Multi.ofMG fanM 8 8).nodes, n ≠ 0 → ∃ m ∈ (Multi.ofMG fanM 8 8).nodes,
      n ∈ neighbours (Multi.ofMG fanM 8 8).algo m .outgoing := by decide +kernel
  have key0 : ∀ m ∈ (Multi.ofMG fanM 8 8).nodes, 0 ∉ neighbours (Multi.ofMG fanM 8 8).algo m .outgoing := by decide +kernel
  have ok := Multi.ofMG_ok fanM_ok 8 8
  constructor
  · intro h
    cases List.mem_singleton.1 h
    exact ⟨by decide +kernel, fun m h => key0 m (arc_check ok h).1 (arc_check ok h).2⟩
  · rintro ⟨h1, h2⟩
    by_contra hc
    obtain ⟨m, hm, h3⟩ := key n ((ok.mem_nodes n).2 h1) (by simpa using hc)
    rw [neighbours_in ((ok.mem_nodes m).1 hm), mem_neighbours (algoIn_wf ok), varc_inD ok] at h3
    exact h2 m h3)

/-- The subgraph of the nodes 1, 2 and 3. -/
def subG : GView Nat := (ofPG dagG 12 16).subgraph [1, 2, 3]

theorem subG_ok : subG.Ok := subgraph_ok (ofPG_ok (dagG_reach.inv (by decide)) 12 16) (by decide) (by decide +kernel)

theorem subG_single : subG.Single := by
  intro p
  show ((PG.linkedPairs dagG [p]).filter _).length ≤ 1
  refine Nat.le_trans (List.length_filter_le _ _) ?_
  simp only [PG.linkedPairs]
  exact Nat.le_trans (List.length_filterMap_le _ _) (by simp)

theorem subG_nodes (n : Nat) (h : subG.containsNode n = true) : n < 4 := by
  have h1 := (subG_ok.mem_nodes n).2 h
  have e : subG.nodes = [1, 2, 3] := by decide +kernel
  rw [e] at h1; simp at h1; omega

example := C53_postorder_single_partial subG_ok subG_single .all .incoming (S := [3])
  (fun n hn => Nat.lt_of_lt_of_le (subG_nodes n hn) (by decide +kernel)) (by decide +kernel)
example := C53_dominators_exact subG_ok subG_single .all .outgoing (entry := 2)
  (fun n hn => Nat.lt_of_lt_of_le (subG_nodes n hn) (by decide +kernel)) (by decide +kernel) rfl
example : (postorder subG.algo .all .incoming subG.nodeCapacity [3]).map (·.1) = some [1, 2, 3] := by decide +kernel
example : ((Dom.dominators subG.algo .all .incoming subG.nodeCapacity 3).map fun T => (T.root, T.idom 1, T.idom 2, T.idom 0)) =
    some (3, some 3, some 3, none) := by decide +kernel
example : ((Convex.Topo.new subG.algo).bind fun c => c.isNodeConvex [1, 3]) = some true := by decide +kernel

example := C53_postorder_partial subG_ok .all .incoming (S := [3])
  (fun n hn => Nat.lt_of_lt_of_le (subG_nodes n hn) (by decide +kernel)) (by decide +kernel)

#print axioms C53_toposort_partial
#print axioms C53_toposort_acyclic_partial
#print axioms C53_postorder_partial
#print axioms C53_postorder_single_partial
#print axioms C53_dominators_exact
#print axioms C53_dominators_partial
#print axioms C53_is_node_convex_partial
#print axioms C53_witness_toposort_multi
#print axioms C53_witness_convex_multi
#print axioms C53_witness_postorder_multi
#print axioms C53_witness_capacity_subgraph
#print axioms C53_witness_capacity_multi

end Verif.View
