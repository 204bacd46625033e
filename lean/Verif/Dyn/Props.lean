import Verif.Dyn.Checker
import Verif.Convex.TopoProps

/-!
# C33, C34: the dynamic topological sort and its convexity checker

`Valid D V R` says that the order lists every node of `V` once, that each arc of `R` goes forward
in it, and that the map gives the positions in it.

The claims fail as they stand: `update_order` writes the two cones to consecutive positions,
which loses nodes that stand between, and it writes them in the order in which a depth first
search met them. The theorems give the exact condition under which a call leaves a valid order,
and histories all of whose calls meet it.
-/

namespace Verif.Dyn

open Verif (Direction)
open Verif.PG
open Verif.Algo
open Verif.Convex

/-! ## C33 single calls -/

/-- `with_graph` of an acyclic graph. -/
theorem C33_with_graph {maxOff : Nat} (hmax : maxOff ≤ 32767) {g : PG} (hg : PG.Reach maxOff g)
    (hac : Acyclic (Arc g .outgoing)) :
    ∃ D, TSort.withGraph (ofPG g) = some D ∧ Valid D (g.containsNode · = true) (Arc g .outgoing) :=
  withGraph_ok hmax hg hac

example : Acyclic (Arc dagG .outgoing) := dagG_acyclic

variable {D : TSort} {V : Nat → Prop} {R : Nat → Nat → Prop} {G : View} {a b : Nat}

/-- `connect_nodes` finds cycles: it reports one exactly if `a` is reached from `b`. -/
theorem C33_connect_cycle (h : Valid D V R) (hs : Shows G R a b) (ha : V a) (hb : V b) :
    D.connectNodes G a b = some (.error (.wouldCreateCycle a b)) ↔ Relation.ReflTransGen R b a := by
  constructor
  · intro he
    by_contra hnc
    obtain ⟨pa, hpa⟩ := h.tracked.1 ha
    obtain ⟨pb, hpb⟩ := h.tracked.1 hb
    obtain ⟨D', h1, -⟩ := connect_valid h hs hpa hpb hnc
    rw [h1] at he; simp at he
  · exact connect_cycle h hs ha hb

/-- It reports nodes not in the order. -/
theorem C33_connect_unknown (h : Valid D V R) (G : View) (a b : Nat) :
    (¬ V a → D.connectNodes G a b = some (.error (.invalidNode a))) ∧
    (V a → ¬ V b → D.connectNodes G a b = some (.error (.invalidNode b))) := by
  have hn : ∀ x, ¬ V x → D.pos x = none := by
    intro x hx
    cases hp : D.pos x with
    | none => rfl
    | some i => exact absurd (h.tracked.2 ⟨i, hp⟩) hx
  refine ⟨fun ha => by simp [TSort.connectNodes, hn a ha], fun ha hb => ?_⟩
  obtain ⟨pa, hpa⟩ := h.tracked.1 ha
  simp [TSort.connectNodes, hpa, hn b hb]

/-- Otherwise it succeeds; the result lists every node once exactly if `a` came first, or every
node between `b` and `a` is reached from `b` or reaches `a`. -/
theorem C33_connect_nodup (h : Valid D V R) (hs : Shows G R a b) {pa pb : Nat} (hpa : D.pos a = some pa)
    (hpb : D.pos b = some pb) (hnc : ¬ Relation.ReflTransGen R b a) :
    ∃ D', D.connectNodes G a b = some (.ok D') ∧ (D'.order.Nodup ↔ pa < pb ∨
      ∀ x p, D.pos x = some p → pb < p → p < pa → Relation.ReflTransGen R b x ∨ Relation.ReflTransGen R x a) := by
  have hne : pa ≠ pb := by
    rintro rfl
    obtain rfl := h.inj hpa hpb
    exact hnc .refl
  rcases Nat.lt_or_gt_of_ne hne with hlt | hlt
  · obtain ⟨h1, h2⟩ := connect_forward h hs hpa hpb hlt
    exact ⟨D, h1, fun _ => .inl hlt, fun _ => h2.nodup⟩
  · obtain ⟨B, F, D', -, -, -, h4, h5, -⟩ := connect_back h hs hpa hpb hlt hnc
    refine ⟨D', h4, h5.trans ⟨.inr, ?_⟩⟩
    rintro (hc | hr)
    · omega
    · exact hr

/-- The result is a valid order with the new arc exactly if `a` came first, or every node between
`b` and `a` is reached from `b` and the forward search found its nodes in a topological order. -/
theorem C33_connect_valid (h : Valid D V R) (hs : Shows G R a b) {pa pb : Nat} (hpa : D.pos a = some pa)
    (hpb : D.pos b = some pb) (hnc : ¬ Relation.ReflTransGen R b a) :
    ∃ D', D.connectNodes G a b = some (.ok D') ∧ (Valid D' V (Plus R a b) ↔ pa < pb ∨
      ((∀ x p, D.pos x = some p → pb < p → p < pa → Relation.ReflTransGen R b x) ∧
        ∀ F, D.cone G b pa .outgoing = some F → ∀ x y, R x y → x ∈ F → y ∈ F → Before F x y)) :=
  connect_valid h hs hpa hpb hnc

theorem good_near (h : Valid D V R) (hs : Shows G R a b) {pa pb : Nat} (hpa : D.pos a = some pa)
    (hpb : D.pos b = some pb) (hnc : ¬ Relation.ReflTransGen R b a) (hpos : pa ≤ pb + 1) : Good D R G a b pa pb := by
  rcases Nat.lt_or_ge pa pb with hlt | hge
  · exact .inl hlt
  · refine .inr ⟨fun x p hx h1 h2 => by omega, ?_⟩
    intro F hF
    have hne : pa ≠ pb := by
      rintro rfl
      obtain rfl := h.inj hpa hpb
      exact hnc .refl
    obtain ⟨B, F', -, -, h2, h3, -⟩ := connect_back h hs hpa hpb (by omega) hnc
    rw [h2] at hF; cases hF
    have hone : ∀ z ∈ F, D.pos z = some pb := by
      intro z hz
      obtain ⟨hz, p, hp, hlt⟩ := (h3.memF z).1 hz
      have := h.le hz hpb hp
      rw [hp]; congr 1; omega
    intro x y hxy hx hy
    exact absurd (h.lt hxy (hone x hx) (hone y hy)) (by omega)

/-- In particular if `a` came before `b` or right after it. What is missing: the other positions. -/
theorem C33_connect_partial (h : Valid D V R) (hs : Shows G R a b) {pa pb : Nat} (hpa : D.pos a = some pa)
    (hpb : D.pos b = some pb) (hnc : ¬ Relation.ReflTransGen R b a) (hpos : pa ≤ pb + 1) :
    ∃ D', D.connectNodes G a b = some (.ok D') ∧ Valid D' V (Plus R a b) := by
  obtain ⟨D', h1, h2⟩ := connect_valid h hs hpa hpb hnc
  exact ⟨D', h1, h2.2 (good_near h hs hpa hpb hnc hpos)⟩

/-- `add_node` appends a new node. -/
theorem C33_add_node (h : Valid D V R) {n : Nat} (hn : ¬ V n) :
    (D.addNode n).order = D.order ++ [n] ∧ Valid (D.addNode n) (fun x => V x ∨ x = n) R := by
  refine ⟨?_, addNode_ok h hn⟩
  have hp : D.pos n = none := by
    cases hp : D.pos n with
    | none => rfl
    | some i => exact absurd (h.tracked.2 ⟨i, hp⟩) hn
  simp [TSort.addNode, hp]

/-- `remove_node`. -/
theorem C33_remove_node (h : Valid D V R) {n : Nat} (hn : V n) :
    ∃ D', D.removeNode n = some (.ok D') ∧ Valid D' (fun x => V x ∧ x ≠ n) (fun a b => R a b ∧ a ≠ n ∧ b ≠ n) :=
  removeNode_ok h hn fun _ _ h => h

/-- `disconnect_nodes` leaves the order, which stays valid for fewer arcs. -/
theorem C33_disconnect (h : Valid D V R) (ha : V a) (hb : V b) {R' : Nat → Nat → Prop} (hR : ∀ x y, R' x y → R x y) :
    D.disconnectNodes a b = .ok D ∧ Valid D V R' := ⟨disconnect_ok h ha hb, h.mono hR⟩

/-! ## C33 histories -/

/-- A graph and a sort which follows its edits. A link is made from an outgoing port, where the
positions meet the condition of `C33_connect_valid`. -/
inductive Mirror (maxOff : Nat) : PG → TSort → Prop where
  | start {g D} : PG.Reach maxOff g → Acyclic (Arc g .outgoing) → TSort.withGraph (ofPG g) = some D → Mirror maxOff g D
  | add {g D i o n g'} : Mirror maxOff g D → i ≤ maxOff → o ≤ maxOff → g.addNode maxOff i o = some (n, g') →
      Mirror maxOff g' (D.addNode n)
  | remove {g D n g' D'} : Mirror maxOff g D → g.removeNode n = some g' → D.removeNode n = some (.ok D') →
      Mirror maxOff g' D'
  | unlink {g D p q g' a b D'} : Mirror maxOff g D → g.unlinkPort p = some (some q, g') → D.disconnectNodes a b = .ok D' →
      Mirror maxOff g' D'
  | link {g D p q g' a b pa pb D'} : Mirror maxOff g D → g.portDirection p = some .outgoing →
      g.linkPorts p q = some (.ok (p, q), g') → g.portNode p = some a → g.portNode q = some b →
      D.pos a = some pa → D.pos b = some pb → Good D (Arc g .outgoing) (ofPG g') a b pa pb →
      D.connectNodes (ofPG g') a b = some (.ok D') → Mirror maxOff g' D'

theorem link_arcs {maxOff : Nat} (hmax : maxOff ≤ 32767) {g g' : PG} (hg : PG.Reach maxOff g) {p q a b : Nat}
    (hd : g.portDirection p = some .outgoing) (h : g.linkPorts p q = some (.ok (p, q), g')) (ha : g.portNode p = some a)
    (hb : g.portNode q = some b) :
    PG.Reach maxOff g' ∧ (∀ x y, Arc g' .outgoing x y ↔ Plus (Arc g .outgoing) a b x y) ∧
      ∀ x, g'.containsNode x = true ↔ g.containsNode x = true := by
  have hI := hg.inv hmax
  obtain ⟨ea, eb, h1, h2, h3, h4, h5, h6, -⟩ := C10_link_ports hmax hg h
  have e1 := endpoint_node h1
  have e2 := endpoint_node h2
  obtain ⟨na, da, ja⟩ := ea
  obtain ⟨nb, db, jb⟩ := eb
  rw [ha] at e1; rw [hb] at e2
  cases e1; cases e2
  have hda : da = .outgoing := by
    have := ((endpoint_at hI).1 h1).port hI
    simp [PG.portDirection, this] at hd
    exact hd
  subst hda
  have hdb : db = .incoming := by
    cases db with
    | incoming => rfl
    | outgoing => simp [Direction.reverse] at h3
  subst hdb
  refine ⟨hg.step (op := .linkPorts p q) trivial (by simp [PG.step, h]), fun x y => arc_join hI h1 h2 h4 h5 h6,
    fun x => live_join h6⟩

/-- A history of mirrored edits keeps the order valid. What is missing: links whose positions do
not meet the condition; see the witnesses. -/
theorem C33_history_partial {maxOff : Nat} (hmax : maxOff ≤ 32767) {g : PG} {D : TSort} (h : Mirror maxOff g D) :
    PG.Reach maxOff g ∧ Valid D (g.containsNode · = true) (Arc g .outgoing) := by
  induction h with
  | start hg hac hD =>
    obtain ⟨D', h1, h2⟩ := withGraph_ok hmax hg hac
    rw [hD] at h1; cases h1
    exact ⟨hg, h2⟩
  | @add g D i o n g' hm hi ho ha ih =>
    obtain ⟨hg, hv⟩ := ih
    obtain ⟨n', g'', h1, h2, h3, -⟩ := C08_add_node hmax hg hi ho
    rw [ha] at h1; cases h1
    refine ⟨hg.step (op := .addNode i o) ⟨hi, ho⟩ (by simp [PG.step, ha]), ?_⟩
    have := addNode_ok hv (n := n) (by simp [h2])
    refine ⟨this.nodup, fun x => (this.mem x).trans (live_add h3).symm, this.pos, fun x y hxy => ?_⟩
    exact this.forward x y ((arc_add h3).1 hxy)
  | @remove g D n g' D' hm hr hD ih =>
    obtain ⟨hg, hv⟩ := ih
    have hn : g.containsNode n = true := by
      by_contra hc
      rw [removeNode_unknown hv hc] at hD
      simp at hD
    obtain ⟨g'', h1, h2, -⟩ := C09_remove_node hmax hg hn
    rw [hr] at h1; cases h1
    refine ⟨hg.step (op := .removeNode n) trivial (by simp [PG.step, hr]), ?_⟩
    obtain ⟨D'', h3, h4⟩ := removeNode_ok hv hn (R' := Arc g' .outgoing) (fun x y hxy => (arc_remove h2).1 hxy)
    rw [hD] at h3; cases h3
    exact ⟨h4.nodup, fun x => (h4.mem x).trans (live_remove h2).symm, h4.pos, h4.forward⟩
  | @unlink g D p q g' a b D' hm hu hD ih =>
    obtain ⟨hg, hv⟩ := ih
    have hI := hg.inv hmax
    have hDD : D' = D := by
      unfold TSort.disconnectNodes at hD
      split at hD
      · simp at hD
      · split at hD
        · simp at hD
        · simpa using hD.symm
    subst hDD
    refine ⟨hg.step (op := .unlinkPort p) trivial (by simp [PG.step, hu]), ?_⟩
    cases hp : g.containsPort p with
    | false => rw [C11_unlink_port_unknown hp] at hu; simp at hu
    | true =>
      obtain ⟨⟨n, d⟩, hpd⟩ := Option.isSome_iff_exists.1 hp
      obtain ⟨m, _, _, hat⟩ := port_at hI hpd
      obtain ⟨g'', h1, h2, -⟩ := C11_unlink_port hmax hg ((endpoint_at hI).2 hat) (portLink?_eq hI (by simp [hpd]))
      rw [hu] at h1
      simp only [Option.some.injEq, Prod.mk.injEq] at h1
      obtain ⟨-, rfl⟩ := h1
      exact ⟨hv.nodup, fun x => (hv.mem x).trans (live_unlink h2).symm, hv.pos, fun x y hxy => hv.forward x y (arc_unlink h2 hxy)⟩
  | @link g D p q g' a b pa pb D' hm hd hl ha hb hpa hpb hgood hc ih =>
    obtain ⟨hg, hv⟩ := ih
    obtain ⟨hg', harc, hlive⟩ := link_arcs hmax hg hd hl ha hb
    refine ⟨hg', ?_⟩
    have hs := shows_join (hg'.inv hmax) harc
    have hnc : ¬ Relation.ReflTransGen (Arc g .outgoing) b a := by
      intro hcy
      rw [connect_cycle hv hs (hv.tracked.2 ⟨pa, hpa⟩) (hv.tracked.2 ⟨pb, hpb⟩) hcy] at hc
      simp at hc
    obtain ⟨D'', h1, h2⟩ := connect_valid hv hs hpa hpb hnc
    rw [hc] at h1; cases h1
    have hv' := h2.2 hgood
    exact ⟨hv'.nodup, fun x => (hv'.mem x).trans (hlive x).symm, hv'.pos, fun x y hxy => hv'.forward x y ((harc x y).1 hxy)⟩

/-- With these calls an order with every node once and arcs going forward: the statement in terms
of `get_order` only. -/
theorem C33_get_order_partial {maxOff : Nat} (hmax : maxOff ≤ 32767) {g : PG} {D : TSort} (h : Mirror maxOff g D) :
    D.order.Nodup ∧ (∀ n, n ∈ D.order ↔ g.containsNode n = true) ∧ ∀ a b, Arc g .outgoing a b → Before D.order a b := by
  obtain ⟨-, hv⟩ := C33_history_partial hmax h
  exact ⟨hv.nodup, hv.mem, hv.forward⟩

/-! ## C33 examples and failures -/

/-- Three nodes with one input and one output each, and no links: node `n` has the ports `2n` (in)
and `2n + 1` (out). -/
def three : Option Checker := do
  let c ← Checker.new PG.empty
  let (_, c) ← c.addNode 32767 1 1
  let (_, c) ← c.addNode 32767 1 1
  let (_, c) ← c.addNode 32767 1 1
  return c

/-- Links between outputs and inputs given by port. -/
def linkAll : List (Nat × Nat) → Checker → Option Checker
  | [], c => some c
  | (p, q) :: ls, c =>
    match c.linkPorts p q with
    | some (.ok _, c) => linkAll ls c
    | _ => none

def orderAfter (ls : List (Nat × Nat)) : Option (List Nat) := (three.bind (linkAll ls)).map (·.topo.order)

-- adjacent nodes are exchanged, and further links in any direction are found in order
example : orderAfter [(3, 0)] = some [1, 0, 2] := by decide +kernel
example : orderAfter [(3, 0), (1, 4)] = some [1, 0, 2] := by decide +kernel
-- a node between which is reached from the target
example : orderAfter [(1, 2), (5, 0)] = some [2, 0, 1] := by decide +kernel

/-- Failure: after linking node 2 to node 0, unrelated node 1 is no longer in the order and node 2
is there twice. -/
theorem C33_witness_node_lost : orderAfter [(5, 0)] = some [2, 0, 2] := by decide +kernel

/-- Failure: with the links 1 → 2 and then 2 → 0 each node is there once, but 1 → 2 goes backward. -/
theorem C33_witness_backward : orderAfter [(3, 4), (5, 0)] = some [2, 1, 0] := by decide +kernel

/-- A graph with the nodes 0 and 1, unlinked, and the same graph with the link 1 → 0. -/
def twoG : PG := (PG.run 32767 PG.empty [.addNode 1 1, .addNode 1 1]).getD PG.empty
def twoG' : PG := (PG.run 32767 PG.empty [.addNode 1 1, .addNode 1 1, .linkPorts 3 0]).getD PG.empty

theorem twoG_reach : PG.Reach 32767 twoG :=
  checkedRun_reach (ops := [.addNode 1 1, .addNode 1 1]) .init (by decide +kernel)

theorem twoG_noarc : upward (ofPG twoG) = true := by decide +kernel

/-- The hypotheses of `C33_history_partial` are met, with a link against the order. -/
example : ∃ D, Mirror 32767 twoG' D ∧ D.order = [1, 0] := by
  have hac := acyclic_of_upward (twoG_reach.inv (by decide)) twoG_noarc
  obtain ⟨D, h1, hv⟩ := withGraph_ok (by decide) twoG_reach hac
  have hm := Mirror.start twoG_reach hac h1
  have e : (TSort.withGraph (ofPG twoG)).map (fun D => (D.order, D.pos 0, D.pos 1)) = some ([0, 1], some 0, some 1) := by
    decide +kernel
  rw [h1] at e
  simp only [Option.map_some, Option.some.injEq, Prod.mk.injEq] at e
  have hl : twoG.linkPorts 3 0 = some (.ok (3, 0), twoG') := by rfl
  have hd : twoG.portDirection 3 = some .outgoing := by decide +kernel
  have ha : twoG.portNode 3 = some 1 := by decide +kernel
  have hb : twoG.portNode 0 = some 0 := by decide +kernel
  obtain ⟨hg', harc, hlive⟩ := link_arcs (by decide) twoG_reach hd hl ha hb
  have hs := shows_join (hg'.inv (by decide)) harc
  have hup : ∀ m n, ¬ Arc twoG .outgoing m n := by
    intro m n hmn
    have hv' := (varc_iff (twoG_reach.inv (by decide))).2 hmn
    have hn := (mem_neighbours (ofPG_wf (twoG_reach.inv (by decide)))).2 hv'
    have : ((ofPG twoG).nodes.all fun m => (neighbours (ofPG twoG) m .outgoing).isEmpty) = true := by decide +kernel
    have := List.all_eq_true.1 this m (varc_nodes (ofPG_wf (twoG_reach.inv (by decide))) hv').1
    rw [List.isEmpty_iff] at this
    rw [this] at hn; simp at hn
  have hnc : ¬ Relation.ReflTransGen (Arc twoG .outgoing) 0 1 := by
    intro hc
    rcases Relation.ReflTransGen.cases_head hc with h | ⟨x, h, _⟩
    · simp at h
    · exact hup _ _ h
  have hgood := good_near hv hs e.2.2 e.2.1 hnc (by decide)
  obtain ⟨D', h2, hv'⟩ := C33_connect_partial hv hs e.2.2 e.2.1 hnc (by decide)
  refine ⟨D', .link hm hd hl ha hb e.2.2 e.2.1 hgood h2, ?_⟩
  have e' : ((TSort.withGraph (ofPG twoG)).bind fun D => D.connectNodes (ofPG twoG') 1 0).map
      (fun r => match r with | .ok D => D.order | .error _ => []) = some [1, 0] := by decide +kernel
  rw [h1, Option.bind_some, h2] at e'
  simpa using e'

/-! ## C34 the checker -/

/-- The graph is one reached by calls of its own, and the order is valid for it. -/
structure Ok (maxOff : Nat) (c : Checker) : Prop where
  graph : PG.Reach maxOff c.graph
  topo : Valid c.topo (c.graph.containsNode · = true) (Arc c.graph .outgoing)

/-- `new` on an acyclic graph. -/
theorem C34_new {maxOff : Nat} (hmax : maxOff ≤ 32767) {g : PG} (hg : PG.Reach maxOff g)
    (hac : Acyclic (Arc g .outgoing)) : ∃ c, Checker.new g = some c ∧ c.graph = g ∧ Ok maxOff c := by
  obtain ⟨D, h1, h2⟩ := withGraph_ok hmax hg hac
  exact ⟨⟨D, g⟩, by simp [Checker.new, h1], rfl, hg, h2⟩

/-- `add_node`, `remove_node` and `unlink_port` act on the graph as its own methods do, and keep
the order valid. -/
theorem C34_add_node {maxOff : Nat} (hmax : maxOff ≤ 32767) {c : Checker} (h : Ok maxOff c) {i o : Nat}
    (hi : i ≤ maxOff) (ho : o ≤ maxOff) :
    ∃ n c', c.addNode maxOff i o = some (n, c') ∧ c.graph.addNode maxOff i o = some (n, c'.graph) ∧ Ok maxOff c' := by
  obtain ⟨n, g', h1, h2, h3, -⟩ := C08_add_node hmax h.graph hi ho
  refine ⟨n, ⟨c.topo.addNode n, g'⟩, by simp [Checker.addNode, h1], h1,
    h.graph.step (op := .addNode i o) ⟨hi, ho⟩ (by simp [PG.step, h1]), ?_⟩
  have := addNode_ok h.topo (n := n) (by simp [h2])
  exact ⟨this.nodup, fun x => (this.mem x).trans (live_add h3).symm, this.pos,
    fun x y hxy => this.forward x y ((arc_add h3).1 hxy)⟩

theorem C34_remove_node {maxOff : Nat} (hmax : maxOff ≤ 32767) {c : Checker} (h : Ok maxOff c) {n : Nat}
    (hn : c.graph.containsNode n = true) :
    ∃ c', c.removeNode n = some c' ∧ c.graph.removeNode n = some c'.graph ∧ Ok maxOff c' := by
  obtain ⟨g', h1, h2, -⟩ := C09_remove_node hmax h.graph hn
  obtain ⟨D', h3, h4⟩ := removeNode_ok h.topo hn (R' := Arc g' .outgoing) (fun x y hxy => (arc_remove h2).1 hxy)
  exact ⟨⟨D', g'⟩, by simp [Checker.removeNode, h1, h3], h1, h.graph.step (op := .removeNode n) trivial (by simp [PG.step, h1]),
    h4.nodup, fun x => (h4.mem x).trans (live_remove h2).symm, h4.pos, h4.forward⟩

/-- Removing a node which does not exist panics, where the graph ignores it. -/
theorem C34_remove_unknown {maxOff : Nat} {c : Checker} (h : Ok maxOff c) {n : Nat}
    (hn : c.graph.containsNode n = false) : c.removeNode n = none ∧ c.graph.removeNode n = some c.graph := by
  have h1 := C09_remove_node_unknown hn
  exact ⟨by simp [Checker.removeNode, h1, removeNode_unknown h.topo (n := n) (by simp [hn])], h1⟩

theorem disconnectAll_ok {D : TSort} {V : Nat → Prop} {R : Nat → Nat → Prop} (h : Valid D V R) {a : Nat} (ha : V a)
    {l : List Nat} (hl : ∀ b ∈ l, V b) : Checker.disconnectAll a l D = some D := by
  induction l with
  | nil => rfl
  | cons b l ih =>
    simp only [Checker.disconnectAll, disconnect_ok h ha (hl b (by simp))]
    exact ih fun b hb => hl b (by simp [hb])

theorem C34_unlink_port {maxOff : Nat} (hmax : maxOff ≤ 32767) {c : Checker} (h : Ok maxOff c) (p : Nat) :
    ∃ r c', c.unlinkPort p = some (r, c') ∧ c.graph.unlinkPort p = some (r, c'.graph) ∧ c'.topo = c.topo ∧ Ok maxOff c' := by
  have hI := h.graph.inv hmax
  cases hp : c.graph.containsPort p with
  | false =>
    have h1 := C11_unlink_port_unknown hp
    exact ⟨none, c, by simp [Checker.unlinkPort, h1], h1, rfl, h⟩
  | true =>
    obtain ⟨⟨n, d⟩, hpd⟩ := Option.isSome_iff_exists.1 hp
    obtain ⟨m, _, _, hat⟩ := port_at hI hpd
    obtain ⟨g', h1, h2, h3, -⟩ := C11_unlink_port hmax h.graph ((endpoint_at hI).2 hat) (portLink?_eq hI (by simp [hpd]))
    have hg' : PG.Reach maxOff g' := h.graph.step (op := .unlinkPort p) trivial (by simp [PG.step, h1])
    have hI' := hg'.inv hmax
    have hv : Valid c.topo (g'.containsNode · = true) (Arc g' .outgoing) :=
      ⟨h.topo.nodup, fun x => (h.topo.mem x).trans (live_unlink h2).symm, h.topo.pos,
        fun x y hxy => h.topo.forward x y (arc_unlink h2 hxy)⟩
    refine ⟨_, ⟨c.topo, g'⟩, ?_, h1, rfl, hg', hv⟩
    unfold Checker.unlinkPort
    rw [h1]
    simp only
    split
    · have hpi := at_index.2 hat
      rw [← h3] at hpi
      have hat' := (at_index.1 hpi).port hI'
      simp only [PG.portNode, hat', Option.map_some]
      have hn : g'.containsNode n = true := by
        obtain ⟨m', hm', _⟩ := port_at hI' hat'
        simp [PG.containsNode, hm']
      rw [disconnectAll_ok hv hn]
      intro b hb
      exact (hv.live ((varc_iff hI').1 ((mem_neighbours (ofPG_wf hI')).1 hb))).2
    · rfl

/-- `link_ports` on an unlinked output of `a` and an unlinked input of `b`: it panics exactly if
one of the nodes is reached from the other; otherwise it links the ports, and the order is valid
exactly under the condition of C33. -/
theorem C34_link_ports {maxOff : Nat} (hmax : maxOff ≤ 32767) {c : Checker} (h : Ok maxOff c) {p q a b : Nat}
    (hp : c.graph.portDirection p = some .outgoing) (hq : c.graph.portDirection q = some .incoming)
    (lp : c.graph.portLink? p = some none) (lq : c.graph.portLink? q = some none)
    (ha : c.graph.portNode p = some a) (hb : c.graph.portNode q = some b) :
    (c.linkPorts p q = none ↔ Relation.ReflTransGen (Arc c.graph .outgoing) a b ∨
      Relation.ReflTransGen (Arc c.graph .outgoing) b a) ∧
    (∀ pa pb, c.topo.pos a = some pa → c.topo.pos b = some pb →
      ¬ Relation.ReflTransGen (Arc c.graph .outgoing) a b → ¬ Relation.ReflTransGen (Arc c.graph .outgoing) b a →
      ∃ c', c.linkPorts p q = some (.ok (p, q), c') ∧ c.graph.linkPorts p q = some (.ok (p, q), c'.graph) ∧
        (Ok maxOff c' ↔ Good c.topo (Arc c.graph .outgoing) (ofPG c'.graph) a b pa pb)) := by
  have hI := h.graph.inv hmax
  obtain ⟨g', hl⟩ := C10_link_ports_succeeds hmax h.graph hp hq lp lq
  obtain ⟨hg', harc, hlive⟩ := link_arcs hmax h.graph hp hl ha hb
  have hs := shows_join (hg'.inv hmax) harc
  have node : ∀ {p n}, c.graph.portNode p = some n → c.graph.containsNode n = true := by
    intro p n hn
    simp only [PG.portNode, Option.map_eq_some_iff] at hn
    obtain ⟨⟨n', d⟩, h1, rfl⟩ := hn
    obtain ⟨m', hm', _⟩ := port_at hI h1
    simp [PG.containsNode, hm']
  have hva := node ha
  have hvb := node hb
  obtain ⟨r, c1, c2⟩ := cycle_ok (G := ofPG c.graph) h.topo (shows_self hI b a) hvb
  obtain ⟨pa, hpa⟩ := h.topo.tracked.1 hva
  obtain ⟨pb, hpb⟩ := h.topo.tracked.1 hvb
  have succ : ¬ Relation.ReflTransGen (Arc c.graph .outgoing) a b → ¬ Relation.ReflTransGen (Arc c.graph .outgoing) b a →
      ∃ c', c.linkPorts p q = some (.ok (p, q), c') ∧ c'.graph = g' ∧
        (Ok maxOff c' ↔ Good c.topo (Arc c.graph .outgoing) (ofPG c'.graph) a b pa pb) := by
    intro n1 n2
    have hr : r = false := by
      cases r with
      | false => rfl
      | true => exact absurd (c2.1 rfl) n1
    subst hr
    obtain ⟨D', d1, d2⟩ := connect_valid h.topo hs hpa hpb n2
    refine ⟨⟨D', g'⟩, by simp [Checker.linkPorts, ha, hb, c1, hl, d1], rfl, ?_⟩
    refine Iff.trans ?_ d2
    have heq : Arc g' .outgoing = Plus (Arc c.graph .outgoing) a b := by
      funext x y; exact propext (harc x y)
    constructor
    · rintro ⟨-, hv⟩
      exact ⟨hv.nodup, fun x => (hv.mem x).trans (hlive x), hv.pos, fun x y hxy => hv.forward x y ((harc x y).2 hxy)⟩
    · intro hv
      exact ⟨hg', hv.nodup, fun x => (hv.mem x).trans (hlive x).symm, hv.pos, fun x y hxy => hv.forward x y ((harc x y).1 hxy)⟩
  refine ⟨⟨?_, ?_⟩, ?_⟩
  · intro hn
    by_contra hc
    obtain ⟨c', h1, -⟩ := succ (fun h => hc (.inl h)) (fun h => hc (.inr h))
    rw [hn] at h1; simp at h1
  · intro hc
    cases r with
    | true => simp [Checker.linkPorts, ha, hb, c1]
    | false =>
      rcases hc with hc | hc
      · exact absurd (c2.2 hc) (by simp)
      · have := connect_cycle h.topo hs hva hvb hc
        simp [Checker.linkPorts, ha, hb, c1, hl, this]
  · intro pa' pb' hpa' hpb' n1 n2
    rw [hpa] at hpa'; rw [hpb] at hpb'
    cases hpa'; cases hpb'
    obtain ⟨c', h1, h2, h3⟩ := succ n1 n2
    exact ⟨c', h1, by rw [h2]; exact hl, h3⟩

/-- A link keeps an acyclic graph acyclic exactly if `a` is not reached from `b`. -/
theorem acyclic_plus {R : Nat → Nat → Prop} (h : Acyclic R) {a b : Nat} :
    Acyclic (Plus R a b) ↔ ¬ Relation.ReflTransGen R b a := by
  constructor
  · intro hac hba
    refine hac a (Relation.TransGen.head' (.inr ⟨rfl, rfl⟩) ?_)
    exact Relation.ReflTransGen.mono (fun _ _ h => .inl h) _ _ hba
  · intro hn n hc
    -- follow a path until it uses the new arc
    have key : ∀ x y, Relation.TransGen (Plus R a b) x y →
        Relation.TransGen R x y ∨ (Relation.ReflTransGen R x a ∧ Relation.ReflTransGen R b y) := by
      intro x y hxy
      induction hxy with
      | single h =>
        rcases h with h | ⟨rfl, rfl⟩
        · exact .inl (.single h)
        · exact .inr ⟨.refl, .refl⟩
      | tail _ h ih =>
        rcases h with h | ⟨rfl, rfl⟩
        · rcases ih with ih | ih
          · exact .inl (ih.tail h)
          · exact .inr ⟨ih.1, ih.2.tail h⟩
        · rcases ih with ih | ih
          · exact .inr ⟨ih.to_reflTransGen, .refl⟩
          · exact .inr ⟨ih.1, .refl⟩
    rcases key n n hc with h' | ⟨h1, h2⟩
    · exact h n h'
    · exact hn (h2.trans h1)

theorem Valid.acyclic {D : TSort} {V : Nat → Prop} {R : Nat → Nat → Prop} (h : Valid D V R) : Acyclic R := by
  intro n hn
  obtain ⟨m, h1, h2⟩ := Relation.TransGen.tail'_iff.1 hn
  obtain ⟨i, hi⟩ := h.tracked.1 (h.live h2).2
  obtain ⟨j, hj⟩ := h.tracked.1 (h.live h2).1
  have := h.le h1 hi hj
  have := h.lt h2 hj hi
  omega

/-- `link_ports` accepts a link exactly if it keeps the graph acyclic and its nodes are not
already connected. What is missing: links between nodes already connected in this direction,
which keep the graph acyclic but panic. -/
theorem C34_link_ports_accepts_partial {maxOff : Nat} (hmax : maxOff ≤ 32767) {c : Checker} (h : Ok maxOff c) {p q a b : Nat}
    (hp : c.graph.portDirection p = some .outgoing) (hq : c.graph.portDirection q = some .incoming)
    (lp : c.graph.portLink? p = some none) (lq : c.graph.portLink? q = some none)
    (ha : c.graph.portNode p = some a) (hb : c.graph.portNode q = some b) :
    ∃ g', c.graph.linkPorts p q = some (.ok (p, q), g') ∧ ((∃ c', c.linkPorts p q = some (.ok (p, q), c') ∧ c'.graph = g') ↔
      Acyclic (Arc g' .outgoing) ∧ ¬ Relation.ReflTransGen (Arc c.graph .outgoing) a b) := by
  have hI := h.graph.inv hmax
  obtain ⟨g', hl⟩ := C10_link_ports_succeeds hmax h.graph hp hq lp lq
  obtain ⟨hg', harc, hlive⟩ := link_arcs hmax h.graph hp hl ha hb
  have heq : Arc g' .outgoing = Plus (Arc c.graph .outgoing) a b := by
    funext x y; exact propext (harc x y)
  obtain ⟨h1, h2⟩ := C34_link_ports hmax h hp hq lp lq ha hb
  have node : ∀ {p n}, c.graph.portNode p = some n → c.graph.containsNode n = true := by
    intro p n hn
    simp only [PG.portNode, Option.map_eq_some_iff] at hn
    obtain ⟨⟨n', d⟩, h1, rfl⟩ := hn
    obtain ⟨m', hm', _⟩ := port_at hI h1
    simp [PG.containsNode, hm']
  obtain ⟨pa, hpa⟩ := h.topo.tracked.1 (node ha)
  obtain ⟨pb, hpb⟩ := h.topo.tracked.1 (node hb)
  refine ⟨g', hl, ?_⟩
  rw [heq, acyclic_plus h.topo.acyclic]
  constructor
  · rintro ⟨c', h3, -⟩
    constructor
    · intro hc
      rw [h1.2 (.inr hc)] at h3; simp at h3
    · intro hc
      rw [h1.2 (.inl hc)] at h3; simp at h3
  · rintro ⟨n2, n1⟩
    obtain ⟨c', h3, h4, -⟩ := h2 pa pb hpa hpb n1 n2
    refine ⟨c', h3, ?_⟩
    rw [hl] at h4
    simpa using h4.symm

/-! ## C34 histories -/

/-- Checkers obtained by the calls of `add_node`, `remove_node`, `unlink_port` and `link_ports`
(from an output to an input, with the condition of C33, or without success). -/
inductive Used (maxOff : Nat) : Checker → Prop where
  | new {g c} : PG.Reach maxOff g → Acyclic (Arc g .outgoing) → Checker.new g = some c → Used maxOff c
  | add {c i o n c'} : Used maxOff c → i ≤ maxOff → o ≤ maxOff → c.addNode maxOff i o = some (n, c') → Used maxOff c'
  | remove {c n c'} : Used maxOff c → c.removeNode n = some c' → Used maxOff c'
  | unlink {c p r c'} : Used maxOff c → c.unlinkPort p = some (r, c') → Used maxOff c'
  | link {c p q a b pa pb c'} : Used maxOff c → c.graph.portDirection p = some .outgoing →
      c.graph.portNode p = some a → c.graph.portNode q = some b →
      c.topo.pos a = some pa → c.topo.pos b = some pb → Good c.topo (Arc c.graph .outgoing) (ofPG c'.graph) a b pa pb →
      c.linkPorts p q = some (.ok (p, q), c') → Used maxOff c'
  | fail {c p q e c'} : Used maxOff c → c.linkPorts p q = some (.error e, c') → Used maxOff c'

/-- A link that is refused changes nothing. -/
theorem C34_link_error {maxOff : Nat} (hmax : maxOff ≤ 32767) {c : Checker} (h : Ok maxOff c) {p q : Nat} {e c'}
    (hl : c.linkPorts p q = some (.error e, c')) : c' = c := by
  unfold Checker.linkPorts at hl
  cases ha : c.graph.portNode p with
  | none => simp [ha] at hl; exact hl.2.symm
  | some a =>
    cases hb : c.graph.portNode q with
    | none => simp [ha, hb] at hl; exact hl.2.symm
    | some b =>
      simp only [ha, hb] at hl
      obtain ⟨g', h1, h2⟩ := C10_link_ports_outcome_partial hmax h.graph p q
      have node : ∀ {p n}, c.graph.portNode p = some n → c.graph.containsNode n = true := by
        intro p n hn
        simp only [PG.portNode, Option.map_eq_some_iff] at hn
        obtain ⟨⟨n', d⟩, h1, rfl⟩ := hn
        obtain ⟨m', hm', _⟩ := port_at (h.graph.inv hmax) h1
        simp [PG.containsNode, hm']
      obtain ⟨pa, hpa⟩ := h.topo.tracked.1 (node ha)
      obtain ⟨pb, hpb⟩ := h.topo.tracked.1 (node hb)
      rw [h1] at hl
      cases hw : c.topo.wouldCreateCycle (ofPG c.graph) b a with
      | none => simp [hw] at hl
      | some r =>
        cases r with
        | true => simp [hw] at hl
        | false =>
          simp only [hw] at hl
          cases ho : linkOutcome c.graph p q with
          | error e' =>
            simp only [ho, Option.some.injEq, Prod.mk.injEq] at hl
            have := h2 (by rw [ho]; rfl)
            subst this
            exact hl.2.symm
          | ok r =>
            simp only [ho, TSort.connectNodes, hpa, hpb] at hl
            cases hw' : c.topo.wouldCreateCycle (ofPG g') a b with
            | none => simp [hw'] at hl
            | some r =>
              cases r with
              | true => simp [hw'] at hl
              | false =>
                simp only [hw'] at hl
                split at hl
                · simp at hl
                · rename_i hx
                  split at hx
                  · cases hu : c.topo.updateOrder (ofPG g') a b <;> simp [hu] at hx
                  · simp at hx
                · simp at hl
                · simp at hl

/-- A link from an output to an input, under the condition of C33, leaves a valid order. -/
theorem link_ok {maxOff : Nat} (hmax : maxOff ≤ 32767) {c c' : Checker} (h : Ok maxOff c) {p q a b pa pb : Nat}
    (hd : c.graph.portDirection p = some .outgoing) (ha : c.graph.portNode p = some a)
    (hb : c.graph.portNode q = some b) (hpa : c.topo.pos a = some pa) (hpb : c.topo.pos b = some pb)
    (hgood : Good c.topo (Arc c.graph .outgoing) (ofPG c'.graph) a b pa pb)
    (hc : c.linkPorts p q = some (.ok (p, q), c')) : Ok maxOff c' := by
  have hl : ∃ g', c.graph.linkPorts p q = some (.ok (p, q), g') := by
    unfold Checker.linkPorts at hc
    simp only [ha, hb] at hc
    obtain ⟨g', h1, -⟩ := C10_link_ports_outcome_partial hmax h.graph p q
    rw [h1] at hc ⊢
    cases hw : c.topo.wouldCreateCycle (ofPG c.graph) b a with
    | none => simp [hw] at hc
    | some r =>
      cases r with
      | true => simp [hw] at hc
      | false =>
        simp only [hw] at hc
        cases ho : linkOutcome c.graph p q with
        | error e' => simp [ho] at hc
        | ok r =>
          simp only [ho] at hc
          split at hc <;> simp at hc
          obtain ⟨rfl, -⟩ := hc
          exact ⟨g', rfl⟩
  obtain ⟨g', hl⟩ := hl
  obtain ⟨ea, eb, e1, e2, e3, e4, e5, -⟩ := C10_link_ports hmax h.graph hl
  have hq : c.graph.portDirection q = some .incoming := by
    have hI := h.graph.inv hmax
    have p1 := ((endpoint_at hI).1 e1).port hI
    have p2 := ((endpoint_at hI).1 e2).port hI
    simp only [PG.portDirection, p1, Option.map_some, Option.some.injEq] at hd
    rw [hd] at e3
    simp only [PG.portDirection, p2, Option.map_some, Option.some.injEq]
    cases h' : eb.2.1 <;> simp [h', Direction.reverse] at e3 ⊢
  obtain ⟨h1, h2⟩ := C34_link_ports hmax h hd hq e4 e5 ha hb
  have hn : ¬ (Relation.ReflTransGen (Arc c.graph .outgoing) a b ∨ Relation.ReflTransGen (Arc c.graph .outgoing) b a) := by
    intro hx
    rw [h1.2 hx] at hc; simp at hc
  obtain ⟨c'', h3, -, h4⟩ := h2 pa pb hpa hpb (fun h => hn (.inl h)) (fun h => hn (.inr h))
  rw [hc] at h3; cases h3
  exact h4.2 hgood

/-- The graph and the order stay in step. What is missing: links whose positions do not meet the
condition; `C70_history_partial` has the methods passed on to the graph. -/
theorem C34_history_partial {maxOff : Nat} (hmax : maxOff ≤ 32767) {c : Checker} (h : Used maxOff c) : Ok maxOff c := by
  induction h with
  | new hg hac hc =>
    obtain ⟨c', h1, -, h2⟩ := C34_new hmax hg hac
    rw [hc] at h1; cases h1; exact h2
  | add hu hi ho hc ih =>
    obtain ⟨n', c'', h1, -, h2⟩ := C34_add_node hmax ih hi ho
    rw [hc] at h1; cases h1; exact h2
  | @remove c n c' hu hc ih =>
    cases hn : c.graph.containsNode n with
    | false => rw [(C34_remove_unknown ih hn).1] at hc; simp at hc
    | true =>
      obtain ⟨c'', h1, -, h2⟩ := C34_remove_node hmax ih hn
      rw [hc] at h1; cases h1; exact h2
  | unlink hu hc ih =>
    obtain ⟨r, c'', h1, -, -, h2⟩ := C34_unlink_port hmax ih _
    rw [hc] at h1; cases h1; exact h2
  | link hu hd ha hb hpa hpb hgood hc ih => exact link_ok hmax ih hd ha hb hpa hpb hgood hc
  | fail hu hc ih => rw [C34_link_error hmax ih hc]; exact ih

/-! The hypotheses hold for the checker of the diamond `dagG`. -/

def dagC : Checker := (Checker.new dagG).get (by decide +kernel)

theorem dagC_ok : dagC.graph = dagG ∧ Ok 32767 dagC := by
  obtain ⟨c, h1, h2, h3⟩ := C34_new (by decide) dagG_reach dagG_acyclic
  have : dagC = c := by simp only [dagC, h1, Option.get_some]
  rw [this]; exact ⟨h2, h3⟩

theorem dagC_live (n : Nat) : dagC.graph.containsNode n = dagG.containsNode n := by rw [dagC_ok.1]

/-- The graph shows its own arcs. -/
theorem dagC_shows (a b : Nat) : Shows (ofPG dagC.graph) (Arc dagC.graph .outgoing) a b := by
  have hI := dagC_ok.2.graph.inv (by decide)
  exact ⟨ofPG_wf hI, fun x y h => (varc_iff hI).2 h, fun x y h => .inl ((varc_iff hI).1 h)⟩

example := C33_connect_cycle dagC_ok.2.topo (dagC_shows 4 0) (by rw [dagC_live]; decide +kernel) (by rw [dagC_live]; decide +kernel)

example := (C33_connect_unknown dagC_ok.2.topo (ofPG dagC.graph) 4 7).2 (by rw [dagC_live]; decide +kernel) (by rw [dagC_live]; decide +kernel)

/-- Node 5 is behind 0 and nothing leads from one to the other: the arc from 5 to 0 is new and asks for a reordering. -/
theorem dagC_pos : dagC.topo.order = [0, 5, 1, 2, 3, 4] ∧ dagC.topo.pos 0 = some 0 ∧ dagC.topo.pos 5 = some 1 := by decide +kernel

theorem dagC_apart : ¬ Relation.ReflTransGen (Arc dagC.graph .outgoing) 0 5 := by
  rw [dagC_ok.1]
  have hI := dagG_reach.inv (by decide)
  intro hc
  rcases Relation.ReflTransGen.cases_tail hc with h | ⟨x, -, h⟩
  · simp at h
  · have hv := (varc_iff hI).2 h
    have := List.all_eq_true.1 (by decide +kernel : ((ofPG dagG).nodes.all fun m => !(neighbours (ofPG dagG) m .outgoing).contains 5) = true)
      x (varc_nodes (ofPG_wf hI) hv).1
    have hn := (mem_neighbours (ofPG_wf hI)).2 hv
    simp [hn] at this

example := C33_connect_nodup dagC_ok.2.topo (dagC_shows 5 0) dagC_pos.2.2 dagC_pos.2.1 dagC_apart

example := C33_connect_valid dagC_ok.2.topo (dagC_shows 5 0) dagC_pos.2.2 dagC_pos.2.1 dagC_apart

example := C33_add_node dagC_ok.2.topo (n := 7) (by rw [dagC_live]; decide +kernel)

example := C33_remove_node dagC_ok.2.topo (n := 3) (by rw [dagC_live]; decide +kernel)

example := C33_disconnect dagC_ok.2.topo (a := 1) (b := 3) (by rw [dagC_live]; decide +kernel) (by rw [dagC_live]; decide +kernel)
  (R' := fun x y => Arc dagC.graph .outgoing x y ∧ x ≠ 1) (fun _ _ h => h.1)

example : ∃ D, TSort.withGraph (ofPG dagG) = some D ∧ Valid D (dagG.containsNode · = true) (Arc dagG .outgoing) := by
  obtain ⟨D, h, -⟩ := withGraph_ok (by decide) dagG_reach dagG_acyclic
  exact ⟨D, h, (C33_history_partial (by decide) (.start dagG_reach dagG_acyclic h)).2⟩

example := C34_new (by decide) dagG_reach dagG_acyclic

example := C34_add_node (by decide) dagC_ok.2 (i := 2) (o := 1) (by decide) (by decide)

example := C34_remove_node (by decide) dagC_ok.2 (n := 3) (by rw [dagC_live]; decide +kernel)

example := C34_remove_unknown dagC_ok.2 (n := 7) (by rw [dagC_live]; decide +kernel)

example := C34_unlink_port (by decide) dagC_ok.2 3

-- the outgoing port 11 of node 4 and the incoming port 8 of node 3 are free: the link would close a cycle
example : dagC.linkPorts 11 8 = none :=
  (C34_link_ports (by decide) dagC_ok.2 (p := 11) (q := 8) (a := 4) (b := 3) (by rw [dagC_ok.1]; decide +kernel)
    (by rw [dagC_ok.1]; decide +kernel) (by rw [dagC_ok.1]; decide +kernel) (by rw [dagC_ok.1]; decide +kernel)
    (by rw [dagC_ok.1]; decide +kernel) (by rw [dagC_ok.1]; decide +kernel)).1.2
    (.inr (by rw [dagC_ok.1]; exact .single ⟨0, 0, by decide +kernel⟩))

example := C34_link_ports_accepts_partial (by decide) dagC_ok.2 (p := 11) (q := 8) (a := 4) (b := 3) (by rw [dagC_ok.1]; decide +kernel)
    (by rw [dagC_ok.1]; decide +kernel) (by rw [dagC_ok.1]; decide +kernel) (by rw [dagC_ok.1]; decide +kernel)
    (by rw [dagC_ok.1]; decide +kernel) (by rw [dagC_ok.1]; decide +kernel)

-- an error of a link: the port 77 does not exist
example : (dagC.linkPorts 77 8).map (fun x => x.1.toOption) = some none := by decide +kernel

-- a history: a node is added and a port unlinked
example : ∃ n c' r c'', dagC.addNode 32767 2 1 = some (n, c') ∧ c'.unlinkPort 3 = some (r, c'') ∧ Ok 32767 c'' := by
  have h0 : Used 32767 dagC := .new dagG_reach dagG_acyclic (c := dagC) (by simp [dagC])
  obtain ⟨n, c', h1, -, h2⟩ := C34_add_node (by decide) dagC_ok.2 (i := 2) (o := 1) (by decide) (by decide)
  obtain ⟨r, c'', h3, -⟩ := C34_unlink_port (by decide) h2 3
  exact ⟨n, c', r, c'', h1, h3, C34_history_partial (by decide) (.unlink (.add h0 (by decide) (by decide) h1) h3)⟩

end Verif.Dyn
