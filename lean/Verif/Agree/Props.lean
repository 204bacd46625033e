import Verif.Agree.Lemmas
import Verif.View.Props

/-!
# C68: different algorithms agree
-/

namespace Verif.Agree

open Verif (Direction)
open Verif.PG Verif.Algo Verif.Algo.Dom Verif.Convex

/-- **C68** `toposort` from the nodes without predecessors decides whether the graph has a cycle: it
yields all nodes, and leaves no port, exactly if there is none. -/
theorem C68_toposort_acyclic {maxOff : Nat} (hmax : maxOff ≤ 32767) {g : PG} (hg : PG.Reach maxOff g) (d : Direction)
    (dflt : Bool) {S : List Nat} (hS : S.Nodup) (hsrc : ∀ n, n ∈ S ↔ g.containsNode n = true ∧ ∀ m, ¬ Arc g d m n) :
    ∃ l s, toposort (ofPG g) .all d dflt S = some (l, s) ∧
      ((∀ n, g.containsNode n = true → n ∈ l) ↔ Acyclic (Arc g d)) ∧
      (Topo.portsRemaining (ofPG g) s = [] ↔ Acyclic (Arc g d)) := by
  have hI := hg.inv hmax
  obtain ⟨l, s, h1, hnd, -, h4, -, h6⟩ := C27_toposort hmax hg d dflt hS
  refine ⟨l, s, h1, ?_⟩
  have hall : (∀ n, g.containsNode n = true → n ∈ l ∨ ∀ d', g.ports n d' = []) → Acyclic (Arc g d) := by
    intro h
    apply acyclic_of_before hnd
    intro m n hmn
    have hn : n ∈ l := by
      refine (h n (arc_live hI hmn).2).resolve_right fun he => ?_
      obtain ⟨p, hp, q, hq, hqn⟩ := (varc_iff hI).2 hmn
      rw [show (ofPG g).ports n d.reverse = g.ports n d.reverse from rfl, he] at hqn
      cases hqn
    exact (h4 n hn fun hs => ((hsrc n).1 hs).2 m hmn).2 m hmn
  have hac : Acyclic (Arc g d) → (∀ n, g.containsNode n = true → n ∈ l) ∧ Topo.portsRemaining (ofPG g) s = [] := by
    intro hac
    obtain ⟨l', s', e1, -, e3, -, e5⟩ := C27_acyclic hmax hg d dflt hS hac hsrc
    rw [h1] at e1
    simp only [Option.some.injEq, Prod.mk.injEq] at e1
    obtain ⟨rfl, rfl⟩ := e1
    exact ⟨fun n => (e3 n).2, e5⟩
  refine ⟨⟨fun h => hall fun n hn => .inl (h n hn), fun h => (hac h).1⟩, fun h => hall fun n hn => (h6 n hn).2 ?_, fun h => (hac h).2⟩
  intro d' p _
  rw [h]
  exact List.not_mem_nil

/-- **C68** `postorder` from all nodes decides it as well: every node comes after its successors exactly
if there is no cycle. -/
theorem C68_postorder_acyclic {maxOff : Nat} (hmax : maxOff ≤ 32767) {g : PG} (hg : PG.Reach maxOff g) (d : Direction)
    {cap : Nat} (hcap : g.nodeMeta.length ≤ cap) {S : List Nat} (hS : ∀ n, n ∈ S ↔ g.containsNode n = true) :
    ∃ l s, postorder (ofPG g) .all d cap S = some (l, s) ∧ l.Nodup ∧ (∀ n, n ∈ l ↔ g.containsNode n = true) ∧
      ((∀ n m, Arc g d n m → Before l m n) ↔ Acyclic (Arc g d)) := by
  have hI := hg.inv hmax
  obtain ⟨l, s, h1, h2, h3, h4, -⟩ := C28_postorder hmax hg d hcap fun n hn => (hS n).1 hn
  have hmem : ∀ n, n ∈ l ↔ g.containsNode n = true := by
    intro n
    rw [h3]
    constructor
    · rintro ⟨r, hr, hp⟩
      rcases Relation.ReflTransGen.cases_tail hp with rfl | ⟨m, -, hm⟩
      · exact (hS _).1 hr
      · exact (arc_live hI hm).2
    · exact fun hn => ⟨n, (hS n).2 hn, .refl⟩
  refine ⟨l, s, h1, h2, hmem, fun h => ?_, fun hac n m hnm => ?_⟩
  · refine acyclic_of_before (l := l.reverse) (List.nodup_reverse.2 h2) fun a b hab => ?_
    rw [before_reverse]
    exact h a b hab
  · refine (h4 n ((hmem n).2 (arc_live hI hnm).1) m hnm).resolve_right fun hc => ?_
    exact hac n (.head' hnm hc)

/-- **C68** On an acyclic graph the reversed `postorder` is a topological order, and so is the reversed
`toposort` against the links from the nodes without successors; a `TopoConvexChecker` with either
order gives the answers of one made by `new`. -/
theorem C68_orders {maxOff : Nat} (hmax : maxOff ≤ 32767) {g : PG} (hg : PG.Reach maxOff g) (hac : Acyclic (Arc g .outgoing))
    {cap : Nat} (hcap : g.nodeMeta.length ≤ cap) {S T : List Nat} (hS : ∀ n, n ∈ S ↔ g.containsNode n = true) (dflt : Bool)
    (hT : T.Nodup) (hTs : ∀ n, n ∈ T ↔ g.containsNode n = true ∧ ∀ m, ¬ Arc g .outgoing n m) :
    ∃ l s l' s' c, postorder (ofPG g) .all .outgoing cap S = some (l, s) ∧ TopoOrder g l.reverse ∧
      toposort (ofPG g) .all .incoming dflt T = some (l', s') ∧ TopoOrder g l'.reverse ∧ Convex.Topo.new (ofPG g) = some c ∧
      ∀ X, (∀ n ∈ X, g.containsNode n = true) → (Topo.ofOrder g l.reverse).isNodeConvex X = c.isNodeConvex X ∧
        (Topo.ofOrder g l'.reverse).isNodeConvex X = c.isNodeConvex X := by
  have hI := hg.inv hmax
  obtain ⟨l, s, h1, h2, h3, h4⟩ := C68_postorder_acyclic hmax hg .outgoing hcap hS
  have harc : ∀ m n, Arc g .incoming m n ↔ Arc g .outgoing n m := fun m n => arc_reverse (d := .outgoing) hI
  have hac' : Acyclic (Arc g .incoming) := (acyclic_reverse (d := .outgoing) hI).2 hac
  obtain ⟨l', s', e1, e2, e3, e4, -⟩ := C27_acyclic hmax hg .incoming dflt hT hac' (by
    intro n
    rw [hTs]
    simp only [harc])
  obtain ⟨order, c1, c2⟩ := C31_new hmax hg hac
  have t1 : TopoOrder g l.reverse :=
    ⟨List.nodup_reverse.2 h2, fun n => by rw [List.mem_reverse, h3], fun m n hmn => before_reverse.2 (h4.2 hac m n hmn)⟩
  have t2 : TopoOrder g l'.reverse :=
    ⟨List.nodup_reverse.2 e2, fun n => by rw [List.mem_reverse, e3],
      fun m n hmn => before_reverse.2 (e4 n m ((harc n m).2 hmn))⟩
  refine ⟨l, s, l', s', _, h1, t1, e1, t2, c1, fun X hX => ?_⟩
  have key : ∀ o, TopoOrder g o → (Topo.ofOrder g o).isNodeConvex X = (Topo.ofOrder g order).isNodeConvex X := by
    intro o ho
    obtain ⟨r, r1, r2⟩ := C31_any_order hmax hg ho hX
    obtain ⟨r', r1', r2'⟩ := C31_any_order hmax hg c2 hX
    rw [r1, r1', Option.some.injEq, Bool.eq_iff_iff, r2, r2']
  exact ⟨key _ t1, key _ t2⟩

/-- **C68** What the dynamic checker accepts as convex, the other two checkers accept, on the same
graph. -/
theorem C68_checkers {maxOff : Nat} (hmax : maxOff ≤ 32767) {c : Dyn.Checker} (h : Dyn.Ok maxOff c) {guess : Line.Guess} (hgs : guess.OK)
    {S : List Nat} (hne : S ≠ []) (hnd : S.Nodup) (hS : ∀ n ∈ S, c.graph.containsNode n = true) :
    ∃ t k r, Convex.Topo.new (ofPG c.graph) = some t ∧ Line.new (ofPG c.graph) = some k ∧ t.isNodeConvex S = some r ∧
      k.isNodeConvex guess S = some r ∧ (c.isConvex S [] [] = some true → r = true) := by
  have hac : Acyclic (Arc c.graph .outgoing) := acyclic_of_before h.topo.nodup h.topo.forward
  obtain ⟨t, r, h1, h2, h3⟩ := C31_is_node_convex hmax h.graph hac hS
  obtain ⟨k, r', e1, e2, e3⟩ := C32_is_node_convex_partial hmax h.graph hac hgs hne hnd hS
  have : r' = r := by rw [Bool.eq_iff_iff, h3, e3]
  subst this
  exact ⟨t, k, r', h1, e1, h2, e2, fun hd => h3.2 (Dyn.C34_is_convex_partial hmax h hS hd)⟩

/-- `C29_dominators_partial` without filter. -/
theorem dominators_all {maxOff : Nat} (hmax : maxOff ≤ 32767) {g : PG} (hg : PG.Reach maxOff g) (d : Direction)
    {cap entry : Nat} (hcap : g.nodeMeta.length ≤ cap) (he : g.containsNode entry = true)
    (hpred : ∀ n m, Relation.ReflTransGen (Arc g d) entry n → Arc g d m n → Relation.ReflTransGen (Arc g d) entry m) :
    entry < cap ∧ ∃ T, dominators (ofPG g) .all d cap entry = some T ∧
      (∀ n, (T.idom n).isSome = true ↔ n ≠ entry ∧ Relation.ReflTransGen (Arc g d) entry n) ∧
      ∀ n c, T.idom n = some c → ImmDom (Arc g d) entry c n := by
  have hI := hg.inv hmax
  have hecap : entry < cap := by
    obtain ⟨m, hm⟩ := Option.isSome_iff_exists.1 (containsNode_iff.1 he)
    have := PG.node?_eq.1 hm
    rw [List.getElem?_eq_some_iff] at this
    obtain ⟨hlt, -⟩ := this
    omega
  have hR : FArc g .all d = Arc g d := by funext n m; exact propext (farc_all hI)
  obtain ⟨T, t1, -, t3, t4⟩ := C29_dominators_partial hmax hg .all d hcap hecap rfl (by
    rw [hR]
    exact fun n m h1 h2 _ => hpred n m h1 h2)
  rw [hR] at t3 t4
  exact ⟨hecap, T, t1, t3, t4⟩

/-- **C68** In a topological order every immediate dominator comes before its node, and in `postorder`
after it. -/
theorem C68_dominators_order {maxOff : Nat} (hmax : maxOff ≤ 32767) {g : PG} (hg : PG.Reach maxOff g) (d : Direction)
    (hac : Acyclic (Arc g d)) {cap entry : Nat} (hcap : g.nodeMeta.length ≤ cap) (he : g.containsNode entry = true)
    (hpred : ∀ n m, Relation.ReflTransGen (Arc g d) entry n → Arc g d m n → Relation.ReflTransGen (Arc g d) entry m)
    (dflt : Bool) {S : List Nat} (hS : S.Nodup) (hsrc : ∀ n, n ∈ S ↔ g.containsNode n = true ∧ ∀ m, ¬ Arc g d m n) :
    ∃ T l s l' s', dominators (ofPG g) .all d cap entry = some T ∧ toposort (ofPG g) .all d dflt S = some (l, s) ∧
      postorder (ofPG g) .all d cap [entry] = some (l', s') ∧
      ∀ n c, T.idom n = some c → Before l c n ∧ Before l' n c := by
  have hI := hg.inv hmax
  obtain ⟨-, T, t1, t3, t4⟩ := dominators_all hmax hg d hcap he hpred
  obtain ⟨l, s, e1, e2, e3, e4, -⟩ := C27_acyclic hmax hg d dflt hS hac hsrc
  obtain ⟨l', s', f1, f2, f3, f4, -⟩ := C28_postorder hmax hg d hcap (S := [entry]) (by simpa using he)
  have f5 : ∀ n m, Relation.ReflTransGen (Arc g d) entry n → Arc g d n m → Before l' m n := by
    intro n m hn hnm
    refine (f4 n ((f3 n).2 ⟨entry, by simp, hn⟩) m hnm).resolve_right fun hc => ?_
    exact hac n (.head' hnm hc)
  refine ⟨T, l, s, l', s', t1, e1, f1, fun n c hc => ?_⟩
  obtain ⟨i1, i2, -⟩ := t4 n c hc
  obtain ⟨w, hw⟩ := reach_walk ((t3 n).1 (by rw [hc]; rfl)).2
  have hcw := i2 w hw
  clear i2 hc
  induction hw with
  | root => simp only [List.mem_singleton] at hcw; exact absurd hcw i1
  | @step w m n hw hmn ih =>
    rcases List.mem_cons.1 hcw with h | h
    · exact absurd h i1
    · by_cases hcm : c = m
      · subst hcm; exact ⟨e4 _ _ hmn, f5 _ _ (walk_reach hw) hmn⟩
      · obtain ⟨b1, b2⟩ := ih hcm h
        exact ⟨before_trans e2 b1 (e4 _ _ hmn), before_trans f2 (f5 _ _ (walk_reach hw) hmn) b2⟩

/-- **C68** The dominators of a node are those on the chain of immediate dominators, and they are the
nodes without which `postorder_filtered` does not get from the entry to the node. -/
theorem C68_dominators_removal {maxOff : Nat} (hmax : maxOff ≤ 32767) {g : PG} (hg : PG.Reach maxOff g) (d : Direction)
    {cap entry : Nat} (hcap : g.nodeMeta.length ≤ cap) (he : g.containsNode entry = true)
    (hpred : ∀ n m, Relation.ReflTransGen (Arc g d) entry n → Arc g d m n → Relation.ReflTransGen (Arc g d) entry m) :
    ∃ T, dominators (ofPG g) .all d cap entry = some T ∧ ∀ c, ∃ l s,
      postorder (ofPG g) ⟨fun x => x != c, fun _ _ => true⟩ d cap [entry] = some (l, s) ∧
      ∀ n, Relation.ReflTransGen (Arc g d) entry n → (n ∉ l ↔ Relation.ReflTransGen (fun a b => T.idom a = some b) n c) := by
  have hI := hg.inv hmax
  obtain ⟨hecap, T, t1, t3, t4⟩ := dominators_all hmax hg d hcap he hpred
  refine ⟨T, t1, fun c => ?_⟩
  obtain ⟨l, s, h1, -, h3, -⟩ := C28_filtered hmax hg (except c) d hcap (S := [entry]) (by simpa using hecap)
  refine ⟨l, s, h1, fun n hn => ?_⟩
  rw [← dominates_chain t4 (fun m hm hp => (t3 m).2 ⟨hm, hp⟩) hn]
  have hF : FArc g (except c) d = fun a b => Arc g d a b ∧ b ≠ c := by
    funext a b
    exact propext (farc_except hI)
  rw [h3, hF]
  by_cases hec : entry = c
  · subst hec
    constructor
    · exact fun _ w hw => walk_root hw
    · rintro - ⟨r, hr, hx, -⟩
      simp only [List.mem_singleton] at hr
      subst hr
      simp [except] at hx
  · constructor
    · intro hno w hw
      by_contra hcw
      exact hno ⟨entry, by simp, by simpa [except] using hec, (walk_except hec).2 ⟨w, hw, hcw⟩⟩
    · rintro hd ⟨r, hr, -, hp⟩
      simp only [List.mem_singleton] at hr
      subst hr
      obtain ⟨w, hw, hcw⟩ := (walk_except hec).1 hp
      exact hcw (hd w hw)

/-- `descendants(a)` yields `b`. -/
def Yields (h : Hier.Hierarchy) (a b : Nat) : Prop := ∃ l f0, (∀ f, f0 ≤ f → (h.descendants a).collect h f = some l) ∧ b ∈ l

theorem yields_iff {h : Hier.Hierarchy} (hr : Hier.Reach h) {a b : Nat} : Yields h a b ↔ Hier.Anc h.kids a b := by
  obtain ⟨l, f0, e1, -, -, e4, -⟩ := Hier.C26_descendants hr a
  rw [← e4]
  constructor
  · rintro ⟨l', f0', e1', hb⟩
    have h1 := e1 (max f0 f0') (by omega)
    rw [e1' (max f0 f0') (by omega)] at h1
    simp only [Option.some.injEq] at h1
    rwa [← h1]
  · exact fun hb => ⟨l, f0, e1, hb⟩

theorem forall₂_snoc {α β : Type} {R : α → β → Prop} : ∀ {l : List α} {a : α} {bs : List β}, List.Forall₂ R (l ++ [a]) bs →
    ∃ bs' b, bs = bs' ++ [b] ∧ R a b
  | [], _, _, .cons h .nil => ⟨[], _, rfl, h⟩
  | _ :: _, _, _, .cons (b := b) h t => by
    obtain ⟨bs', c, rfl, hc⟩ := forall₂_snoc t
    exact ⟨b :: bs', c, rfl, hc⟩

/-- **C68** `descendants`, the queries of a region and `is_ancestor` of the structure for lowest common
ancestors agree, whatever was asked before; and the lowest common ancestor of two nodes is the node
above both that is below every node above both. -/
theorem C68_hierarchy {h : Hier.Hierarchy} (hr : Hier.Reach h) {nodes : List Nat} (hnd : nodes.Nodup) :
    ∃ s, Lca.new nodes h = some s ∧ ∀ a b, Lca.Covered nodes h a → Lca.Covered nodes h b →
      (Yields h a b ↔ s.isAncestor a b = true) ∧
      (∀ before : List Nat, ∃ bs, View.runQueries h a (.new a) (before ++ [b]) = some (bs ++ [s.isAncestor a b])) ∧
      ∀ c, s.lca h.fuel a b = some (some c) ↔ (Yields h c a ∧ Yields h c b) ∧ ∀ c', Yields h c' a → Yields h c' b → Yields h c' c := by
  obtain ⟨s, h1, h2⟩ := Lca.C30_lca hr hnd
  refine ⟨s, h1, fun a b ha hb => ?_⟩
  obtain ⟨hanc, -, o, ho, hsome, hnone⟩ := h2 a b ha hb
  refine ⟨by rw [yields_iff hr, hanc], fun before => ?_, fun c => ?_⟩
  · obtain ⟨bs, q1, q2⟩ := View.C38_region_queries hr a (before ++ [b])
    obtain ⟨bs', x, rfl, hx⟩ := forall₂_snoc q2
    refine ⟨bs', ?_⟩
    have : x = s.isAncestor a b := by rw [Bool.eq_iff_iff, hx, hanc]
    rw [q1, this]
  · simp only [yields_iff hr]
    rw [ho]
    constructor
    · intro hc
      simp only [Option.some.injEq] at hc
      obtain ⟨e1, e2, e3⟩ := hsome c hc
      exact ⟨⟨e1, e2⟩, e3⟩
    · rintro ⟨⟨e1, e2⟩, e3⟩
      cases o with
      | none => exact absurd ⟨e1, e2⟩ (hnone rfl c)
      | some c0 =>
        obtain ⟨k1, k2, k3⟩ := hsome c0 rfl
        rw [(Lca.tree_of_reach hr).anc_antisymm (e3 c0 k1 k2) (k3 c e1 e2)]

/-! The hypotheses can be met: the diamond 0 → 1, 2 → 3 → 4 with the isolated node 5, and a graph with
a cycle. -/

theorem dagG_sources (n : Nat) : n ∈ [0, 5] ↔ dagG.containsNode n = true ∧ ∀ m, ¬ Arc dagG .outgoing m n := by
  have hI := dagG_reach.inv (by decide)
  have hG := ofPG_wf hI
  simp only [← varc_iff hI]
  constructor
  · intro h
    have hn : ∀ n ∈ [0, 5], dagG.containsNode n = true ∧ neighbours (ofPG dagG) n .incoming = [] := by decide +kernel
    refine ⟨(hn n h).1, fun m hm => ?_⟩
    have : m ∈ neighbours (ofPG dagG) n .incoming := (mem_neighbours hG).2 ((varc_iff hI).2 ((arc_reverse (d := .outgoing) hI).2 ((varc_iff hI).1 hm)))
    rw [(hn n h).2] at this
    cases this
  · rintro ⟨h1, h2⟩
    have hall : ∀ n ∈ (ofPG dagG).nodes, n ∈ [0, 5] ∨ (neighbours (ofPG dagG) n .incoming).head?.isSome = true := by decide +kernel
    refine (hall n (ofPG_nodes.2 h1)).resolve_right fun h => ?_
    obtain ⟨m, hm⟩ := Option.isSome_iff_exists.1 h
    have hv := (mem_neighbours hG).1 (List.mem_of_mem_head? hm)
    exact h2 m ((varc_iff hI).2 ((arc_reverse (d := .outgoing) hI).1 ((varc_iff hI).1 hv)))

theorem dagG_pred (n m : Nat) (hn : Relation.ReflTransGen (Arc dagG .outgoing) 0 n) (hm : Arc dagG .outgoing m n) :
    Relation.ReflTransGen (Arc dagG .outgoing) 0 m := by
  have hI := dagG_reach.inv (by decide)
  have hR : FArc dagG .all .outgoing = Arc dagG .outgoing := by funext n m; exact propext (farc_all hI)
  have := closed_of_check (by decide) dagG_reach (F := .all) (d := .outgoing) (cap := 8) (entry := 0) (by decide) (by decide) rfl
    (l := [4, 3, 1, 2, 0]) (by decide +kernel) (by decide +kernel) n m
  rw [hR] at this
  exact this hn hm rfl

example := C68_toposort_acyclic (by decide) dagG_reach .outgoing false (S := [0, 5]) (by decide) dagG_sources
example : (toposort (ofPG exG) .all .outgoing false [3]).map (fun r => (r.1, Topo.portsRemaining (ofPG exG) r.2)) =
    some ([3], [0, 1, 2, 3, 4, 5, 6]) := by decide +kernel
example := C68_dominators_order (by decide) dagG_reach .outgoing dagG_acyclic (cap := 8) (entry := 0) (by decide) (by decide) dagG_pred
  false (S := [0, 5]) (by decide) dagG_sources
example := C68_dominators_removal (by decide) dagG_reach .outgoing (cap := 8) (entry := 0) (by decide) (by decide) dagG_pred
example : (dominators (ofPG dagG) .all .outgoing 8 0).map (fun T => ((T.idom 4).bind T.idom, (T.idom 3).bind T.idom)) = some (some 0, none) ∧
    (postorder (ofPG dagG) ⟨fun x => x != 3, fun _ _ => true⟩ .outgoing 8 [0]).map (·.1) = some [1, 2, 0] ∧
    (postorder (ofPG dagG) ⟨fun x => x != 1, fun _ _ => true⟩ .outgoing 8 [0]).map (·.1) = some [4, 3, 2, 0] := by
  decide +kernel
example : (postorder (ofPG dagG) .all .outgoing 8 [0, 1, 2, 3, 4, 5]).map (fun r => r.1.reverse) = some [5, 0, 2, 1, 3, 4] ∧
    (toposort (ofPG dagG) .all .incoming false [4, 5]).map (fun r => r.1.reverse) = some [0, 2, 1, 3, 5, 4] := by decide +kernel
example : ∃ c, Dyn.Checker.new dagG = some c ∧ Dyn.Ok 32767 c := by
  obtain ⟨c, h1, -, h2⟩ := Dyn.C34_new (by decide) dagG_reach dagG_acyclic
  exact ⟨c, h1, h2⟩
example : (Lca.lcaS.lca Lca.lcaH.fuel 5 6, Lca.lcaS.isAncestor 2 6, View.runQueries Lca.lcaH 2 (.new 2) [5, 0, 6]) =
    (some (some 2), true, some [true, false, true]) := by decide +kernel

theorem dagG_nodes (n : Nat) : n ∈ (ofPG dagG).nodes ↔ dagG.containsNode n = true := ofPG_nodes

theorem dagG_sinks (n : Nat) : n ∈ [4, 5] ↔ dagG.containsNode n = true ∧ ∀ m, ¬ Arc dagG .outgoing n m := by
  have hI := dagG_reach.inv (by decide)
  have hG := ofPG_wf hI
  simp only [← varc_iff hI]
  constructor
  · intro h
    have hn : ∀ n ∈ [4, 5], dagG.containsNode n = true ∧ neighbours (ofPG dagG) n .outgoing = [] := by decide +kernel
    refine ⟨(hn n h).1, fun m hm => ?_⟩
    have : m ∈ neighbours (ofPG dagG) n .outgoing := (mem_neighbours hG).2 hm
    rw [(hn n h).2] at this
    cases this
  · rintro ⟨h1, h2⟩
    have hall : ∀ n ∈ (ofPG dagG).nodes, n ∈ [4, 5] ∨ (neighbours (ofPG dagG) n .outgoing).head?.isSome = true := by decide +kernel
    refine (hall n (ofPG_nodes.2 h1)).resolve_right fun h => ?_
    obtain ⟨m, hm⟩ := Option.isSome_iff_exists.1 h
    exact h2 m ((mem_neighbours hG).1 (List.mem_of_mem_head? hm))

example := C28_acyclic (by decide) dagG_reach .outgoing (cap := 8) (by decide) (S := [0, 5]) (by decide) dagG_acyclic

example := C68_postorder_acyclic (by decide) dagG_reach .outgoing (cap := 8) (by decide) dagG_nodes

example := C68_orders (by decide) dagG_reach dagG_acyclic (cap := 8) (by decide) dagG_nodes false (T := [4, 5]) (by decide) dagG_sinks

example : ∃ c, Dyn.Checker.new dagG = some c ∧ Dyn.Ok 32767 c ∧ ∃ t k r, Convex.Topo.new (ofPG c.graph) = some t ∧ Line.new (ofPG c.graph) = some k ∧
    t.isNodeConvex [1, 3] = some r ∧ k.isNodeConvex middle [1, 3] = some r := by
  obtain ⟨c, h1, h3, h2⟩ := Dyn.C34_new (by decide) dagG_reach dagG_acyclic
  obtain ⟨t, k, r, a, b, c1, c2, -⟩ := C68_checkers (by decide) h2 middle_ok (S := [1, 3]) (by decide) (by decide) (by rw [h3]; decide +kernel)
  exact ⟨c, h1, h2, t, k, r, a, b, c1, c2⟩

#print axioms C68_toposort_acyclic
#print axioms C68_postorder_acyclic
#print axioms C68_orders
#print axioms C68_checkers
#print axioms C68_dominators_order
#print axioms C68_dominators_removal
#print axioms C68_hierarchy

end Verif.Agree
