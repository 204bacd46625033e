import Verif.Boundary.Loop
import Verif.View.Props

/-!
# Properties of the boundary order (C35)
-/

namespace Verif.View

open Verif (Direction)
open Verif.Algo (Acyclic)
open Verif.PG

variable {E : Type} {G : GView E}

/-! ## Making a boundary -/

/-- **C35** `from_ports` panics exactly for ports the graph does not have; otherwise the inputs are
the incoming ports of the list and the outputs the outgoing ones, in the order of the list. -/
theorem C35_from_ports (ports : List Nat) :
    ((G.fromPorts ports).isSome = true ↔ ∀ p ∈ ports, ∃ d, G.portDirection p = some d) ∧
    ∀ B, G.fromPorts ports = some B →
      B.inputs = ports.filter (fun p => decide (G.portDirection p = some .incoming)) ∧
      B.outputs = ports.filter (fun p => decide (G.portDirection p = some .outgoing)) := by
  induction ports with
  | nil => simp [GView.fromPorts]
  | cons p ps ih =>
    obtain ⟨h1, h2⟩ := ih
    unfold GView.fromPorts
    cases hd : G.portDirection p with
    | none =>
      refine ⟨?_, by simp⟩
      simp [hd]
    | some d =>
      cases hB : G.fromPorts ps with
      | none =>
        rw [hB] at h1
        have : ¬ ∀ p ∈ ps, ∃ d, G.portDirection p = some d := fun h => by simpa using h1.2 h
        cases d
        · simp only [List.forall_mem_cons, Option.isSome_none, Bool.false_eq_true, false_iff, not_and, reduceCtorEq,
            false_implies, implies_true, and_true]
          exact fun _ => this
        · simp only [List.forall_mem_cons, Option.isSome_none, Bool.false_eq_true, false_iff, not_and, reduceCtorEq,
            false_implies, implies_true, and_true]
          exact fun _ => this
      | some B =>
        obtain ⟨a, b⟩ := h2 B hB
        rw [hB] at h1
        have h3 := h1.1 rfl
        cases d
        · simp only [Option.isSome_some, List.forall_mem_cons, hd, Option.some.injEq, exists_eq', true_and, true_iff]
          refine ⟨h3, ?_⟩
          rintro _ rfl
          simp [hd, a, b]
        · simp only [Option.isSome_some, List.forall_mem_cons, hd, Option.some.injEq, exists_eq', true_and, true_iff]
          refine ⟨h3, ?_⟩
          rintro _ rfl
          simp [hd, a, b]

/-! ## The order -/

theorem findPort_nodup {ports : List Nat} (hn : ports.Nodup) {p i : Nat} :
    (p ∈ ports ∧ findPort ports p = some i) ↔ ports[i]? = some p := by
  constructor
  · rintro ⟨-, h⟩
    unfold findPort at h
    rw [List.findIdx?_eq_some_iff_getElem] at h
    obtain ⟨h1, h2, -⟩ := h
    rw [List.getElem?_eq_getElem h1]
    simpa using h2
  · intro h
    have hp := List.mem_of_getElem? h
    obtain ⟨j, h1, h2⟩ := findPort_some hp
    refine ⟨hp, ?_⟩
    rw [h1]
    congr 1
    have h3 := h1
    unfold findPort at h3
    rw [List.findIdx?_eq_some_iff_getElem] at h3
    obtain ⟨h4, h5, -⟩ := h3
    obtain ⟨h6, h7⟩ := List.getElem?_eq_some_iff.1 h
    exact (List.Nodup.getElem_inj_iff hn).1 ((by simpa using h5 : ports[j] = p).trans h7.symm)

/-- **C35** (partial: acyclic view, boundary ports not linked in the view, no port repeated)
`port_ordering` does not panic, and its result relates the `i`-th input to the `o`-th output
exactly when there is a path from the node of the one to the node of the other; both of its maps
agree. The boundary ports have no links in the view if the view is the subgraph of the boundary, as
in the next theorem. Missing: boundaries with linked ports, where the function can panic
(`C35_witness_linked`); cyclic graphs, where it can panic (`C35_witness_cycle`); repeated ports,
where only the first position is related (`C35_repeated_partial`). -/
theorem C35_port_ordering_partial (ok : G.Ok) (hs : G.SingleIn .outgoing) (hac : Acyclic G.Arc) {B : Boundary}
    (hB : ∀ p ∈ B.ports, G.containsPort p = true) (hfree : ∀ p ∈ B.ports, G.portLinks p = [])
    (hi : B.inputs.Nodup) (ho : B.outputs.Nodup) :
    ∃ O, G.portOrdering B = some O ∧ O.reachable.length = B.inputs.length ∧ O.reaching.length = B.outputs.length ∧
      O.Consistent ∧
      ∀ i o, O.Has i o ↔ ∃ p q, B.inputs[i]? = some p ∧ B.outputs[o]? = some q ∧ G.Leads p q := by
  obtain ⟨O, h1, h2⟩ := portOrdering_ok ok hs hac hB hfree
  refine ⟨O, h1, h2.len.1, h2.len.2, h2.cons, fun i o => ?_⟩
  rw [h2.ord]
  constructor
  · rintro ⟨p, q, g1, g2, g3, g4, g5⟩
    exact ⟨p, q, (findPort_nodup hi).1 ⟨g1, g3⟩, (findPort_nodup ho).1 ⟨g2, g4⟩, g5⟩
  · rintro ⟨p, q, g1, g2, g3⟩
    obtain ⟨a1, a2⟩ := (findPort_nodup hi).2 g1
    obtain ⟨b1, b2⟩ := (findPort_nodup ho).2 g2
    exact ⟨p, q, a1, b1, a2, b2, g3⟩

/-- **C35** (partial: acyclic view, boundary ports not linked) With repeated ports the pairs are
related at the first positions of the ports. -/
theorem C35_repeated_partial (ok : G.Ok) (hs : G.SingleIn .outgoing) (hac : Acyclic G.Arc) {B : Boundary}
    (hB : ∀ p ∈ B.ports, G.containsPort p = true) (hfree : ∀ p ∈ B.ports, G.portLinks p = []) :
    ∃ O, G.portOrdering B = some O ∧ O.Consistent ∧
      ∀ i o, O.Has i o ↔ ∃ p q, B.inputs[i]? = some p ∧ p ∉ B.inputs.take i ∧ B.outputs[o]? = some q ∧ q ∉ B.outputs.take o ∧
        G.Leads p q := by
  have key : ∀ (ports : List Nat) (p i : Nat), (p ∈ ports ∧ findPort ports p = some i) ↔
      ports[i]? = some p ∧ p ∉ ports.take i := by
    intro ports p i
    unfold findPort
    rw [List.findIdx?_eq_some_iff_getElem]
    constructor
    · rintro ⟨-, h1, h2, h3⟩
      refine ⟨by rw [List.getElem?_eq_getElem h1]; simpa using h2, fun hc => ?_⟩
      obtain ⟨j, hj, hj'⟩ := List.mem_iff_getElem.1 hc
      rw [List.length_take] at hj
      rw [List.getElem_take] at hj'
      exact h3 j (by omega) (by simpa using hj')
    · rintro ⟨h1, h2⟩
      obtain ⟨h3, h4⟩ := List.getElem?_eq_some_iff.1 h1
      refine ⟨List.mem_of_getElem? h1, h3, by simpa using h4, fun j hj hc => ?_⟩
      apply h2
      rw [List.mem_iff_getElem]
      exact ⟨j, by rw [List.length_take]; omega, by rw [List.getElem_take]; simpa using hc⟩
  obtain ⟨O, h1, h2⟩ := portOrdering_ok ok hs hac hB hfree
  refine ⟨O, h1, h2.cons, fun i o => ?_⟩
  rw [h2.ord]
  constructor
  · rintro ⟨p, q, g1, g2, g3, g4, g5⟩
    obtain ⟨a1, a2⟩ := (key _ _ _).1 ⟨g1, g3⟩
    obtain ⟨b1, b2⟩ := (key _ _ _).1 ⟨g2, g4⟩
    exact ⟨p, q, a1, a2, b1, b2, g5⟩
  · rintro ⟨p, q, a1, a2, b1, b2, g5⟩
    obtain ⟨g1, g3⟩ := (key _ _ _).2 ⟨a1, a2⟩
    obtain ⟨g2, g4⟩ := (key _ _ _).2 ⟨b1, b2⟩
    exact ⟨p, q, g1, g2, g3, g4, g5⟩

/-- A path inside a set of nodes. -/
def GView.LeadsIn (G : GView E) (nodes : List Nat) (p q : Nat) : Prop :=
  ∃ m n, G.portNode p = some m ∧ G.portNode q = some n ∧
    Relation.ReflTransGen (fun a b => G.Arc a b ∧ a ∈ nodes ∧ b ∈ nodes) m n

theorem subgraph_arc {nodes : List Nat} {a b : Nat} :
    (G.subgraph nodes).Arc a b ↔ G.Arc a b ∧ a ∈ nodes ∧ b ∈ nodes := by
  constructor
  · rintro ⟨e, f, h1, h2, h3, h4⟩
    obtain ⟨h5, ⟨m, h6, h7⟩, n, h8, h9⟩ := subgraph_shows.1 h1
    change G.On e a at h2
    change G.On f b at h3
    have e1 : m = a := by unfold GView.On at h2 h7; rw [h2] at h7; exact (Option.some.inj h7).symm
    have e2 : n = b := by unfold GView.On at h3 h9; rw [h3] at h9; exact (Option.some.inj h9).symm
    subst e1 e2
    exact ⟨⟨e, f, h5, h2, h3, h4⟩, h6, h8⟩
  · rintro ⟨⟨e, f, h1, h2, h3, h4⟩, h5, h6⟩
    exact ⟨e, f, subgraph_shows.2 ⟨h1, ⟨a, h5, h2⟩, b, h6, h3⟩, h2, h3, h4⟩

theorem collect_nodup (ok : G.Ok) {order : List Nat} (hn : order.Nodup) (f : Nat → Bool) (d : Direction) :
    (order.flatMap fun n => (G.ports n d).filter f).Nodup := by
  rw [List.nodup_flatMap]
  refine ⟨fun n _ => (ok.ports_nodup n d).filter f, hn.imp fun {a b} hab => ?_⟩
  intro p hp hq
  have h1 := ((ok.mem_ports _ _ _).1 (List.mem_filter.1 hp).1).1
  have h2 := ((ok.mem_ports _ _ _).1 (List.mem_filter.1 hq).1).1
  rw [h1] at h2; exact hab (Option.some.inj h2)

/-- **C35** (partial: see `hsplit`) For a subgraph made by `Subgraph::with_nodes` of an acyclic graph, possibly with several
links at outgoing ports, the order of its boundary relates an input to an output exactly when there is a path of the graph
between their nodes that stays inside the subgraph. Needed is that no port has both links that stay inside and links that
leave; otherwise `port_ordering` can panic (`C35_witness_fan_out`). -/
theorem C35_subgraph_multi_partial (ok : G.Ok) (hs : G.SingleIn .outgoing) (hac : Acyclic G.Arc) {order : List Nat} (hn : order.Nodup)
    (hin : ∀ n ∈ order, G.containsNode n = true)
    (hsplit : ∀ e f e' f' a b, G.Shows e f → G.Shows e' f' → G.toPort e = G.toPort e' → G.On f a → G.On f' b → a ∈ order →
      b ∈ order) :
    ∃ O, (G.subgraph (G.withNodes order).1).portOrdering (G.withNodes order).2 = some O ∧
      O.reachable.length = (G.withNodes order).2.inputs.length ∧ O.reaching.length = (G.withNodes order).2.outputs.length ∧
      O.Consistent ∧
      ∀ i o, O.Has i o ↔ ∃ p q, (G.withNodes order).2.inputs[i]? = some p ∧ (G.withNodes order).2.outputs[o]? = some q ∧
        G.LeadsIn order p q := by
  have hok := (C36_with_nodes ok hin).2.2.1
  have hb := fun p => C36_with_nodes_boundary ok (order := order) p
  have hnode : ∀ p ∈ (G.withNodes order).2.ports, ∃ n ∈ order, G.portNode p = some n := by
    intro p hp
    rcases List.mem_append.1 hp with hp | hp
    · exact ((hb p).1.1 hp).2.1
    · exact ((hb p).2.1 hp).2.1
  have harc : ∀ a b, (G.subgraph (G.withNodes order).1).Arc a b ↔ G.Arc a b ∧ a ∈ order ∧ b ∈ order := by
    intro a b
    rw [subgraph_arc]
    show _ ∧ a ∈ toSet order ∧ b ∈ toSet order ↔ _
    rw [mem_toSet, mem_toSet]
  have hs' : (G.subgraph (G.withNodes order).1).SingleIn .outgoing := fun n hn p hp =>
    Nat.le_trans (List.length_filter_le _ _) (hs n (hin n (((C36_with_nodes ok hin).1 n).1 hn)) p
      ((ok.mem_ports _ _ _).2 ((hok.mem_ports _ _ _).1 hp)))
  have hac' : Acyclic (G.subgraph (G.withNodes order).1).Arc := fun n hc =>
    hac n (Relation.TransGen.mono (fun a b h => ((harc a b).1 h).1) _ _ hc)
  have hB : ∀ p ∈ (G.withNodes order).2.ports, (G.subgraph (G.withNodes order).1).containsPort p = true := by
    intro p hp
    obtain ⟨n, h1, h2⟩ := hnode p hp
    exact (hok.port_iff p).2 ⟨n, h2, ((C36_with_nodes ok hin).1 n).2 h1⟩
  have hfree : ∀ p ∈ (G.withNodes order).2.ports, (G.subgraph (G.withNodes order).1).portLinks p = [] := by
    intro p hp
    rw [List.eq_nil_iff_forall_not_mem]
    rintro ⟨e, f⟩ hef
    have he : (G.subgraph (G.withNodes order).1).toPort e = p := hok.from_port _ _ _ hef
    have hsh : (G.subgraph (G.withNodes order).1).Shows e f := by
      unfold GView.Shows; rw [he]; exact hef
    obtain ⟨g1, ⟨a, g2, g3⟩, b, g4, g5⟩ := subgraph_shows.1 hsh
    have hext : G.hasExternalLink (G.withNodes order).1 p = true := by
      have key : ∀ d, p ∈ (order.flatMap fun n => (G.ports n d).filter (G.hasExternalLink (G.withNodes order).1)) →
          G.hasExternalLink (G.withNodes order).1 p = true := by
        intro d hp
        obtain ⟨n, -, h⟩ := List.mem_flatMap.1 hp
        exact (List.mem_filter.1 h).2
      rcases List.mem_append.1 hp with hp | hp
      · exact key _ hp
      · exact key _ hp
    unfold GView.hasExternalLink at hext
    obtain ⟨⟨e', f'⟩, k1, k2⟩ := List.any_eq_true.1 hext
    have he' := ok.from_port _ _ _ k1
    have hsh' : G.Shows e' f' := by unfold GView.Shows; rw [he']; exact k1
    simp only at k2
    split at k2
    · rename_i c hc
      have : c ∈ order := hsplit e f e' f' b c g1 hsh' (he.trans he'.symm) g5 hc
        (by rw [show (G.withNodes order).1 = toSet order from rfl, mem_toSet] at g4; exact g4)
      rw [show (G.withNodes order).1 = toSet order from rfl] at k2
      simp [mem_toSet, this] at k2
    · cases k2
  obtain ⟨O, h1, h2, h3, h4, h5⟩ := C35_port_ordering_partial hok hs' hac' hB hfree (collect_nodup ok hn _ _)
    (collect_nodup ok hn _ _)
  refine ⟨O, h1, h2, h3, h4, fun i o => ?_⟩
  rw [h5]
  have : (G.subgraph (G.withNodes order).1).Arc = fun a b => G.Arc a b ∧ a ∈ order ∧ b ∈ order := by
    funext a b; exact propext (harc a b)
  unfold GView.Leads GView.LeadsIn
  rw [this]
  exact Iff.rfl

/-- **C35** For a subgraph made by `Subgraph::with_nodes` of an acyclic graph, the order of its
boundary relates an input to an output exactly when there is a path of the graph between their nodes
that stays inside the subgraph. -/
theorem C35_subgraph (ok : G.Ok) (hs : G.Single) (hac : Acyclic G.Arc) {order : List Nat} (hn : order.Nodup)
    (hin : ∀ n ∈ order, G.containsNode n = true) :
    ∃ O, (G.subgraph (G.withNodes order).1).portOrdering (G.withNodes order).2 = some O ∧
      O.reachable.length = (G.withNodes order).2.inputs.length ∧ O.reaching.length = (G.withNodes order).2.outputs.length ∧
      O.Consistent ∧
      ∀ i o, O.Has i o ↔ ∃ p q, (G.withNodes order).2.inputs[i]? = some p ∧ (G.withNodes order).2.outputs[o]? = some q ∧
        G.LeadsIn order p q := by
  refine C35_subgraph_multi_partial ok (hs.to _) hac hn hin ?_
  intro e f e' f' a b h1 h2 h3 h4 h5 h6
  have k1 := shows_portLink ok hs h1
  rw [h3, shows_portLink ok hs h2] at k1
  cases k1
  unfold GView.On at h4 h5
  rw [h4] at h5; cases h5; exact h6

/-! The hypotheses can be met, with three inputs at two nodes, two of the pairs unrelated. -/

theorem exV_acyclic : Acyclic exV.Arc := by
  intro n hc
  have hm : ∀ a b, exV.Arc a b → Algo.Arc Algo.dagG .outgoing a b := ?_
  · exact Convex.dagG_acyclic n (Relation.TransGen.mono hm _ _ hc)
  rintro a b ⟨e, f, h1, h2, h3, h4⟩
  have ok := exV_ok.1
  obtain ⟨n', d', m', g1, g2, g3, g4, g5, g6⟩ := ok.shows_dir e f h1
  rw [h4] at g2; cases g2
  refine (Algo.varc_iff (Algo.dagG_reach.inv (by decide))).1
    ⟨e, (ok.mem_ports _ _ _).2 ⟨h2, h4⟩, f, ?_, (ok.mem_ports _ _ _).2 ⟨h3, g5⟩⟩
  have h5 := shows_pg.1 h1
  simp [Algo.ofPG, h5]

example := C35_subgraph exV_ok.1 exV_ok.2.2.2.2 exV_acyclic (order := [3, 1]) (by decide) (by decide +kernel)
example : (exV.subgraph (exV.withNodes [3, 1]).1).portOrdering (exV.withNodes [3, 1]).2 = some ⟨[[0], [0]], [[0, 1]]⟩ := by
  decide +kernel
example : exV.withNodes [1, 2, 4] = ([1, 2, 4], ⟨[2, 4, 10], [3, 5]⟩) ∧
    (exV.subgraph [1, 2, 4]).portOrdering ⟨[2, 4, 10], [3, 5]⟩ = some ⟨[[0], [1], []], [[0], [1]]⟩ := by decide +kernel

/-- A source inside the boundary that holds no boundary port is found in the second round. -/
example : (exV.subgraph [0, 1, 2, 3]).portOrdering ⟨[], [9]⟩ = some ⟨[], [[]]⟩ := by decide +kernel

/-- **C35 fails** in the graph itself, where the input is linked to a node outside the boundary:
`port_ordering` panics although the boundary is the one of the nodes 1 and 3. -/
theorem C35_witness_linked : exV.fromPorts [7, 2, 9] = some ⟨[7, 2], [9]⟩ ∧ (exV.withNodes [3, 1]).2 = ⟨[7, 2], [9]⟩ ∧
    exV.portOrdering ⟨[7, 2], [9]⟩ = none := by decide +kernel

/-- **C35 fails** for a repeated port: its second position is related to nothing. -/
theorem C35_witness_repeated : (exV.subgraph [1]).portOrdering ⟨[2, 2], [3]⟩ = some ⟨[[0], []], [[0]]⟩ := by
  decide +kernel

/-- A cycle of the nodes 0 and 1, with a free input at 0 and a free output at 1. -/
def cycOps : List PG.Op :=
  [.addNode 2 1, .addNode 1 2, .linkPorts 2 3, .linkPorts 4 1]

def cycG : PG := (PG.run 32767 PG.empty cycOps).getD PG.empty

theorem cycG_run : PG.checkedRun 32767 PG.empty cycOps = some cycG := by decide

theorem cycG_reach : PG.Reach 32767 cycG := PG.checkedRun_reach .init cycG_run

/-- **C35 fails** on a cycle: `port_ordering` panics although the output is reachable from the
input. -/
theorem C35_witness_cycle : (ofPG cycG 2 6).fromPorts [0, 5] = some ⟨[0], [5]⟩ ∧
    (ofPG cycG 2 6).outLinks = [(2, 3), (4, 1)] ∧
    (ofPG cycG 2 6).portNode 0 = some 0 ∧ (ofPG cycG 2 6).portNode 5 = some 1 ∧
    (ofPG cycG 2 6).portOrdering ⟨[0], [5]⟩ = none := by decide +kernel

/-! ## Comparing orders -/

theorem stronger_none {O O' : Ordering} : (O.isStrongerThan O' = none ↔ ¬ O.Compatible O') ∧
    (O.missingPairs O' = none ↔ ¬ O.Compatible O') := by
  unfold Ordering.isStrongerThan Ordering.missingPairs Ordering.Compatible
  constructor
  · split
    · next h => simp; omega
    · next h => simp; omega
  · split
    · next h => simp; omega
    · next h => simp; omega

/-- **C35** `is_stronger_than` panics exactly for orders of different sizes; otherwise it says
whether each pair of the other order is a pair of this one. -/
theorem C35_stronger (O O' : Ordering) :
    (O.isStrongerThan O' = none ↔ ¬ O.Compatible O') ∧
    ∀ b, O.isStrongerThan O' = some b → (b = true ↔ ∀ i o, O'.Has i o → O.Has i o) := by
  refine ⟨stronger_none.1, fun b h => ?_⟩
  unfold Ordering.isStrongerThan at h
  split at h
  · cases h
  · next hc =>
    simp only [ne_eq, not_or, Decidable.not_not] at hc
    cases h
    rw [List.all_eq_true]
    constructor
    · rintro h i o ⟨l', h1, h2⟩
      obtain ⟨hi', e'⟩ := List.getElem?_eq_some_iff.1 h1
      have hi : i < O.reachable.length := by omega
      have := h (O.reachable[i], l') (by
        rw [List.mem_iff_getElem]
        exact ⟨i, by rw [List.length_zip]; omega, by rw [List.getElem_zip, e']⟩)
      simp only [Bool.not_eq_true', List.any_eq_false, Bool.not_eq_true', Bool.not_eq_false, List.contains_iff_mem] at this
      exact ⟨O.reachable[i], List.getElem?_eq_getElem hi, this o h2⟩
    · rintro h ⟨l, l'⟩ hm
      obtain ⟨i, hi, he⟩ := List.mem_iff_getElem.1 hm
      rw [List.getElem_zip] at he
      rw [List.length_zip] at hi
      simp only [Prod.mk.injEq] at he
      simp only [Bool.not_eq_true', List.any_eq_false, Bool.not_eq_true', Bool.not_eq_false, List.contains_iff_mem]
      intro o ho
      obtain ⟨l2, h1, h2⟩ := h i o ⟨l', by rw [List.getElem?_eq_getElem (by omega), he.2], ho⟩
      rw [List.getElem?_eq_getElem (by omega), he.1] at h1
      cases h1; exact h2

/-- **C35** `missing_pairs` panics exactly for orders of different sizes; otherwise it lists the
pairs of the other order that are not pairs of this one, each once if the sets of the other order
are without repetition. -/
theorem C35_missing_pairs (O O' : Ordering) :
    (O.missingPairs O' = none ↔ ¬ O.Compatible O') ∧
    ∀ l, O.missingPairs O' = some l → (∀ i o, (i, o) ∈ l ↔ O'.Has i o ∧ ¬ O.Has i o) ∧
      ((∀ s ∈ O'.reachable, s.Nodup) → l.Nodup) := by
  refine ⟨stronger_none.2, fun l h => ?_⟩
  unfold Ordering.missingPairs at h
  split at h
  · cases h
  · next hc =>
    simp only [ne_eq, not_or, Decidable.not_not] at hc
    cases h
    constructor
    · intro i o
      simp only [List.mem_flatMap, List.mem_map, List.mem_filter, Bool.not_eq_true', Prod.mk.injEq, Prod.exists]
      constructor
      · rintro ⟨s, s', i', h1, o', ⟨h2, h3⟩, rfl, rfl⟩
        obtain ⟨hlt, e⟩ := List.mem_zipIdx' h1
        rw [List.getElem_zip] at e
        rw [List.length_zip] at hlt
        simp only [Prod.mk.injEq] at e
        refine ⟨⟨s', by rw [List.getElem?_eq_getElem (by omega), e.2], h2⟩, ?_⟩
        rintro ⟨s2, h4, h5⟩
        rw [List.getElem?_eq_getElem (by omega), ← e.1] at h4
        cases h4
        rw [← List.contains_iff_mem, h3] at h5; cases h5
      · rintro ⟨⟨s', h1, h2⟩, h3⟩
        obtain ⟨hi', e'⟩ := List.getElem?_eq_some_iff.1 h1
        have hi : i < O.reachable.length := by omega
        refine ⟨O.reachable[i], s', i, ?_, o, ⟨h2, ?_⟩, rfl, rfl⟩
        · rw [List.mem_zipIdx_iff_getElem?]
          show (O.reachable.zip O'.reachable)[i]? = some (O.reachable[i], s')
          rw [List.getElem?_eq_getElem (by rw [List.length_zip]; omega), List.getElem_zip, e']
        · rw [← Bool.not_eq_true, List.contains_iff_mem]
          exact fun hc => h3 ⟨_, List.getElem?_eq_getElem hi, hc⟩
    · intro hs
      rw [List.nodup_flatMap]
      constructor
      · rintro ⟨⟨s, s'⟩, i⟩ hm
        have := (List.of_mem_zip (List.fst_mem_of_mem_zipIdx hm)).2
        exact ((hs s' this).filter _).map fun a b h => by simpa using h
      · have : (((O.reachable.zip O'.reachable).zipIdx).map Prod.snd).Nodup := by
          rw [List.zipIdx_map_snd]; exact List.nodup_range'
        rw [List.Nodup, List.pairwise_map] at this
        refine this.imp fun {a b} hab => ?_
        rintro ⟨i, o⟩ h1 h2
        simp only [List.mem_map, Prod.mk.injEq] at h1 h2
        obtain ⟨_, -, h3, -⟩ := h1
        obtain ⟨_, -, h4, -⟩ := h2
        exact hab (h3.trans h4.symm)

/-- **C35** An order is stronger than another exactly when no pairs are missing. -/
theorem C35_stronger_iff_none_missing (O O' : Ordering) :
    O.isStrongerThan O' = some true ↔ O.missingPairs O' = some [] := by
  have a := C35_stronger O O'
  have b := C35_missing_pairs O O'
  constructor
  · intro h
    have hc : O.Compatible O' := by
      by_contra hc
      rw [a.1.2 hc] at h; cases h
    cases hm : O.missingPairs O' with
    | none => exact absurd hc (b.1.1 hm)
    | some l =>
      have h1 := (a.2 true h).1 rfl
      have h2 := (b.2 l hm).1
      congr 1
      rw [List.eq_nil_iff_forall_not_mem]
      rintro ⟨i, o⟩ hio
      obtain ⟨h3, h4⟩ := (h2 i o).1 hio
      exact h4 (h1 i o h3)
  · intro h
    have hc : O.Compatible O' := by
      by_contra hc
      rw [b.1.2 hc] at h; cases h
    cases hm : O.isStrongerThan O' with
    | none => exact absurd hc (a.1.1 hm)
    | some r =>
      congr 1
      rw [a.2 r hm]
      intro i o hio
      by_contra hno
      have := ((b.2 [] h).1 i o).2 ⟨hio, hno⟩
      cases this

/-- **C35** Every order is stronger than itself. -/
theorem C35_stronger_refl (O : Ordering) : O.isStrongerThan O = some true := by
  cases h : O.isStrongerThan O with
  | none => exact absurd ⟨rfl, rfl⟩ ((C35_stronger O O).1.1 h)
  | some b => congr 1; rw [(C35_stronger O O).2 b h]; exact fun _ _ h => h

theorem stronger_true {O O' : Ordering} :
    O.isStrongerThan O' = some true ↔ O.Compatible O' ∧ ∀ i o, O'.Has i o → O.Has i o := by
  have a := C35_stronger O O'
  constructor
  · intro h
    refine ⟨?_, (a.2 _ h).1 rfl⟩
    by_contra hc
    rw [a.1.2 hc] at h; cases h
  · rintro ⟨h1, h2⟩
    cases h : O.isStrongerThan O' with
    | none => exact absurd h1 (a.1.1 h)
    | some b => congr 1; exact (a.2 b h).2 h2

/-- **C35** Being stronger is transitive. -/
theorem C35_stronger_trans {O₁ O₂ O₃ : Ordering} (h1 : O₁.isStrongerThan O₂ = some true)
    (h2 : O₂.isStrongerThan O₃ = some true) : O₁.isStrongerThan O₃ = some true := by
  rw [stronger_true] at h1 h2 ⊢
  exact ⟨⟨h1.1.1.trans h2.1.1, h1.1.2.trans h2.1.2⟩, fun i o h => h1.2 i o (h2.2 i o h)⟩

/-- **C35** Two orders which are stronger than each other have the same pairs. -/
theorem C35_stronger_antisymm {O O' : Ordering} (h1 : O.isStrongerThan O' = some true)
    (h2 : O'.isStrongerThan O = some true) (i o : Nat) : O.Has i o ↔ O'.Has i o :=
  ⟨(stronger_true.1 h2).2 i o, (stronger_true.1 h1).2 i o⟩

example : (⟨[[0], [1], []], [[0], [1]]⟩ : Ordering).missingPairs ⟨[[0, 1], [], [1]], [[0], [0, 2]]⟩ = some [(0, 1), (2, 1)] ∧
    (⟨[[0, 1], [1]], [[0], [0, 1]]⟩ : Ordering).isStrongerThan ⟨[[0], [1]], [[0], [1]]⟩ = some true ∧
    (⟨[[0], [1]], [[0], [1]]⟩ : Ordering).isStrongerThan ⟨[[0, 1], [1]], [[0], [0, 1]]⟩ = some false ∧
    (⟨[[0]], [[0]]⟩ : Ordering).isStrongerThan ⟨[[0], []], [[0]]⟩ = none := by decide

/-- **C35** (partial: as for `port_ordering`) `Boundary::is_stronger_than` of compatible boundaries
says whether each pair of ports connected in the other graph is connected in this one; for
boundaries which are not compatible it panics. -/
theorem C35_boundary_stronger_partial {E' : Type} {G' : GView E'} (ok : G.Ok) (hs : G.SingleIn .outgoing) (hac : Acyclic G.Arc)
    (ok' : G'.Ok) (hs' : G'.SingleIn .outgoing) (hac' : Acyclic G'.Arc) {B B' : Boundary}
    (hB : ∀ p ∈ B.ports, G.containsPort p = true) (hfree : ∀ p ∈ B.ports, G.portLinks p = [])
    (hi : B.inputs.Nodup) (ho : B.outputs.Nodup)
    (hB' : ∀ p ∈ B'.ports, G'.containsPort p = true) (hfree' : ∀ p ∈ B'.ports, G'.portLinks p = [])
    (hi' : B'.inputs.Nodup) (ho' : B'.outputs.Nodup) :
    (B.isStrongerThan B' G G' = none ↔ B.isCompatible B' = false) ∧
    ∀ b, B.isStrongerThan B' G G' = some b → (b = true ↔ ∀ i o p q p' q' : Nat, B.inputs[i]? = some p → B.outputs[o]? = some q →
      B'.inputs[i]? = some p' → B'.outputs[o]? = some q' → G'.Leads p' q' → G.Leads p q) := by
  obtain ⟨O, h1, h2, h3, -, h4⟩ := C35_port_ordering_partial ok hs hac hB hfree hi ho
  obtain ⟨O', h1', h2', h3', -, h4'⟩ := C35_port_ordering_partial ok' hs' hac' hB' hfree' hi' ho'
  have hcomp : O.Compatible O' ↔ B.isCompatible B' = true := by
    unfold Ordering.Compatible Boundary.isCompatible
    rw [h2, h3, h2', h3']
    simp
  unfold Boundary.isStrongerThan
  rw [h1, h1']
  constructor
  · show O.isStrongerThan O' = none ↔ _
    rw [(C35_stronger O O').1, hcomp]
    simp
  · intro b hb
    change O.isStrongerThan O' = some b at hb
    have hc : O.Compatible O' := by
      by_contra hc
      rw [(C35_stronger O O').1.2 hc] at hb; cases hb
    rw [(C35_stronger O O').2 b hb]
    constructor
    · intro h i o p q p' q' g1 g2 g3 g4 g5
      obtain ⟨p1, q1, a1, a2, a3⟩ := (h4 i o).1 (h i o ((h4' i o).2 ⟨p', q', g3, g4, g5⟩))
      rw [g1] at a1; cases a1
      rw [g2] at a2; cases a2
      exact a3
    · intro h i o hio
      obtain ⟨p', q', a1, a2, a3⟩ := (h4' i o).1 hio
      obtain ⟨l1, -⟩ := List.getElem?_eq_some_iff.1 a1
      obtain ⟨l2, -⟩ := List.getElem?_eq_some_iff.1 a2
      have l1' : i < B.inputs.length := by have := hc.1; omega
      have l2' : o < B.outputs.length := by have := hc.2; omega
      exact (h4 i o).2 ⟨_, _, List.getElem?_eq_getElem l1', List.getElem?_eq_getElem l2',
        h i o _ _ p' q' (List.getElem?_eq_getElem l1') (List.getElem?_eq_getElem l2') a1 a2 a3⟩

/-- The boundary of the nodes 0 and 1 joined by a path, against that of the unrelated nodes. -/
example : Boundary.isStrongerThan ⟨[2], [9]⟩ ⟨[2], [5]⟩ (exV.subgraph [1, 3]) (exV.subgraph [1, 2]) = some true ∧
    Boundary.isStrongerThan ⟨[2], [5]⟩ ⟨[2], [9]⟩ (exV.subgraph [1, 2]) (exV.subgraph [1, 3]) = some false := by
  decide +kernel

example := C35_port_ordering_partial (G := exV.subgraph [1, 2, 4]) (B := ⟨[2, 4, 10], [3, 5]⟩)
    (show (exV.subgraph [1, 2, 4]).Ok from (C36_with_nodes exV_ok.1 (order := [1, 2, 4]) (by decide +kernel)).2.2.1)
    (fun _ _ p _ => Nat.le_trans (List.length_filter_le _ _) (exV_ok.2.2.2.2 p))
    (fun n hc => exV_acyclic n (Relation.TransGen.mono (fun a b h => (subgraph_arc.1 h).1) _ _ hc))
    (by decide +kernel) (by decide +kernel) (by decide) (by decide)

example := C35_repeated_partial (G := exV.subgraph [1, 2, 4]) (B := ⟨[2, 4, 2], [3, 5, 5]⟩)
    (show (exV.subgraph [1, 2, 4]).Ok from (C36_with_nodes exV_ok.1 (order := [1, 2, 4]) (by decide +kernel)).2.2.1)
    (fun _ _ p _ => Nat.le_trans (List.length_filter_le _ _) (exV_ok.2.2.2.2 p))
    (fun n hc => exV_acyclic n (Relation.TransGen.mono (fun a b h => (subgraph_arc.1 h).1) _ _ hc))
    (by decide +kernel) (by decide +kernel)

example := C35_stronger_trans (O₁ := ⟨[[0, 1], [1]], [[0], [0, 1]]⟩) (O₂ := ⟨[[0], [1]], [[0], [1]]⟩) (O₃ := ⟨[[0], []], [[0], []]⟩)
  (by decide) (by decide)

example := C35_subgraph_multi_partial exV_ok.1 (fun _ _ p _ => exV_ok.2.2.2.2 p) exV_acyclic (order := [3, 1]) (by decide)
  (by decide +kernel) (fun e f e' f' a b h h' he ha hb hm => by
    have g := shows_portLink exV_ok.1 exV_ok.2.2.2.2 h
    have g' := shows_portLink exV_ok.1 exV_ok.2.2.2.2 h'
    rw [he, g'] at g
    cases g
    unfold GView.On at ha hb
    rw [ha] at hb
    cases hb
    exact hm)

#print axioms C35_from_ports
#print axioms C35_port_ordering_partial
#print axioms C35_repeated_partial
#print axioms C35_subgraph
#print axioms C35_witness_linked
#print axioms C35_witness_repeated
#print axioms C35_witness_cycle
#print axioms C35_stronger
#print axioms C35_missing_pairs
#print axioms C35_stronger_iff_none_missing
#print axioms C35_stronger_refl
#print axioms C35_stronger_trans
#print axioms C35_stronger_antisymm
#print axioms C35_boundary_stronger_partial

end Verif.View
