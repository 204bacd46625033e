import Verif.Boundary.Props
import Verif.Convex.ReplaceProps

/-!
# C93: what the order of boundary ports is good for

`Boundary::is_stronger_than` decides whether a part of a graph without cycles may be replaced by another graph: if the
boundary of the part is stronger than that of the replacement, no cycle arises, wherever the other nodes lead. The part need
not be convex. There is no function for the replacement in the code; the specification below describes its result.
-/

namespace Verif.View

open Verif (Direction)
open Verif.Algo

variable {E E' : Type} {G : GView E} {G' : GView E'} {order : List Nat} {B B' : Boundary}

/-! ## Specification -/

/-- The arcs after the nodes `order` of `G` with the boundary `B` are replaced by the graph `G'` with the boundary `B'`: the
nodes are those of `G` outside `order` (`inl`) and those of `G'` (`inr`); a link of `G` that enters `order` at the `i`-th
input of `B` leads to the `i`-th input of `B'`, and a link that leaves it at the `o`-th output starts at the
`o`-th output of `B'`. -/
def ReplacedArc (G : GView E) (order : List Nat) (B : Boundary) (G' : GView E') (B' : Boundary) : Nat ⊕ Nat → Nat ⊕ Nat → Prop
  | .inl m, .inl n => m ∉ order ∧ n ∉ order ∧ G.Arc m n
  | .inr m, .inr n => G'.Arc m n
  | .inl m, .inr n => m ∉ order ∧ ∃ (i p p' : Nat) (e f : E), B.inputs[i]? = some p ∧ B'.inputs[i]? = some p' ∧ G.Shows e f ∧
      G.On e m ∧ G.portDirection (G.toPort e) = some .outgoing ∧ G.toPort f = p ∧ G'.portNode p' = some n
  | .inr m, .inl n => n ∉ order ∧ ∃ (o q q' : Nat) (e f : E), B.outputs[o]? = some q ∧ B'.outputs[o]? = some q' ∧ G.Shows e f ∧
      G.toPort e = q ∧ G.portDirection q = some .outgoing ∧ G.On f n ∧ G'.portNode q' = some m

/-- One way round through a part of a graph and its surroundings: a path through the part from the `i`-th input to some
output, and on from there outside to the `j`-th input. The surroundings are given by the pairs of outputs and
inputs that they join. -/
def Round (G : GView E) (B : Boundary) (outside : Nat → Nat → Prop) (i j : Nat) : Prop :=
  ∃ (p o q : Nat), B.inputs[i]? = some p ∧ B.outputs[o]? = some q ∧ G.Leads p q ∧ outside o j

/-! ## Proof -/

/-- A path that starts outside is a path of `G`, or it ends in the replacement. -/
theorem replaced_path (hB : ∀ (i p : Nat), B.inputs[i]? = some p → ∃ k, G.portNode p = some k)
    (hst : ∀ (i o p q p' q' : Nat), B.inputs[i]? = some p → B.outputs[o]? = some q →
      B'.inputs[i]? = some p' → B'.outputs[o]? = some q' → G'.Leads p' q' → G.LeadsIn order p q)
    {m : Nat} {b : Nat ⊕ Nat} (h : Relation.TransGen (ReplacedArc G order B G' B') (.inl m) b) :
    match b with
    | .inl n => Relation.TransGen G.Arc m n
    | .inr n => ∃ (i p p' k k' : Nat), B.inputs[i]? = some p ∧ B'.inputs[i]? = some p' ∧ G.portNode p = some k ∧
        Relation.TransGen G.Arc m k ∧ G'.portNode p' = some k' ∧ Relation.ReflTransGen G'.Arc k' n := by
  have enter : ∀ {u v : Nat}, ReplacedArc G order B G' B' (.inl u) (.inr v) → ∃ (i p p' k : Nat), B.inputs[i]? = some p ∧
      B'.inputs[i]? = some p' ∧ G.portNode p = some k ∧ G.Arc u k ∧ G'.portNode p' = some v := by
    rintro u v ⟨-, i, p, p', e, f, h1, h2, h3, h4, h5, h6, h7⟩
    obtain ⟨k, hk⟩ := hB i p h1
    exact ⟨i, p, p', k, h1, h2, hk, ⟨e, f, h3, h4, (show G.portNode (G.toPort f) = some k by rw [h6]; exact hk), h5⟩, h7⟩
  induction h with
  | @single c h =>
    cases c with
    | inl n => exact .single h.2.2
    | inr n =>
      obtain ⟨i, p, p', k, h1, h2, h3, h4, h5⟩ := enter h
      exact ⟨i, p, p', k, n, h1, h2, h3, .single h4, h5, .refl⟩
  | @tail b c _ h ih =>
    cases b with
    | inl u =>
      cases c with
      | inl n => exact ih.tail h.2.2
      | inr n =>
        obtain ⟨i, p, p', k, h1, h2, h3, h4, h5⟩ := enter h
        exact ⟨i, p, p', k, n, h1, h2, h3, ih.tail h4, h5, .refl⟩
    | inr u =>
      obtain ⟨i, p, p', k, k', h1, h2, h3, h4, h5, h6⟩ := ih
      cases c with
      | inr n => exact ⟨i, p, p', k, k', h1, h2, h3, h4, h5, h6.tail h⟩
      | inl n =>
        obtain ⟨-, o, q, q', e, f, g1, g2, g3, g4, g5, g6, g7⟩ := h
        obtain ⟨a, b, g8, g9, g10⟩ := hst i o p q p' q' h1 g1 h2 g2 ⟨k', u, h5, g7, h6⟩
        rw [h3] at g8
        cases g8
        have g11 : Relation.ReflTransGen G.Arc k b := Relation.ReflTransGen.mono (fun _ _ h => h.1) _ _ g10
        exact (h4.trans_left g11).tail ⟨e, f, g3, (show G.portNode (G.toPort e) = some b by rw [g4]; exact g9), g6, by rw [g4]; exact g5⟩

/-- A path within the replacement, or one that passes the outside. -/
theorem inner_path {m : Nat} {b : Nat ⊕ Nat} (h : Relation.TransGen (ReplacedArc G order B G' B') (.inr m) b) :
    (∃ n, b = .inr n ∧ Relation.TransGen G'.Arc m n) ∨
    ∃ x, Relation.TransGen (ReplacedArc G order B G' B') (.inr m) (.inl x) ∧
      Relation.ReflTransGen (ReplacedArc G order B G' B') (.inl x) b := by
  induction h with
  | @single c h =>
    cases c with
    | inl n => exact .inr ⟨n, .single h, .refl⟩
    | inr n => exact .inl ⟨n, rfl, .single h⟩
  | @tail b c h0 h ih =>
    rcases ih with ⟨n, rfl, ih⟩ | ⟨x, h1, h2⟩
    · cases c with
      | inl v => exact .inr ⟨v, h0.tail h, .refl⟩
      | inr v => exact .inl ⟨v, rfl, ih.tail h⟩
    · exact .inr ⟨x, h1, h2.tail h⟩

/-- **C93** The replacement as in `C93_replace`, for multigraphs and views of them too. Missing: incoming ports with several links,
and ports with links both to nodes of `order` and to others, on which `port_ordering` panics (C35). -/
theorem C93_multi_partial (ok : G.Ok) (hs : G.SingleIn .outgoing) (hac : Acyclic G.Arc) (hn : order.Nodup)
    (hin : ∀ n ∈ order, G.containsNode n = true)
    (hsplit : ∀ e f e' f' a b, G.Shows e f → G.Shows e' f' → G.toPort e = G.toPort e' → G.On f a → G.On f' b → a ∈ order →
      b ∈ order)
    (ok' : G'.Ok) (hs' : G'.SingleIn .outgoing) (hac' : Acyclic G'.Arc)
    (hB' : ∀ p ∈ B'.ports, G'.containsPort p = true) (hfree' : ∀ p ∈ B'.ports, G'.portLinks p = [])
    (hi' : B'.inputs.Nodup) (ho' : B'.outputs.Nodup)
    (hst : (G.withNodes order).2.isStrongerThan B' (G.subgraph (G.withNodes order).1) G' = some true) :
    ∀ a, ¬ Relation.TransGen (ReplacedArc G order (G.withNodes order).2 G' B') a a := by
  obtain ⟨O, h1, h2, h3, -, h4⟩ := C35_subgraph_multi_partial ok hs hac hn hin hsplit
  obtain ⟨O', h1', h2', h3', -, h4'⟩ := C35_port_ordering_partial ok' hs' hac' hB' hfree' hi' ho'
  unfold Boundary.isStrongerThan at hst
  rw [h1, h1'] at hst
  change O.isStrongerThan O' = some true at hst
  have hsub := ((C35_stronger O O').2 true hst).1 rfl
  have hlead : ∀ (i o p q p' q' : Nat), (G.withNodes order).2.inputs[i]? = some p → (G.withNodes order).2.outputs[o]? = some q →
      B'.inputs[i]? = some p' → B'.outputs[o]? = some q' → G'.Leads p' q' → G.LeadsIn order p q := by
    intro i o p q p' q' g1 g2 g3 g4 g5
    obtain ⟨p1, q1, a1, a2, a3⟩ := (h4 i o).1 (hsub i o ((h4' i o).2 ⟨p', q', g3, g4, g5⟩))
    rw [g1] at a1; cases a1
    rw [g2] at a2; cases a2
    exact a3
  have hB : ∀ (i p : Nat), (G.withNodes order).2.inputs[i]? = some p → ∃ k, G.portNode p = some k := by
    intro i p h
    obtain ⟨-, ⟨n, -, h5⟩, -⟩ := ((C36_with_nodes_boundary ok p).1).1 (List.mem_of_getElem? h)
    exact ⟨n, h5⟩
  have outer : ∀ x, ¬ Relation.TransGen (ReplacedArc G order (G.withNodes order).2 G' B') (.inl x) (.inl x) :=
    fun x h => hac x (replaced_path hB hlead h)
  intro a h
  cases a with
  | inl x => exact outer x h
  | inr x =>
    rcases inner_path h with ⟨n, e, h5⟩ | ⟨y, h5, h6⟩
    · cases e
      exact hac' _ h5
    · exact outer y (h5.trans_right h6)

/-- **C93** Let `order` be nodes of a graph without cycles in which each port has at most one link, and `B` the boundary of the
subgraph made of them by `Subgraph::with_nodes`. Let `G'` be another graph without cycles and `B'` a boundary of it, of
unlinked ports, none repeated. If `is_stronger_than` says that `B` is stronger than `B'`, the graph with `order` replaced by
`G'` has no cycle. -/
theorem C93_replace (ok : G.Ok) (hs : G.Single) (hac : Acyclic G.Arc) (hn : order.Nodup)
    (hin : ∀ n ∈ order, G.containsNode n = true) (ok' : G'.Ok) (hs' : G'.SingleIn .outgoing) (hac' : Acyclic G'.Arc)
    (hB' : ∀ p ∈ B'.ports, G'.containsPort p = true) (hfree' : ∀ p ∈ B'.ports, G'.portLinks p = [])
    (hi' : B'.inputs.Nodup) (ho' : B'.outputs.Nodup)
    (hst : (G.withNodes order).2.isStrongerThan B' (G.subgraph (G.withNodes order).1) G' = some true) :
    ∀ a, ¬ Relation.TransGen (ReplacedArc G order (G.withNodes order).2 G' B') a a := by
  refine C93_multi_partial ok (fun _ _ p _ => hs p) hac hn hin (fun e f e' f' a b h h' he ha hb hm => ?_) ok' hs' hac' hB' hfree' hi' ho' hst
  have g := shows_portLink ok hs h
  rw [he, shows_portLink ok hs h'] at g
  cases g
  unfold GView.On at ha hb
  rw [ha] at hb
  cases hb
  exact hm

/-- After a replacement an arc is an arc of the contraction of `order`, or it lies within the replacement. -/
theorem replaced_contracted (ok : G.Ok) (hac : Acyclic G.Arc) {a b : Nat ⊕ Nat}
    (h : ReplacedArc G order (G.withNodes order).2 G' B' a b) :
    (∃ m n, a = .inr m ∧ b = .inr n) ∨ Convex.ContractedArc G.Arc order a.getLeft? b.getLeft? := by
  cases a with
  | inl m =>
    cases b with
    | inl n =>
      refine .inr ⟨?_, m, n, h.2.2, Convex.contracted_some.2 ⟨rfl, h.1⟩, Convex.contracted_some.2 ⟨rfl, h.2.1⟩⟩
      intro e
      cases Option.some.inj e
      exact hac m (.single h.2.2)
    | inr n =>
      obtain ⟨hm, i, p, p', e, f, h1, h2, h3, h4, h5, h6, h7⟩ := h
      obtain ⟨-, ⟨k, h8, h9⟩, -⟩ := ((C36_with_nodes_boundary ok p).1).1 (List.mem_of_getElem? h1)
      exact .inr ⟨by simp, m, k, ⟨e, f, h3, h4, (show G.portNode (G.toPort f) = some k by rw [h6]; exact h9), h5⟩,
        Convex.contracted_some.2 ⟨rfl, hm⟩, Convex.contracted_none.2 h8⟩
  | inr m =>
    cases b with
    | inr n => exact .inl ⟨m, n, rfl, rfl⟩
    | inl n =>
      obtain ⟨hn, o, q, q', e, f, h1, h2, h3, h4, h5, h6, h7⟩ := h
      obtain ⟨-, ⟨k, h8, h9⟩, -⟩ := ((C36_with_nodes_boundary ok q).2).1 (List.mem_of_getElem? h1)
      exact .inr ⟨by simp, k, n, ⟨e, f, h3, (show G.portNode (G.toPort e) = some k by rw [h4]; exact h9), h6, by rw [h4]; exact h5⟩,
        Convex.contracted_none.2 h8, Convex.contracted_some.2 ⟨rfl, hn⟩⟩

theorem replaced_contracted_path (ok : G.Ok) (hac : Acyclic G.Arc) {x : Nat} {b : Nat ⊕ Nat}
    (h : Relation.TransGen (ReplacedArc G order (G.withNodes order).2 G' B') (.inl x) b) :
    Relation.TransGen (Convex.ContractedArc G.Arc order) (some x) b.getLeft? := by
  induction h with
  | single h =>
    rcases replaced_contracted ok hac h with ⟨m, n, e, -⟩ | h
    · cases e
    · exact .single h
  | tail _ h ih =>
    rcases replaced_contracted ok hac h with ⟨m, n, rfl, rfl⟩ | h
    · exact ih
    · exact ih.tail h

/-- **C93** If the topological checker says that `order` is convex, every replacement without cycles makes no cycle,
whatever its boundary. -/
theorem C93_convex (ok : G.Ok) (hs : G.SingleIn .outgoing) (hac : Acyclic G.Arc) (hin : ∀ n ∈ order, G.containsNode n = true)
    (hac' : Acyclic G'.Arc) {c : Convex.Topo} (hc : Convex.Topo.new G.algo = some c) (hcv : c.isNodeConvex order = some true) :
    ∀ a, ¬ Relation.TransGen (ReplacedArc G order (G.withNodes order).2 G' B') a a := by
  obtain ⟨⟨c', r, h1, h2, h3, -⟩, -⟩ := Convex.C92_view_partial ok hs hac hin
  rw [hc] at h1
  cases h1
  rw [hcv] at h2
  cases h2
  have hno := h3.1 rfl
  have outer : ∀ x, ¬ Relation.TransGen (ReplacedArc G order (G.withNodes order).2 G' B') (.inl x) (.inl x) :=
    fun x h => hno _ (replaced_contracted_path ok hac h)
  intro a h
  cases a with
  | inl x => exact outer x h
  | inr x =>
    rcases inner_path h with ⟨n, e, h5⟩ | ⟨y, h5, h6⟩
    · cases e
      exact hac' _ h5
    · exact outer y (h5.trans_right h6)

/-- **C93** The comparison is not stricter than needed: `B` is stronger than `B'` exactly if in all surroundings in which the part
with the boundary `B` closes no cycle, the part with the boundary `B'` closes none. -/
theorem C93_weakest (ok : G.Ok) (hs : G.SingleIn .outgoing) (hac : Acyclic G.Arc) (hB : ∀ p ∈ B.ports, G.containsPort p = true)
    (hfree : ∀ p ∈ B.ports, G.portLinks p = []) (hi : B.inputs.Nodup) (ho : B.outputs.Nodup)
    (ok' : G'.Ok) (hs' : G'.SingleIn .outgoing) (hac' : Acyclic G'.Arc) (hB' : ∀ p ∈ B'.ports, G'.containsPort p = true)
    (hfree' : ∀ p ∈ B'.ports, G'.portLinks p = []) (hi' : B'.inputs.Nodup) (ho' : B'.outputs.Nodup)
    (hli : B.inputs.length = B'.inputs.length) (hlo : B.outputs.length = B'.outputs.length) :
    B.isStrongerThan B' G G' = some true ↔
      ∀ outside, (∀ i, ¬ Relation.TransGen (Round G B outside) i i) → ∀ i, ¬ Relation.TransGen (Round G' B' outside) i i := by
  obtain ⟨O, h1, h2, h3, -, h4⟩ := C35_port_ordering_partial ok hs hac hB hfree hi ho
  obtain ⟨O', h1', h2', h3', -, h4'⟩ := C35_port_ordering_partial ok' hs' hac' hB' hfree' hi' ho'
  have hst : B.isStrongerThan B' G G' = O.isStrongerThan O' := by
    unfold Boundary.isStrongerThan
    rw [h1, h1']
  rw [hst]
  constructor
  · intro h outside hno i hc
    have hsub := ((C35_stronger O O').2 true h).1 rfl
    refine hno i (Relation.TransGen.mono (fun a b => ?_) _ _ hc)
    rintro ⟨p', o, q', g1, g2, g3, g4⟩
    obtain ⟨p, q, a1, a2, a3⟩ := (h4 a o).1 (hsub a o ((h4' a o).2 ⟨p', q', g1, g2, g3⟩))
    exact ⟨p, o, q, a1, a2, a3, g4⟩
  · intro h
    cases hb : O.isStrongerThan O' with
    | none =>
      refine absurd ?_ ((C35_stronger O O').1.1 hb)
      constructor <;> omega
    | some b =>
      refine congrArg some (((C35_stronger O O').2 b hb).2 fun i o hio => ?_)
      by_contra hne
      obtain ⟨p', q', a1, a2, a3⟩ := (h4' i o).1 hio
      have hround : ∀ {k j}, Round G B (fun o' j' => o' = o ∧ j' = i) k j → j = i ∧ O.Has k o := by
        rintro k j ⟨p, o', q, g1, g2, g3, rfl, rfl⟩
        exact ⟨rfl, (h4 k _).2 ⟨p, q, g1, g2, g3⟩⟩
      refine h (fun o' j' => o' = o ∧ j' = i) (fun k hc => ?_) i (.single ⟨p', o, q', a1, a2, a3, rfl, rfl⟩)
      obtain ⟨c, g1, -⟩ := Relation.TransGen.head'_iff.1 hc
      obtain ⟨c', -, g2⟩ := Relation.TransGen.tail'_iff.1 hc
      cases (hround g2).1
      exact hne (hround g1).2

/-- **C93** Neither condition can be left out: the nodes 1 and 4 are not convex, and with the two inputs exchanged the boundary
of the replacement is not weaker; the replacement makes a cycle through the node 3. -/
theorem C93_witness_cycle :
    exV.withNodes [1, 4] = ([1, 4], ⟨[2, 10], [3]⟩) ∧
    Boundary.isStrongerThan ⟨[2, 10], [3]⟩ ⟨[2, 4], [3]⟩ (exV.subgraph [1, 4]) (exV.subgraph [1, 2]) = some true ∧
    Boundary.isStrongerThan ⟨[2, 10], [3]⟩ ⟨[4, 2], [3]⟩ (exV.subgraph [1, 4]) (exV.subgraph [1, 2]) = some false ∧
    ((Convex.Topo.new exV.algo).bind fun c => c.isNodeConvex [1, 4]) = some false ∧
    Relation.TransGen (ReplacedArc exV [1, 4] ⟨[2, 10], [3]⟩ (exV.subgraph [1, 2]) ⟨[4, 2], [3]⟩) (.inl 3) (.inl 3) := by
  refine ⟨by decide +kernel, by decide +kernel, by decide +kernel, by decide +kernel, .tail (.single (b := .inr 1) ?_) ?_⟩
  · refine ⟨by decide, 1, 10, 2, 9, 10, by decide, by decide, ?_, ?_, by decide +kernel, by decide +kernel, by decide +kernel⟩
    · unfold GView.Shows; decide +kernel
    · unfold GView.On; decide +kernel
  · refine ⟨by decide, 0, 3, 3, 3, 6, by decide, by decide, ?_, by decide +kernel, by decide +kernel, ?_, by decide +kernel⟩
    · unfold GView.Shows; decide +kernel
    · unfold GView.On; decide +kernel

/-! ## The hypotheses can be met -/

theorem exV_part {l : List Nat} : Acyclic (exV.subgraph l).Arc :=
  fun n hc => exV_acyclic n (Relation.TransGen.mono (fun _ _ h => (subgraph_arc.1 h).1) _ _ hc)

/-- The nodes 1 and 4, which are not convex, replaced by a copy of the nodes 1 and 2. -/
example : ∀ a, ¬ Relation.TransGen (ReplacedArc exV [1, 4] (exV.withNodes [1, 4]).2 (exV.subgraph [1, 2]) ⟨[2, 4], [3]⟩) a a :=
  C93_replace exV_ok.1 exV_ok.2.2.2.2 exV_acyclic (by decide) (by decide +kernel)
    (show (exV.subgraph [1, 2]).Ok from (C36_with_nodes exV_ok.1 (order := [1, 2]) (by decide +kernel)).2.2.1)
    (fun _ _ p _ => Nat.le_trans (List.length_filter_le _ _) (exV_ok.2.2.2.2 p)) exV_part
    (by decide +kernel) (by decide +kernel) (by decide) (by decide) (by decide +kernel)

/-- The nodes 1 and 3, which are convex, replaced by a copy of the nodes 1 and 2. -/
example : ∀ a, ¬ Relation.TransGen (ReplacedArc exV [3, 1] (exV.withNodes [3, 1]).2 (exV.subgraph [1, 2]) ⟨[4, 2], [3]⟩) a a := by
  have h : ((Convex.Topo.new exV.algo).bind fun c => c.isNodeConvex [3, 1]) = some true := by decide +kernel
  obtain ⟨c, h1, h2⟩ := Option.bind_eq_some_iff.1 h
  exact C93_convex exV_ok.1 (fun _ _ p _ => exV_ok.2.2.2.2 p) exV_acyclic (by decide +kernel) exV_part h1 h2

/-- The parts with the nodes 1 and 3, and 1 and 2. -/
example := C93_weakest (G := exV.subgraph [1, 3]) (B := ⟨[2, 7], [9]⟩) (G' := exV.subgraph [1, 2]) (B' := ⟨[2, 4], [3]⟩)
    (show (exV.subgraph [1, 3]).Ok from (C36_with_nodes exV_ok.1 (order := [1, 3]) (by decide +kernel)).2.2.1)
    (fun _ _ p _ => Nat.le_trans (List.length_filter_le _ _) (exV_ok.2.2.2.2 p)) exV_part
    (by decide +kernel) (by decide +kernel) (by decide) (by decide)
    (show (exV.subgraph [1, 2]).Ok from (C36_with_nodes exV_ok.1 (order := [1, 2]) (by decide +kernel)).2.2.1)
    (fun _ _ p _ => Nat.le_trans (List.length_filter_le _ _) (exV_ok.2.2.2.2 p)) exV_part
    (by decide +kernel) (by decide +kernel) (by decide) (by decide) rfl rfl

/-- A multigraph: both targets of the outgoing port of node 0 are replaced. -/
theorem fanM_split {e f e' f' : Multi.Subport} {a b : Nat} (h : (Multi.ofMG fanM 8 8).Shows e f) (h' : (Multi.ofMG fanM 8 8).Shows e' f')
    (he : e.1 = e'.1) (ha : (Multi.ofMG fanM 8 8).On f a) (hb : (Multi.ofMG fanM 8 8).On f' b) (hm : a ∈ [1, 2]) : b ∈ [1, 2] := by
  have ok := Multi.ofMG_ok fanM_ok 8 8
  obtain ⟨n, d, m, h1, -, h2, -⟩ := ok.shows_dir _ _ h
  have h3 := (ok.mem_iter _).2 ((ok.port_iff _).2 ⟨n, h1, h2⟩)
  have key : ∀ p ∈ (Multi.ofMG fanM 8 8).portsIter, ∀ l ∈ (Multi.ofMG fanM 8 8).portLinks p, ∀ l' ∈ (Multi.ofMG fanM 8 8).portLinks p,
      (Multi.ofMG fanM 8 8).portNode l.2.1 ∈ [some 1, some 2] → (Multi.ofMG fanM 8 8).portNode l'.2.1 ∈ [some 1, some 2] := by
    decide +kernel
  have h4 : (e', f') ∈ (Multi.ofMG fanM 8 8).portLinks e.1 := by rw [he]; exact h'
  have h5 := key _ h3 _ h _ h4
  have ha' : (Multi.ofMG fanM 8 8).portNode f.1 = some a := ha
  have hb' : (Multi.ofMG fanM 8 8).portNode f'.1 = some b := hb
  simp only [ha', hb'] at h5
  simpa using h5 (by simpa using hm)

example := C93_multi_partial (Multi.ofMG_ok fanM_ok 8 8) fanM_singleIn fanM_acyclic (order := [1, 2]) (by decide) (by decide +kernel)
    (fun _ _ _ _ _ _ => fanM_split) (G' := exV.subgraph [1, 2]) (B' := ⟨[2, 4], []⟩)
    (show (exV.subgraph [1, 2]).Ok from (C36_with_nodes exV_ok.1 (order := [1, 2]) (by decide +kernel)).2.2.1)
    (fun _ _ p _ => Nat.le_trans (List.length_filter_le _ _) (exV_ok.2.2.2.2 p)) exV_part
    (by decide +kernel) (by decide +kernel) (by decide) (by decide) (by decide +kernel)

#print axioms C93_replace
#print axioms C93_multi_partial
#print axioms C93_convex
#print axioms C93_weakest
#print axioms C93_witness_cycle

end Verif.View
