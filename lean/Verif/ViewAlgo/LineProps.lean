import Verif.ViewAlgo.LineLemmas
import Verif.ViewAlgo.LineModel
import Verif.ViewAlgo.LineSpec
import Verif.View.InnerNodup
import Verif.Boundary.Props
import Verif.Render.Dot

/-!
# C54: the line checker on arbitrary views

The theorems hold for every view whose queries describe one graph (`GView.Ok`), if it has no cycle
and each incoming port has at most one link; an outgoing port may have any number of links. Full
statement: the same for any number of links per port. It is false, see the witnesses below.
-/

namespace Verif.View

open Verif (Direction)
open Verif.Algo Verif.Convex
open Verif.Render (OffsetsOk)

variable {E : Type} {G : GView E}

/-- `LineConvexChecker::new` does not panic, and partitions the links of the view into lines. -/
theorem C54_new_partial (ok : G.Ok) (hs : G.SingleIn .outgoing) (hac : Acyclic (G.ArcD .outgoing)) :
    ∃ c, Line.new G.algo = some c ∧ LinePartition (G.ArcD .outgoing) (fun n => G.containsNode n = true) c := by
  obtain ⟨c, h1, -, h, -⟩ := line_view ok hs hac
  exact ⟨c, h1, h.chain, h.mem, h.valid, h.arc, h.some_line, h.nodup, h.fwd⟩

/-- `is_node_convex(S)` does not panic and holds exactly when no path between two nodes of `S` leaves
`S`, for any non-empty list of distinct nodes of the view. -/
theorem C54_is_node_convex_partial (ok : G.Ok) (hs : G.SingleIn .outgoing) (hac : Acyclic (G.ArcD .outgoing)) {c : Line}
    (hc : Line.new G.algo = some c) {guess : Line.Guess} (hg : guess.OK) {S : List Nat} (hne : S ≠ []) (hnd : S.Nodup)
    (hS : ∀ n ∈ S, G.containsNode n = true) :
    ∃ r, c.isNodeConvex guess S = some r ∧ (r = true ↔ Convex (G.ArcD .outgoing) S) := by
  obtain ⟨-, h, -⟩ := line_of_new ok hs hac hc
  exact Line.isNodeConvex_ok h hg hnd hS hne

/-- `get_intervals_from_nodes(S)`, for a list of distinct nodes, does not panic; it finds intervals
exactly when the nodes of `S` on each line are contiguous, and then they represent `S`. -/
theorem C54_intervals_partial (ok : G.Ok) (hs : G.SingleIn .outgoing) (hac : Acyclic (G.ArcD .outgoing)) {c : Line}
    (hc : Line.new G.algo = some c) {guess : Line.Guess} (hg : guess.OK) {S : List Nat} (hnd : S.Nodup) :
    ∃ I, c.intervals guess S = some I ∧ (I.isSome ↔ Contiguous c S) ∧ ∀ I', I = some I' → Represents c S I' := by
  obtain ⟨-, h, -⟩ := line_of_new ok hs hac hc
  obtain ⟨I, h2, h3, h4⟩ := Line.intervals_ok h hg hnd
  refine ⟨I, h2, ?_, fun I' e => represents_iff.2 (h4 I' e)⟩
  rw [← contiguous_iff h]
  cases I with
  | none => simp [h3]
  | some I => simp [(h4 I rfl).contig]

/-- `is_convex_by_intervals`, on intervals which represent some nodes of the view, does not panic
and holds exactly when no path between two of the nodes leaves them. -/
theorem C54_by_intervals_partial (ok : G.Ok) (hs : G.SingleIn .outgoing) (hac : Acyclic (G.ArcD .outgoing)) {c : Line}
    (hc : Line.new G.algo = some c) {guess : Line.Guess} (hg : guess.OK) {S : List Nat} {I : List Line.Interval} (hne : S ≠ [])
    (hS : ∀ n ∈ S, G.containsNode n = true) (hI : Represents c S I) :
    ∃ r, c.convexByIntervals guess I = some r ∧ (r = true ↔ Convex (G.ArcD .outgoing) S) := by
  obtain ⟨-, h, -⟩ := line_of_new ok hs hac hc
  refine Line.convexByIntervals_ok h hg (represents_iff.1 hI) ?_
  obtain ⟨n, hn⟩ := List.exists_mem_of_ne_nil S hne
  obtain ⟨l, hl⟩ := List.exists_mem_of_ne_nil _ (h.some_line n (hS n hn))
  obtain ⟨x, hx, -⟩ := hI.all n hn l hl
  exact List.ne_nil_of_mem hx

/-- `try_extend_intervals` of intervals which represent `S`, with a node `n`: it does not panic. It
returns true exactly when the nodes of `S` and `n` are contiguous on each line, and then the new
intervals represent them; otherwise the intervals stay as they are. -/
theorem C54_try_extend_partial (ok : G.Ok) (hs : G.SingleIn .outgoing) (hac : Acyclic (G.ArcD .outgoing)) {c : Line}
    (hc : Line.new G.algo = some c) {guess : Line.Guess} (hg : guess.OK) {S : List Nat} {I : List Line.Interval}
    (hI : Represents c S I) (n : Nat) :
    ∃ r I', c.tryExtend guess I n = some (r, I') ∧ (r = true ↔ Contiguous c (n :: S)) ∧
      (r = true → Represents c (n :: S) I') ∧ (r = false → I' = I) := by
  obtain ⟨-, h, -⟩ := line_of_new ok hs hac hc
  obtain ⟨r, I', h1, h2, h3, h4⟩ := Line.tryExtend_ok h hg (represents_iff.1 hI) n
  exact ⟨r, I', h1, h2.trans (contiguous_iff h), fun e => represents_iff.2 (h3 e), h4⟩

/-- `nodes_in_intervals` of intervals which represent `S` does not panic; it yields the nodes of `S`,
each once, ordered by their positions and then by their indices. -/
theorem C54_nodes_in_intervals_partial (ok : G.Ok) (hs : G.SingleIn .outgoing) (hac : Acyclic (G.ArcD .outgoing)) {c : Line}
    (hc : Line.new G.algo = some c) {guess : Line.Guess} (hg : guess.OK) {S : List Nat} {I : List Line.Interval}
    (hS : ∀ n ∈ S, G.containsNode n = true) (hI : Represents c S I) :
    ∃ out, (∀ out', c.NodesIn guess I out' ↔ out' = out) ∧ (∀ n, n ∈ out ↔ n ∈ S) ∧
      out.Pairwise fun a b => c.getPos a < c.getPos b ∨ c.getPos a = c.getPos b ∧ a < b := by
  obtain ⟨-, h, -⟩ := line_of_new ok hs hac hc
  obtain ⟨out, h1, h2, h3⟩ := Line.nodesIn_ok h hg (represents_iff.1 hI) hS
  refine ⟨out, h1, h2, h3.imp fun hab => ?_⟩
  unfold Line.posLt at hab
  simpa using hab

/-! ## Lines of a port -/

theorem linesAtPort_eq (ok : G.Ok) (hoff : OffsetsOk G) {c : Line} (hgr : c.graph = G.algo) (hw : Line.Wired G.algoIn c)
    {n p : Nat} {d : Direction} (hn : G.containsNode n = true) (hp : p ∈ G.ports n d) :
    ∃ ls, G.linesAtPort c p = some ls ∧ ls.length = (G.portLinks p).length ∧ (∀ l ∈ ls, l ∈ c.getLines n) ∧
      ∀ q l, (q, l) ∈ (G.algoIn.links p).zip ls ↔ ((p, q), l) ∈ Line.onLine G.algoIn c n d := by
  obtain ⟨h1, h2⟩ := (ok.mem_ports _ _ _).1 hp
  obtain ⟨k, h3, h4⟩ := hoff p n d h1 h2
  unfold GView.linesAtPort
  rw [h1, h2, h3]
  obtain ⟨ls, g1, g2, g3⟩ := Line.linesAt_ok (c := c) (G := G.algoIn) (n := n) (p := p) (d := d) (off := k)
    (fun m hm d => by rw [hgr]; exact (portsIn_eq ((ok.mem_nodes m).1 hm) d).symm) (fun p => by rw [hgr]; rfl) (algoIn_wf ok) hw
    ((ok.mem_nodes n).2 hn) (by rw [portsIn_eq hn]; exact h4)
  exact ⟨ls, g1, by rw [g2]; exact List.length_map _, g3⟩

theorem linesAt_sublist {c : Line} {n : Nat} {ls : List Nat} {n? : Option Nat} {d : Option Direction} {o : Option Nat}
    (h : c.linesAt n? d o = some ls) (hn : n? = some n) : ls.Sublist (c.getLines n) := by
  subst hn
  cases d with
  | none => cases h
  | some d =>
    cases o with
    | none => cases h
    | some o =>
      simp only [Line.linesAt] at h
      split at h
      · cases h
      · split at h
        · cases h
          exact (List.take_sublist _ _).trans (List.drop_sublist _ _)
        · cases h

/-- `lines_at_port` does not panic for a port of the view. It returns one line of the node of the port
for each link of the port, in the order of the links for an incoming port; ports of a node with the
same direction share no line; the line passes through the nodes at the ends of the link, one right
after the other, and is also among the lines of the port at the other end. -/
theorem C54_lines_at_port_partial (ok : G.Ok) (hs : G.SingleIn .outgoing) (hac : Acyclic (G.ArcD .outgoing)) (hoff : OffsetsOk G)
    {c : Line} (hc : Line.new G.algo = some c) {n p : Nat} {d : Direction} (hn : G.containsNode n = true) (hp : p ∈ G.ports n d) :
    ∃ ls, G.linesAtPort c p = some ls ∧ ls.length = (G.portLinks p).length ∧ ls.Nodup ∧ (∀ l ∈ ls, l ∈ c.getLines n) ∧
      (∀ p' ∈ G.ports n d, p' ≠ p → ∀ ls', G.linesAtPort c p' = some ls' → ∀ l ∈ ls, l ∉ ls') ∧
      (d = .incoming → ∀ (k : Nat) e f l, (G.portLinks p)[k]? = some (e, f) → ls[k]? = some l →
        ∃ m ls' u v, G.On f m ∧ G.linesAtPort c (G.toPort f) = some ls' ∧ l ∈ ls' ∧ c.lines[l]? = some (u ++ m :: n :: v)) ∧
      (d = .outgoing → ∀ l ∈ ls, ∃ e f m ls' u v, (e, f) ∈ G.portLinks p ∧ G.On f m ∧ G.linesAtPort c (G.toPort f) = some ls' ∧
        l ∈ ls' ∧ c.lines[l]? = some (u ++ n :: m :: v)) := by
  obtain ⟨hgr, h, hw⟩ := line_of_new ok hs hac hc
  obtain ⟨ls, h1, h2, h3, h4⟩ := linesAtPort_eq ok hoff hgr hw hn hp
  have hlen : (G.algoIn.links p).length = ls.length := by rw [h2]; exact List.length_map _
  have hq : ∀ l ∈ ls, ∃ q, (q, l) ∈ (G.algoIn.links p).zip ls := by
    intro l hl
    obtain ⟨k, hk, e⟩ := List.mem_iff_getElem.1 hl
    exact ⟨(G.algoIn.links p)[k], List.mem_iff_getElem.2 ⟨k, by rw [List.length_zip]; omega, by rw [List.getElem_zip, e]⟩⟩
  have hpn := ((ok.mem_ports _ _ _).1 hp)
  refine ⟨ls, h1, h2, (linesAt_sublist h1 hpn.1).nodup (h.nodup n), h3, ?_, ?_, ?_⟩
  · intro p' hp' hne ls' h1' l hl hl'
    obtain ⟨ls'', g1, g2, -, g4⟩ := linesAtPort_eq ok hoff hgr hw hn hp'
    rw [h1'] at g1
    simp only [Option.some.injEq] at g1
    subst g1
    obtain ⟨q, hq⟩ := hq l hl
    obtain ⟨k, hk, e⟩ := List.mem_iff_getElem.1 hl'
    have hlen' : (G.algoIn.links p').length = ls'.length := by rw [g2]; exact List.length_map _
    have hq' : ((G.algoIn.links p')[k], l) ∈ (G.algoIn.links p').zip ls' :=
      List.mem_iff_getElem.2 ⟨k, by rw [List.length_zip]; omega, by rw [List.getElem_zip, e]⟩
    have := Line.zip_inj (h.nodup n) ((h4 _ _).1 hq) ((g4 _ _).1 hq')
    exact hne (congrArg Prod.fst this).symm
  · rintro rfl k e f l hk hl
    have hz : (G.toPort f, l) ∈ (G.algoIn.links p).zip ls := by
      refine List.mem_iff_getElem?.2 ⟨k, ?_⟩
      rw [List.getElem?_zip_eq_some]
      refine ⟨?_, hl⟩
      show ((G.portLinks p).map _)[k]? = _
      rw [List.getElem?_map, hk]; rfl
    obtain ⟨m, hm, ⟨q', hq'⟩, u, v, huv⟩ := hw.inc n ((ok.mem_nodes n).2 hn) _ _ _ ((h4 _ _).1 hz)
    have hm' := (ok.mem_nodes m).1 hm
    have hfm : G.toPort f ∈ G.ports m .outgoing := by
      have := (mem_lk.1 (List.of_mem_zip hq').1).1
      rwa [portsIn_eq hm'] at this
    obtain ⟨ls', g1, -, -, g4⟩ := linesAtPort_eq ok hoff hgr hw hm' hfm
    exact ⟨m, ls', u, v, ((ok.mem_ports _ _ _).1 hfm).1, g1, (List.of_mem_zip ((g4 _ _).2 hq')).2, huv⟩
  · rintro rfl l hl
    obtain ⟨q, hq⟩ := hq l hl
    obtain ⟨m, hm, q', hq', u, v, huv⟩ := hw.out n ((ok.mem_nodes n).2 hn) _ _ _ ((h4 _ _).1 hq)
    have hm' := (ok.mem_nodes m).1 hm
    obtain ⟨k1, k2⟩ := mem_lk.1 (List.of_mem_zip hq').1
    rw [portsIn_eq hm'] at k1
    obtain ⟨e, f, k3, k4, k5⟩ := (mem_algoLinks ok).1 k2
    obtain ⟨ls', g1, -, -, g4⟩ := linesAtPort_eq ok hoff hgr hw hm' k1
    have k6 := ok.shows_sym _ _ k3
    unfold GView.Shows at k6
    rw [k5] at k6
    exact ⟨f, e, m, ls', u, v, k6, by unfold GView.On; rw [k4]; exact ((ok.mem_ports _ _ _).1 k1).1, by rw [k4]; exact g1,
      (List.of_mem_zip ((g4 _ _).2 hq')).2, huv⟩

/-! ## Boundaries -/

theorem no_loop (hac : Acyclic (G.ArcD .outgoing)) (ok : G.Ok) (e f : E) (n : Nat) (h : G.Shows e f) (h1 : G.On e n) : ¬ G.On f n := by
  intro h2
  obtain ⟨n', d, m, g1, g2, -, g3, g4, -⟩ := ok.shows_dir _ _ h
  cases d with
  | outgoing => exact hac n (.single ⟨e, f, h, h1, h2, g2⟩)
  | incoming => exact hac n (.single ⟨f, e, ok.shows_sym _ _ h, h2, h1, g4⟩)

theorem singleIn_of_single (hs : G.Single) (d : Direction) : G.SingleIn d := fun _ _ p _ => hs p

/-- `get_intervals_from_boundary`, for a boundary of ports of the view, does not panic; it finds
intervals exactly when the nodes inside the boundary (all nodes, for the empty boundary) are
contiguous on each line, and then they represent these nodes.

Full statement: the same for any number of links per port. It is false, see
`C54_witness_boundary_multi`. -/
theorem C54_intervals_from_boundary_partial (ok : G.Ok) (hs : G.Single) (hac : Acyclic (G.ArcD .outgoing)) {c : Line}
    (hc : Line.new G.algo = some c) {guess : Line.Guess} (hg : guess.OK) {B : Boundary}
    (hB : ∀ p ∈ B.ports, G.containsPort p = true) :
    ∃ S I, (∀ n, n ∈ S ↔ if B.ports = [] then G.containsNode n = true else G.Inner B.ports n) ∧
      G.lineIntervals c guess B = some I ∧ (I.isSome ↔ Contiguous c S) ∧ ∀ I', I = some I' → Represents c S I' := by
  obtain ⟨S, h1, h2, -⟩ := internal_mem ok hs hB
  obtain ⟨I, h3, h4⟩ := C54_intervals_partial ok (singleIn_of_single hs _) hac hc hg (internal_nodup ok hs (no_loop hac ok) h1)
  exact ⟨S, I, h2, by unfold GView.lineIntervals; rw [h1]; exact h3, h4⟩

theorem inner_congr {B B' : List Nat} (h : ∀ p, p ∈ B ↔ p ∈ B') {n : Nat} : G.Inner B n ↔ G.Inner B' n := by
  have key : ∀ {B B' : List Nat}, (∀ p, p ∈ B ↔ p ∈ B') → G.Inner B n → G.Inner B' n := by
    intro B B' h hn
    induction hn with
    | start h1 h2 => exact .start ((h _).1 h1) h2
    | step _ h1 h2 h3 h4 h5 ih => exact .step ih h1 h2 h3 (fun hp => h4 ((h _).2 hp)) (fun hp => h5 ((h _).2 hp))
  exact ⟨key h, key fun p => (h p).symm⟩

/-- The same for `get_intervals_from_boundary_ports`. -/
theorem C54_intervals_from_ports_partial (ok : G.Ok) (hs : G.Single) (hac : Acyclic (G.ArcD .outgoing)) {c : Line}
    (hc : Line.new G.algo = some c) {guess : Line.Guess} (hg : guess.OK) {ports : List Nat}
    (hB : ∀ p ∈ ports, G.containsPort p = true) :
    ∃ S I, (∀ n, n ∈ S ↔ if ports = [] then G.containsNode n = true else G.Inner ports n) ∧
      G.linePortIntervals c guess ports = some I ∧ (I.isSome ↔ Contiguous c S) ∧ ∀ I', I = some I' → Represents c S I' := by
  have hd : ∀ p ∈ ports, ∃ d, G.portDirection p = some d := by
    intro p hp
    obtain ⟨n, h1, -⟩ := (ok.port_iff p).1 (hB p hp)
    exact ok.port_dir p n h1
  have hf := C35_from_ports (G := G) ports
  obtain ⟨B, e⟩ := Option.isSome_iff_exists.1 (hf.1.2 hd)
  obtain ⟨h1, h2⟩ := hf.2 B e
  have hmem : ∀ p, p ∈ B.ports ↔ p ∈ ports := by
    intro p
    unfold Boundary.ports
    rw [List.mem_append, h1, h2, List.mem_filter, List.mem_filter]
    constructor
    · rintro (h | h) <;> exact h.1
    · intro h
      obtain ⟨d, hd⟩ := hd p h
      cases d
      · exact .inl ⟨h, by simpa using hd⟩
      · exact .inr ⟨h, by simpa using hd⟩
  have hnil : B.ports = [] ↔ ports = [] := by
    rw [List.eq_nil_iff_forall_not_mem, List.eq_nil_iff_forall_not_mem]
    exact forall_congr' fun p => not_congr (hmem p)
  obtain ⟨S, I, g1, g2, g3⟩ := C54_intervals_from_boundary_partial ok hs hac hc hg (B := B) (fun p hp => hB p ((hmem p).1 hp))
  refine ⟨S, I, fun n => ?_, by unfold GView.linePortIntervals; rw [e]; exact g2, g3⟩
  rw [g1]
  simp only [hnil]
  split
  · rfl
  · exact inner_congr hmem

/-! ## Subgraphs with boundary ports -/

/-- Convexity of a subgraph is convexity of its nodes, and that no output port is linked to an input
port. -/
theorem viewPortConvex_iff (ok : G.Ok) {S inputs outputs : List Nat}
    (hin : ∀ p ∈ inputs, ∃ n ∈ S, p ∈ G.ports n .incoming)
    (hout : ∀ p ∈ outputs, ∃ n ∈ S, p ∈ G.ports n .outgoing) :
    G.PortConvex S inputs outputs ↔
      (¬ ∃ e f, G.Shows e f ∧ G.toPort e ∈ outputs ∧ G.toPort f ∈ inputs) ∧ Convex (G.ArcD .outgoing) S := by
  constructor
  · intro h
    refine ⟨?_, ?_⟩
    · rintro ⟨e, f, h1, h2, h3⟩
      obtain ⟨m, hm, hpm⟩ := hout _ h2
      obtain ⟨n, hn, hqn⟩ := hin _ h3
      obtain ⟨a, b⟩ := (ok.mem_ports _ _ _).1 hpm
      exact (h m hm n hn e f m n .refl h1 a ((ok.mem_ports _ _ _).1 hqn).1 b .refl).2.2 ⟨h2, h3⟩
    · intro s hs t ht x hsx hxt
      cases Relation.ReflTransGen.cases_head hxt with
      | inl e => exact e ▸ ht
      | inr hy =>
        obtain ⟨y, ⟨e, f, h1, h2, h3, h4⟩, hyt⟩ := hy
        exact (h s hs t ht e f x y hsx h1 h2 h3 h4 hyt).1
  · rintro ⟨hc, h⟩ s hs t ht e f m n hsm h1 h2 h3 h4 hnt
    have ha : G.ArcD .outgoing m n := ⟨e, f, h1, h2, h3, h4⟩
    exact ⟨h s hs t ht m hsm (.head ha hnt), h s hs t ht n (hsm.tail ha) hnt, fun ⟨hp, hq⟩ => hc ⟨e, f, h1, hp, hq⟩⟩

/-- The check of the boundary ports. -/
theorem view_any_links (ok : G.Ok) {inputs outputs : List Nat} (hone : ∀ p ∈ outputs, (G.portLinks p).length ≤ 1) :
    (inputs.any fun p => (outputs.filterMap fun p => (G.algo.links p).head?).contains p) = true ↔
      ∃ e f, G.Shows e f ∧ G.toPort e ∈ outputs ∧ G.toPort f ∈ inputs := by
  simp only [List.any_eq_true, List.contains_eq_mem, decide_eq_true_eq, List.mem_filterMap]
  constructor
  · rintro ⟨q, hq, p, hp, e⟩
    obtain ⟨a, b, h1, rfl, rfl⟩ := (mem_algoLinks ok).1 (List.mem_of_mem_head? (by rw [e]; rfl))
    exact ⟨a, b, h1, hp, hq⟩
  · rintro ⟨e, f, h1, h2, h3⟩
    refine ⟨_, h3, _, h2, ?_⟩
    have h4 := hone _ h2
    have h5 : (e, f) ∈ G.portLinks (G.toPort e) := h1
    show ((G.portLinks (G.toPort e)).map _).head? = _
    match hl : G.portLinks (G.toPort e) with
    | [] => rw [hl] at h5; simp at h5
    | [x] => rw [hl] at h5; simp only [List.mem_singleton] at h5; subst h5; rfl
    | _ :: _ :: _ => rw [hl] at h4; simp at h4

/-- `is_convex(S, inputs, outputs)` of the line checker, for input and output ports of nodes of `S`,
the output ports with at most one link: it does not panic and holds exactly when every link on a
path between two nodes of `S` is within the subgraph.

Full statement: the same for any number of links per port. It is false, see
`C54_witness_is_convex_multi`. -/
theorem C54_is_convex_partial (ok : G.Ok) (hs : G.SingleIn .outgoing) (hac : Acyclic (G.ArcD .outgoing)) {c : Line}
    (hc : Line.new G.algo = some c) {guess : Line.Guess} (hg : guess.OK) {S inputs outputs : List Nat} (hne : S ≠ []) (hnd : S.Nodup)
    (hS : ∀ n ∈ S, G.containsNode n = true) (hin : ∀ p ∈ inputs, ∃ n ∈ S, p ∈ G.ports n .incoming)
    (hout : ∀ p ∈ outputs, ∃ n ∈ S, p ∈ G.ports n .outgoing) (hone : ∀ p ∈ outputs, (G.portLinks p).length ≤ 1) :
    ∃ r, c.isConvex guess S inputs outputs = some r ∧ (r = true ↔ G.PortConvex S inputs outputs) := by
  obtain ⟨r, h1, h2⟩ := C54_is_node_convex_partial ok hs hac hc hg hne hnd hS
  obtain ⟨hgr, -, -⟩ := line_of_new ok hs hac hc
  have key := view_any_links ok (inputs := inputs) hone
  rw [viewPortConvex_iff ok hin hout]
  unfold Line.isConvex
  rw [hgr]
  by_cases hx : ∃ e f, G.Shows e f ∧ G.toPort e ∈ outputs ∧ G.toPort f ∈ inputs
  · exact ⟨false, if_pos (key.2 hx), by simp [hx]⟩
  · exact ⟨r, (if_neg (fun h => hx (key.1 h))).trans h1, by rw [h2]; simp only [hx, not_false_eq_true, true_and]⟩

/-- The same for `TopoConvexChecker`, also for repeated nodes and without nodes. -/
theorem C53_is_convex_partial (ok : G.Ok) (hs : G.SingleIn .outgoing) (hac : Acyclic (G.ArcD .outgoing)) {S inputs outputs : List Nat}
    (hS : ∀ n ∈ S, G.containsNode n = true) (hin : ∀ p ∈ inputs, ∃ n ∈ S, p ∈ G.ports n .incoming)
    (hout : ∀ p ∈ outputs, ∃ n ∈ S, p ∈ G.ports n .outgoing) (hone : ∀ p ∈ outputs, (G.portLinks p).length ≤ 1) :
    ∃ c r, Convex.Topo.new G.algo = some c ∧ c.isConvex S inputs outputs = some r ∧ (r = true ↔ G.PortConvex S inputs outputs) := by
  obtain ⟨c, r, h0, h1, h2⟩ := C53_is_node_convex_partial ok hs hac hS
  have hgr : c.graph = G.algo := by
    unfold Convex.Topo.new at h0
    split at h0
    · cases h0
    · simp only [Option.some.injEq] at h0; rw [← h0]
  have key := view_any_links ok (inputs := inputs) hone
  rw [viewPortConvex_iff ok hin hout]
  refine ⟨c, ?_⟩
  unfold Convex.Topo.isConvex
  rw [hgr]
  by_cases hx : ∃ e f, G.Shows e f ∧ G.toPort e ∈ outputs ∧ G.toPort f ∈ inputs
  · exact ⟨false, h0, if_pos (key.2 hx), by simp [hx]⟩
  · exact ⟨r, h0, (if_neg (fun h => hx (key.1 h))).trans h1, by rw [h2]; simp only [hx, not_false_eq_true, true_and]⟩

/-! ## Where it fails -/

/-- **C54 fails** for several links into a port: `new` panics. -/
theorem C54_witness_panic_multi : (Line.new (Multi.ofMG joinM 8 8).algo).isNone = true ∧ Acyclic ((Multi.ofMG joinM 8 8).ArcD .outgoing) := by
  refine ⟨by decide +kernel, ?_⟩
  have key : ∀ m ∈ (Multi.ofMG joinM 8 8).nodes, ∀ n ∈ neighbours (Multi.ofMG joinM 8 8).algo m .outgoing,
      [0, 2, 1].idxOf m < [0, 2, 1].idxOf n := by decide +kernel
  have hlt : ∀ a b, Relation.TransGen ((Multi.ofMG joinM 8 8).ArcD .outgoing) a b → [0, 2, 1].idxOf a < [0, 2, 1].idxOf b := by
    intro a b hab
    have one : ∀ a b, (Multi.ofMG joinM 8 8).ArcD .outgoing a b → [0, 2, 1].idxOf a < [0, 2, 1].idxOf b := by
      intro a b h
      obtain ⟨h1, h2⟩ := arc_check (Multi.ofMG_ok joinM_ok 8 8) h
      exact key a h1 b h2
    induction hab with
    | single h => exact one _ _ h
    | tail _ h ih => exact Nat.lt_trans ih (one _ _ h)
  exact fun n hn => Nat.lt_irrefl _ (hlt n n hn)

/-- **C54 fails** for several links from an output port: the link from the output port 0 to the input
port 2 is not seen, as it is the second link of port 0. The same for the other checker. -/
theorem C54_witness_is_convex_multi :
    ((Line.new (Multi.ofMG fanM 8 8).algo).bind fun c => c.isConvex middle [0, 2] [2] [0]) = some true ∧
    ((Convex.Topo.new (Multi.ofMG fanM 8 8).algo).bind fun c => c.isConvex [0, 2] [2] [0]) = some true ∧
    ¬ (Multi.ofMG fanM 8 8).PortConvex [0, 2] [2] [0] := by
  refine ⟨by decide +kernel, by decide +kernel, fun h => ?_⟩
  have := h 0 (by simp) 2 (by simp) (0, 1) (2, 0) 0 2 .refl (by show _ ∈ _; decide +kernel) (by show _ = _; decide +kernel)
    (by show _ = _; decide +kernel) (by decide +kernel) .refl
  exact this.2.2 ⟨by decide +kernel, by decide +kernel⟩

/-- **C54 fails** for several links from a port: with the empty boundary, node 0 is found twice, and
`get_intervals_from_boundary` panics. -/
theorem C54_witness_boundary_multi : (Multi.ofMG fanM 8 8).internalNodes ⟨[], []⟩ = some [0, 1, 2, 0] ∧
    ((Line.new (Multi.ofMG fanM 8 8).algo).map fun c => ((Multi.ofMG fanM 8 8).lineIntervals c middle ⟨[], []⟩).isNone) =
      some true := by decide +kernel

/-! The hypotheses can be met. -/

/-- The checker of the view in which a port has two links. -/
def fanC : Line := (Line.new (Multi.ofMG fanM 8 8).algo).getD ⟨(Multi.ofMG fanM 8 8).algo, fun _ => ⟨[], 0⟩, []⟩

theorem fanC_new : Line.new (Multi.ofMG fanM 8 8).algo = some fanC := by
  obtain ⟨c, h, -⟩ := C54_new_partial (Multi.ofMG_ok fanM_ok 8 8) fanM_singleIn fanM_acyclic
  unfold fanC
  rw [h]; rfl

example : fanC.lines = [[0, 2], [0, 1]] := by decide +kernel
example := C54_lines_at_port_partial (Multi.ofMG_ok fanM_ok 8 8) fanM_singleIn fanM_acyclic (Render.offsets_mg fanM_ok 8 8) fanC_new
  (n := 0) (p := 0) (d := .outgoing) (by decide +kernel) (by decide +kernel)
example : (Multi.ofMG fanM 8 8).linesAtPort fanC 0 = some [0, 1] ∧ (Multi.ofMG fanM 8 8).linesAtPort fanC 1 = some [1] ∧
    (Multi.ofMG fanM 8 8).linesAtPort fanC 2 = some [0] := by decide +kernel

example := C54_is_node_convex_partial (Multi.ofMG_ok fanM_ok 8 8) fanM_singleIn fanM_acyclic fanC_new middle_ok (S := [0, 1]) (by simp)
  (by simp) (by decide +kernel)
example := C54_is_convex_partial (Multi.ofMG_ok fanM_ok 8 8) fanM_singleIn fanM_acyclic fanC_new middle_ok (S := [0, 1])
  (inputs := [1]) (outputs := []) (by simp) (by simp) (by decide +kernel) (by decide +kernel) (by simp) (by simp)

/-- The intervals of the nodes 0 and 2. -/
theorem fan_represents : Represents fanC [0, 2] [⟨0, 0, 1⟩, ⟨1, 0, 0⟩] := by
  obtain ⟨I, h1, -, h2⟩ := C54_intervals_partial (Multi.ofMG_ok fanM_ok 8 8) fanM_singleIn fanM_acyclic fanC_new middle_ok
    (S := [0, 2]) (by simp)
  refine h2 _ ?_
  have h3 : fanC.intervals middle [0, 2] = some (some [⟨0, 0, 1⟩, ⟨1, 0, 0⟩]) := by decide +kernel
  rw [h3] at h1
  exact (Option.some.inj h1).symm

example := C54_try_extend_partial (Multi.ofMG_ok fanM_ok 8 8) fanM_singleIn fanM_acyclic fanC_new middle_ok fan_represents 1
example : fanC.tryExtend middle [⟨0, 0, 1⟩, ⟨1, 0, 0⟩] 1 = some (true, [⟨0, 0, 1⟩, ⟨1, 0, 1⟩]) := by decide +kernel
example := C54_nodes_in_intervals_partial (Multi.ofMG_ok fanM_ok 8 8) fanM_singleIn fanM_acyclic fanC_new middle_ok
  (by decide +kernel) fan_represents
example := C54_by_intervals_partial (Multi.ofMG_ok fanM_ok 8 8) fanM_singleIn fanM_acyclic fanC_new middle_ok (by simp)
  (by decide +kernel) fan_represents

theorem exV_acyclicD : Acyclic (exV.ArcD .outgoing) := by
  apply acyclic_of_lt
  intro m n h
  obtain ⟨h1, h2⟩ := arc_check exV_ok.1 h
  have key : ∀ m ∈ exV.nodes, ∀ n ∈ neighbours exV.algo m .outgoing, m < n := by decide +kernel
  exact key m h1 n h2

/-- The checker of the diamond `0 → 1, 2 → 3` with a tail `3 → 4` and an isolated node `5`. -/
def exVC : Line := (Line.new exV.algo).getD ⟨exV.algo, fun _ => ⟨[], 0⟩, []⟩

theorem exVC_new : Line.new exV.algo = some exVC := by
  obtain ⟨c, h, -⟩ := C54_new_partial exV_ok.1 (singleIn_of_single exV_ok.2.2.2.2 _) exV_acyclicD
  unfold exVC
  rw [h]; rfl

example := C54_intervals_from_ports_partial exV_ok.1 exV_ok.2.2.2.2 exV_acyclicD exVC_new middle_ok (ports := [7, 2, 9]) (by decide +kernel)
example : exV.linePortIntervals exVC middle [7, 2, 9] = some (some [⟨0, 1, 2⟩, ⟨1, 2, 2⟩]) := by decide +kernel
example : exVC.tryExtend middle [⟨0, 1, 2⟩, ⟨1, 2, 2⟩] 4 = some (true, [⟨0, 1, 3⟩, ⟨1, 2, 2⟩]) ∧
    exVC.tryExtend middle [⟨0, 0, 0⟩, ⟨1, 0, 0⟩] 3 = some (false, [⟨0, 0, 0⟩, ⟨1, 0, 0⟩]) ∧
    exVC.tryExtend middle [⟨0, 3, 3⟩] 2 = some (true, [⟨0, 3, 3⟩, ⟨1, 1, 1⟩]) := by decide +kernel

example := C54_new_partial (Multi.ofMG_ok fanM_ok 8 8) fanM_singleIn fanM_acyclic

example := C54_intervals_partial (Multi.ofMG_ok fanM_ok 8 8) fanM_singleIn fanM_acyclic fanC_new middle_ok (S := [0, 1]) (by simp)

example := C54_intervals_from_boundary_partial exV_ok.1 exV_ok.2.2.2.2 exV_acyclicD exVC_new middle_ok (B := ⟨[7, 2], [9]⟩)
  (by decide +kernel)

example := C53_is_convex_partial (Multi.ofMG_ok fanM_ok 8 8) fanM_singleIn fanM_acyclic (S := [0, 1])
  (inputs := [1]) (outputs := []) (by decide +kernel) (by decide +kernel) (by simp) (by simp)

#print axioms C54_new_partial
#print axioms C54_is_node_convex_partial
#print axioms C54_intervals_partial
#print axioms C54_by_intervals_partial
#print axioms C54_try_extend_partial
#print axioms C54_nodes_in_intervals_partial
#print axioms C54_lines_at_port_partial
#print axioms C54_intervals_from_boundary_partial
#print axioms C54_intervals_from_ports_partial
#print axioms C54_is_convex_partial
#print axioms C53_is_convex_partial
#print axioms C54_witness_panic_multi
#print axioms C54_witness_is_convex_multi
#print axioms C54_witness_boundary_multi

end Verif.View
