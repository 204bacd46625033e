import Verif.Boundary.Run

/-!
# The loop of `port_ordering`: invariant and result
-/

namespace Verif.View

open Verif (Direction)
open Verif.Algo

variable {E : Type} {G : GView E}

/-- Port `p` is an input whose node leads to node `n`. -/
def GView.Reaches (G : GView E) (B : Boundary) (p n : Nat) : Prop :=
  p ∈ B.inputs ∧ ∃ m, G.portNode p = some m ∧ Relation.ReflTransGen G.Arc m n

/-- The state of the loop after the nodes `done`, started from the nodes `S`. -/
structure OInv (G : GView E) (B : Boundary) (S done : List Nat) (s : PState) : Prop where
  topo : Topo.NInv G.algoIn (boundaryFilter B) .outgoing S done s.topo
  src : ∀ n ∈ S, G.containsNode n = true ∧ ∀ m, ¬ G.Arc m n
  ins : ∀ n, n ∈ s.ins ↔ (∃ p ∈ B.inputs, G.portNode p = some n) ∧ n ∉ done
  outs : ∀ n, n ∈ s.outs ↔ (∃ p ∈ B.outputs, G.portNode p = some n) ∧ n ∉ done
  reach : ∀ n k l, s.reach n = some (k, l) → n ∈ done ∧
    k = ((G.neighbours n .outgoing).filter fun x => !done.contains x).length ∧ ∀ p, p ∈ l ↔ G.Reaches B p n
  keep : ∀ n ∈ done, (∃ y, G.Arc n y ∧ y ∉ done) → ∃ k l, s.reach n = some (k, l)
  len : s.ord.reachable.length = B.inputs.length ∧ s.ord.reaching.length = B.outputs.length
  cons : s.ord.Consistent
  ord : ∀ i o, s.ord.Has i o ↔ ∃ p q n, q ∈ B.outputs ∧ findPort B.inputs p = some i ∧ findPort B.outputs q = some o ∧
    G.portNode q = some n ∧ n ∈ done ∧ G.Reaches B p n
  init : s.added = true → ∀ n, G.Up B.ports n → (∀ m, ¬ G.Arc m n) → n ∈ done ++ s.topo.cand

theorem OInv.allIn {B : Boundary} {S done : List Nat} {s : PState} (h : OInv G B S done s) :
    ∀ n ∈ done ++ s.topo.cand, G.containsNode n = true := by
  intro n hn
  by_cases hS : n ∈ S
  · exact (h.src n hS).1
  · obtain ⟨q, hq, _⟩ := h.topo.core.enter n hn hS
    exact (mem_portsIn.1 hq).1

/-- No boundary port is linked, so the port filter only drops unlinked ports. -/
theorem shows_free (ok : G.Ok) {B : Boundary} (hfree : ∀ p ∈ B.ports, G.portLinks p = []) {e f : E} (h : G.Shows e f) :
    G.toPort e ∉ B.ports ∧ G.toPort f ∉ B.ports := by
  constructor
  · intro hp
    have := hfree _ hp
    unfold GView.Shows at h
    rw [this] at h; cases h
  · intro hp
    have := hfree _ hp
    have h := ok.shows_sym _ _ h
    unfold GView.Shows at h
    rw [this] at h; cases h

theorem arc_ports (ok : G.Ok) {B : Boundary} (hfree : ∀ p ∈ B.ports, G.portLinks p = []) {m n : Nat} (h : G.Arc m n) :
    ∃ p q, p ∈ G.algoIn.ports m .outgoing ∧ q ∈ G.algoIn.ports n .incoming ∧ q ∈ G.algoIn.links p ∧ p ∈ G.algoIn.links q ∧
      (boundaryFilter B).port m p = true ∧ (boundaryFilter B).port n q = true := by
  obtain ⟨e, f, h1, h2, h3, h4⟩ := h
  obtain ⟨n', d', m', g1, g2, g3, g4, g5, g6⟩ := ok.shows_dir e f h1
  unfold GView.On at h2 h3 g1 g4
  rw [h2] at g1; cases g1
  rw [h3] at g4; cases g4
  rw [h4] at g2; cases g2
  obtain ⟨a, b⟩ := shows_free ok hfree h1
  refine ⟨G.toPort e, G.toPort f, mem_portsIn.2 ⟨g3, (ok.mem_ports _ _ _).2 ⟨h2, h4⟩⟩,
    mem_portsIn.2 ⟨g6, (ok.mem_ports _ _ _).2 ⟨h3, g5⟩⟩, (mem_algoLinks ok).2 ⟨e, f, h1, rfl, rfl⟩,
    (mem_algoLinks ok).2 ⟨f, e, ok.shows_sym _ _ h1, rfl, rfl⟩, ?_, ?_⟩
  · simpa [boundaryFilter] using a
  · simpa [boundaryFilter] using b

theorem links_arc (ok : G.Ok) {n q p m : Nat} (hq : q ∈ G.algoIn.ports n .incoming) (hp : p ∈ G.algoIn.links q)
    (hm : p ∈ G.algoIn.ports m .outgoing) : G.Arc m n := by
  refine (varc_in ok).1 ⟨p, hm, q, ?_, hq⟩
  obtain ⟨e, f, h1, h2, h3⟩ := (mem_algoLinks ok).1 hp
  exact (mem_algoLinks ok).2 ⟨f, e, ok.shows_sym _ _ h1, h3, h2⟩

/-- The predecessors of a visited node come before it. -/
theorem pred_before (ok : G.Ok) {B : Boundary} (hfree : ∀ p ∈ B.ports, G.portLinks p = []) {S done : List Nat} {t : Topo}
    (h : Topo.NInv G.algoIn (boundaryFilter B) .outgoing S done t) (hS : ∀ n ∈ S, ∀ m, ¬ G.Arc m n)
    {a b : List Nat} {n m : Nat} (hab : done ++ t.cand = a ++ n :: b) (hm : G.Arc m n) : m ∈ a := by
  obtain ⟨p, q, h1, h2, h3, h4, h5, h6⟩ := arc_ports ok hfree hm
  obtain ⟨m', h7, h8, h9⟩ := h.core.order a n b hab (fun hn => hS n hn m hm) q h2 h6 p h4
  have := Topo.owner_unique (algoIn_wf ok) h1 h8
  subst this; exact h7

theorem filter_snoc {l done : List Nat} {x : Nat} (hx : x ∉ done) :
    (l.filter fun y => !done.contains y).length = (l.filter fun y => !(done ++ [x]).contains y).length + l.count x := by
  induction l with
  | nil => simp
  | cons z l ih =>
    simp only [List.filter_cons, List.count_cons]
    by_cases hz : z = x
    · subst hz
      simp [hx] at ih ⊢
      omega
    · by_cases hd : z ∈ done
      · simp [hd, hz] at ih ⊢; omega
      · simp [hd, hz] at ih ⊢; omega

/-- Visiting a node. -/
theorem step_ok (ok : G.Ok) {B : Boundary} (hfree : ∀ p ∈ B.ports, G.portLinks p = [])
    {S done : List Nat} {s : PState} {x : Nat} {t : Topo} (h : OInv G B S done s) (hx : x ∈ s.topo.cand)
    (ht : Topo.NInv G.algoIn (boundaryFilter B) .outgoing S (done ++ [x]) t)
    (hcand : ∀ y ∈ done ++ s.topo.cand, y ∈ (done ++ [x]) ++ t.cand) :
    ∃ s', G.orderStep B x { s with topo := t } = some s' ∧ OInv G B S (done ++ [x]) s' := by
  have hnd : (done ++ [x]).Nodup := (List.nodup_append.1 ht.core.nodup).1
  have hxd : x ∉ done := fun hc => (List.nodup_append.1 hnd).2.2 x hc x (by simp) rfl
  have hin : ∀ n ∈ done ++ s.topo.cand, G.containsNode n = true := h.allIn
  have hxc : G.containsNode x = true := hin x (by simp [hx])
  have hS : ∀ n ∈ S, ∀ m, ¬ G.Arc m n := fun n hn => (h.src n hn).2
  have hpx : ∀ m, G.Arc m x → m ∈ done := fun m hm =>
    pred_before ok hfree ht hS (a := done) (b := t.cand) (n := x) (by simp) hm
  have hsx : ∀ y, G.Arc x y → y ∉ done ++ [x] := by
    intro y hy hyd
    obtain ⟨a, b, hab⟩ := List.append_of_mem hyd
    have hxa := pred_before ok hfree ht hS (a := a) (b := b ++ t.cand) (n := y) (by rw [hab]; simp) hy
    have hl : a.length ≤ done.length := by
      have := congrArg List.length hab
      simp at this; omega
    have hpre : a <+: done := by
      refine List.prefix_of_prefix_length_le (l₃ := done ++ [x]) ?_ (List.prefix_append _ _) hl
      rw [hab]; exact List.prefix_append _ _
    exact hxd (hpre.subset hxa)
  have hcount : ∀ m, G.containsNode m = true → (G.neighbours x .incoming).count m = (G.neighbours m .outgoing).count x :=
    fun m hm => count_sym ok hxc hm
  obtain ⟨r', ports, e1, g1, g2, g3⟩ := gather_ok (G.neighbours x .incoming) (r := s.reach)
    (ports := if s.ins.contains x then G.portsAt B.inputs x else []) (by
      intro m hm
      have hm' := (mem_neigh ok hxc).1.1 hm
      have hmd := hpx m hm'
      obtain ⟨k, l, hk⟩ := h.keep m hmd ⟨x, hm', hxd⟩
      refine ⟨k, l, hk, ?_⟩
      obtain ⟨-, hk', -⟩ := h.reach m k l hk
      rw [hk', hcount m (hin m (by simp [hmd])), filter_snoc hxd]
      omega)
  have hports : ∀ p, p ∈ ports ↔ G.Reaches B p x := by
    intro p
    rw [g1]
    have hins : p ∈ (if s.ins.contains x then G.portsAt B.inputs x else []) ↔ p ∈ B.inputs ∧ G.portNode p = some x := by
      by_cases hp : p ∈ B.inputs ∧ G.portNode p = some x
      · rw [if_pos (by rw [List.contains_iff_mem]; exact (h.ins x).2 ⟨⟨p, hp⟩, hxd⟩)]
        simp [GView.portsAt, hp]
      · split
        · simp only [GView.portsAt, List.mem_filter, decide_eq_true_eq]
        · simp [hp]
    rw [hins]
    unfold GView.Reaches
    constructor
    · rintro (⟨h1, h2⟩ | ⟨m, hm, k, l, h1, h2⟩)
      · exact ⟨h1, x, h2, .refl⟩
      · obtain ⟨h3, m', h4, h5⟩ := ((h.reach m k l h1).2.2 p).1 h2
        exact ⟨h3, m', h4, h5.tail ((mem_neigh ok hxc).1.1 hm)⟩
    · rintro ⟨h1, m, h2, h3⟩
      rcases h3.cases_tail with rfl | ⟨c, h4, h5⟩
      · exact .inl ⟨h1, h2⟩
      · right
        have hcd := hpx c h5
        obtain ⟨k, l, hk⟩ := h.keep c hcd ⟨x, h5, hxd⟩
        exact ⟨c, (mem_neigh ok hxc).1.2 h5, k, l, hk, ((h.reach c k l hk).2.2 p).2 ⟨h1, m, h2, h4⟩⟩
  have houts : ∀ q, q ∈ (if s.outs.contains x then G.portsAt B.outputs x else []) ↔ q ∈ B.outputs ∧ G.portNode q = some x := by
    intro q
    by_cases hp : q ∈ B.outputs ∧ G.portNode q = some x
    · rw [if_pos (by rw [List.contains_iff_mem]; exact (h.outs x).2 ⟨⟨q, hp⟩, hxd⟩)]
      simp [GView.portsAt, hp]
    · split
      · simp only [GView.portsAt, List.mem_filter, decide_eq_true_eq]
      · simp [hp]
  obtain ⟨O', e2, c2, k2, g4⟩ := addOrders_ok (B := B) (if s.outs.contains x then G.portsAt B.outputs x else []) ports (O := s.ord)
    h.len.1 h.len.2 h.cons (fun p hp => ((hports p).1 hp).1) (fun q hq => ((houts q).1 hq).1)
  refine ⟨_, by unfold GView.orderStep; simp only [e1, e2]; rfl, ?_⟩
  refine ⟨ht, h.src, ?_, ?_, ?_, ?_, ⟨c2.1.trans h.len.1, c2.2.trans h.len.2⟩, k2, ?_, ?_⟩
  · intro n
    simp only [List.mem_filter, bne_iff_ne, h.ins, List.mem_append, List.mem_singleton, not_or, and_assoc, ne_eq]
  · intro n
    simp only [List.mem_filter, bne_iff_ne, h.outs, List.mem_append, List.mem_singleton, not_or, and_assoc, ne_eq]
  · intro n k l hk
    simp only at hk
    split at hk
    · next he =>
      subst he
      simp only [Option.some.injEq, Prod.mk.injEq] at hk
      refine ⟨by simp, ?_, ?_⟩
      · rw [← hk.1, List.filter_eq_self.2]
        intro y hy
        have := hsx y ((mem_neigh ok hxc).2.1 hy)
        simp only [Bool.not_eq_true', List.contains_eq_mem, decide_eq_false_iff_not]
        exact this
      · rw [← hk.2]; exact hports
    · have h1 := g2 n k l hk
      obtain ⟨a1, a2, a3⟩ := h.reach n _ _ h1
      refine ⟨by simp [a1], ?_, a3⟩
      rw [hcount n (hin n (by simp [a1])), filter_snoc hxd] at a2
      omega
  · rintro n hn ⟨y, hy, hyd⟩
    by_cases he : n = x
    · subst he; exact ⟨_, _, if_pos rfl⟩
    · have hnd' : n ∈ done := by simpa [he] using hn
      obtain ⟨k, l, hk⟩ := h.keep n hnd' ⟨y, hy, fun hc => hyd (by simp [hc])⟩
      obtain ⟨-, a2, -⟩ := h.reach n _ _ hk
      have hnc := hin n (by simp [hnd'])
      rw [filter_snoc hxd, ← hcount n hnc] at a2
      have : 0 < ((G.neighbours n .outgoing).filter fun y => !(done ++ [x]).contains y).length := by
        apply List.length_pos_of_mem (a := y)
        rw [List.mem_filter]
        refine ⟨(mem_neigh ok hnc).2.2 hy, ?_⟩
        simpa using hyd
      exact ⟨k - (G.neighbours x .incoming).count n, l, (if_neg he).trans (g3 n k l hk (by omega))⟩
  · intro i o
    rw [g4, h.ord]
    constructor
    · rintro (⟨p, q, n, h1, h2, h3, h4, h5, h6⟩ | ⟨p, hp, q, hq, h1, h2⟩)
      · exact ⟨p, q, n, h1, h2, h3, h4, by simp [h5], h6⟩
      · obtain ⟨h3, h4⟩ := (houts q).1 hq
        exact ⟨p, q, x, h3, h1, h2, h4, by simp, (hports p).1 hp⟩
    · rintro ⟨p, q, n, h1, h2, h3, h4, h5, h6⟩
      rcases List.mem_append.1 h5 with h5 | h5
      · exact .inl ⟨p, q, n, h1, h2, h3, h4, h5, h6⟩
      · simp at h5; subst h5
        exact .inr ⟨p, (hports p).2 h6, q, (houts q).2 ⟨h1, h4⟩, h2, h3⟩
  · intro ha n hn hp
    exact hcand n (h.init ha n hn hp)

theorem inner_port (ok : G.Ok) {B : List Nat} (hB : ∀ p ∈ B, G.containsPort p = true) {n : Nat} (h : G.Inner B n) :
    G.containsNode n = true ∧ ∃ d, G.algoIn.ports n d ≠ [] := by
  have key : ∀ p, G.portNode p = some n → G.containsNode n = true → ∃ d, G.algoIn.ports n d ≠ [] := by
    intro p hp hc
    obtain ⟨d, hd⟩ := ok.port_dir p n hp
    exact ⟨d, List.ne_nil_of_mem (mem_portsIn.2 ⟨hc, (ok.mem_ports _ _ _).2 ⟨hp, hd⟩⟩)⟩
  cases h with
  | @start p n hp hn =>
    obtain ⟨n', h1, h2⟩ := (ok.port_iff p).1 (hB p hp)
    rw [hn] at h1; cases h1
    exact ⟨h2, key p hn h2⟩
  | @step e f n m h1 h2 h3 h4 h5 h6 =>
    obtain ⟨n', d', m', g1, g2, g3, g4, g5, g6⟩ := ok.shows_dir e f h2
    unfold GView.On at h4 g4
    rw [h4] at g4; cases g4
    exact ⟨g6, key _ h4 g6⟩

theorem up_inner (ok : G.Ok) {B : Boundary} (hfree : ∀ p ∈ B.ports, G.portLinks p = []) {n : Nat} (h : G.Up B.ports n) :
    G.Inner B.ports n := by
  induction h with
  | start h1 h2 => exact .start h1 h2
  | step _ h1 h2 h3 _ ih =>
    obtain ⟨a, b⟩ := shows_free ok hfree h1
    exact .step ih h1 h2 h3 a b

theorem singleIn_link (ok : G.Ok) (hs : G.SingleIn .outgoing) : ∀ e f, G.portDirection (G.toPort e) = some .incoming →
    G.Shows e f → (G.portLinks (G.toPort e)).length ≤ 1 := by
  intro e f h1 h2
  obtain ⟨n, d, m, g1, g2, g3, -⟩ := ok.shows_dir e f h2
  exact hs n g3 _ ((ok.mem_ports _ _ _).2 ⟨g1, h1⟩)

/-- With all nodes visited from which links lead to the boundary and which have no predecessors, all nodes from which
links lead to the boundary are visited. -/
theorem exhausted (ok : G.Ok) (hs : G.SingleIn .outgoing) (hac : Acyclic G.Arc) {B : Boundary}
    (hB : ∀ p ∈ B.ports, G.containsPort p = true) (hfree : ∀ p ∈ B.ports, G.portLinks p = [])
    {S done : List Nat} {s : PState} (h : OInv G B S done s) (ha : s.added = true) (hc : s.topo.cand = []) :
    ∀ n, G.Up B.ports n → n ∈ done := by
  have hfin := h.topo.final (algoIn_wf ok) (algoIn_singleIn hs) hc
  intro n hn
  by_contra hnd
  refine no_descent hac G.nodes (fun n => G.Up B.ports n ∧ n ∉ done) ?_ n ⟨hn, hnd⟩
  rintro x ⟨hx, hxd⟩
  obtain ⟨hxc, -⟩ := inner_port ok hB (up_inner ok hfree hx)
  refine ⟨(ok.mem_nodes x).2 hxc, ?_⟩
  by_contra hno
  have hex : ∃ m, G.Arc m x := by
    by_contra hno'
    have := h.init ha x hx fun m hm => hno' ⟨m, hm⟩
    rw [hc, List.append_nil] at this
    exact hxd this
  have hall : ∀ m, G.Arc m x → m ∈ done := by
    intro m hm
    by_contra hmd
    refine hno ⟨m, hm, ?_, hmd⟩
    obtain ⟨e, f, h1, h2, h3, h4⟩ := hm
    obtain ⟨n', d', m', g1, g2, g3, g4, g5, g6⟩ := ok.shows_dir e f h1
    rw [h4] at g2; cases g2
    exact .step hx (ok.shows_sym _ _ h1) h3 h2 g5
  apply hxd
  refine hfin.complete x rfl ?_ ?_
  · obtain ⟨m, hm⟩ := hex
    obtain ⟨p, q, h1, h2, h3, h4, h5, h6⟩ := arc_ports ok hfree hm
    exact ⟨q, h2, p, h4, m, hall m hm, h1, h5⟩
  · intro q hq hacc p hp
    have hp' := hp
    obtain ⟨e, f, h1, h2, h3⟩ := (mem_algoLinks ok).1 hp
    obtain ⟨n', d', m', g1, g2, g3, g4, g5, g6⟩ := ok.shows_dir e f h1
    have hqd := (ok.mem_ports _ _ _).1 (mem_portsIn.1 hq).2
    rw [← h2, g2] at hqd
    have hd : d' = .incoming := by simpa [Direction.reverse] using hqd.2
    subst hd
    have hpm : p ∈ G.algoIn.ports m' .outgoing := by
      rw [← h3]; exact mem_portsIn.2 ⟨g6, (ok.mem_ports _ _ _).2 ⟨g4, g5⟩⟩
    refine ⟨m', hall m' (links_arc ok hq hp' hpm), hpm, ?_⟩
    have := (shows_free ok hfree h1).2
    rw [h3] at this
    simpa [boundaryFilter] using this

/-- What `port_ordering` promises. -/
structure OResult (G : GView E) (B : Boundary) (O : Ordering) : Prop where
  len : O.reachable.length = B.inputs.length ∧ O.reaching.length = B.outputs.length
  cons : O.Consistent
  ord : ∀ i o, O.Has i o ↔ ∃ p q, p ∈ B.inputs ∧ q ∈ B.outputs ∧ findPort B.inputs p = some i ∧ findPort B.outputs q = some o ∧
    G.Leads p q

theorem OInv.result (ok : G.Ok) {B : Boundary} (hB : ∀ p ∈ B.ports, G.containsPort p = true)
    {S done : List Nat} {s : PState} (h : OInv G B S done s) (hd : ∀ q ∈ B.outputs, ∀ n, G.portNode q = some n → n ∈ done) :
    OResult G B s.ord := by
  refine ⟨h.len, h.cons, fun i o => ?_⟩
  rw [h.ord]
  constructor
  · rintro ⟨p, q, n, h1, h2, h3, h4, -, h5, m, h6, h7⟩
    exact ⟨p, q, h5, h1, h2, h3, m, n, h6, h4, h7⟩
  · rintro ⟨p, q, h1, h2, h3, h4, m, n, h5, h6, h7⟩
    exact ⟨p, q, n, h2, h3, h4, h6, hd q h2 n h6, h1, m, h5, h7⟩

theorem loop_ok (ok : G.Ok) (hs : G.SingleIn .outgoing) (hac : Acyclic G.Arc) {B : Boundary}
    (hB : ∀ p ∈ B.ports, G.containsPort p = true) (hfree : ∀ p ∈ B.ports, G.portLinks p = []) (fuel : Nat) :
    ∀ {S done : List Nat} {s : PState}, OInv G B S done s →
    G.nodes.length + (if s.added then 0 else 1) + 1 ≤ fuel + done.length →
    ∃ O, G.orderLoop B fuel s = some O ∧ OResult G B O := by
  have hbound : ∀ {S done : List Nat} {s : PState}, OInv G B S done s → (done ++ s.topo.cand).length ≤ G.nodes.length := by
    intro S done s h
    exact (List.Nodup.subperm h.topo.core.nodup fun n hn => (ok.mem_nodes n).2 (h.allIn n hn)).length_le
  have hempty : ∀ {S done : List Nat} {s : PState}, OInv G B S done s → (s.ins.isEmpty && s.outs.isEmpty) = true →
      OResult G B s.ord := by
    intro S done s h he
    simp only [Bool.and_eq_true, List.isEmpty_iff] at he
    refine h.result ok hB fun q hq n hn => ?_
    by_contra hnd
    have := (h.outs n).2 ⟨⟨q, hq, hn⟩, hnd⟩
    rw [he.2] at this; cases this
  induction fuel with
  | zero =>
    intro S done s h hf
    have := hbound h
    simp at this; omega
  | succ fuel ih =>
    intro S done s h hf
    have hcin : ∀ n ∈ s.topo.cand, G.containsNode n = true := fun n hn => h.allIn n (by simp [hn])
    unfold GView.orderLoop
    rw [next_in ok hcin]
    rcases Topo.next_ok (algoIn_wf ok) (algoIn_singleIn hs) h.topo with ⟨hc, hn⟩ | ⟨x, t, hx, hn, ht, l, hl⟩
    · rw [hn]
      simp only
      split
      · next he => exact ⟨_, rfl, hempty h he⟩
      · next he =>
        split
        · next ha =>
          exfalso
          apply he
          have hex := exhausted ok hs hac hB hfree h ha hc
          simp only [Bool.and_eq_true, List.isEmpty_iff, List.eq_nil_iff_forall_not_mem]
          constructor
          · intro n hn
            obtain ⟨⟨p, hp, hpn⟩, hnd⟩ := (h.ins n).1 hn
            exact hnd (hex n (.start (by simp [Boundary.ports, hp]) hpn))
          · intro n hn
            obtain ⟨⟨p, hp, hpn⟩, hnd⟩ := (h.outs n).1 hn
            exact hnd (hex n (.start (by simp [Boundary.ports, hp]) hpn))
        · next ha =>
          have hne : B.ports ≠ [] := by
            intro hnil
            apply he
            simp only [Bool.and_eq_true, List.isEmpty_iff, List.eq_nil_iff_forall_not_mem]
            have hnil' : ∀ p, p ∉ B.inputs ∧ p ∉ B.outputs := by
              intro p
              have : p ∉ B.ports := by rw [hnil]; simp
              simpa [Boundary.ports] using this
            constructor
            · intro n hn
              obtain ⟨⟨p, hp, -⟩, -⟩ := (h.ins n).1 hn
              exact (hnil' p).1 hp
            · intro n hn
              obtain ⟨⟨p, hp, -⟩, -⟩ := (h.outs n).1 hn
              exact (hnil' p).2 hp
          obtain ⟨l, hl, hlm, hlu⟩ := internal_up ok (singleIn_link ok hs) hB hfree hne
          rw [hl]
          simp only
          have hlc : ∀ n ∈ l.filter (fun n => decide ((G.neighbours n .incoming).length = 0)),
              G.containsNode n = true ∧ ∀ m, ¬ G.Arc m n := by
            intro n hn
            rw [List.mem_filter, decide_eq_true_eq] at hn
            have hc := (inner_port ok hB (hlm n hn.1)).1
            refine ⟨hc, fun m hm => ?_⟩
            have := (mem_neigh ok hc).1.2 hm
            rw [List.length_eq_zero_iff.1 hn.2] at this; cases this
          rw [addSources_in _ fun n hn => (hlc n hn).1]
          obtain ⟨A, a1, a2, -, a4⟩ := Topo.addSources_ok (algoIn_wf ok)
            (l.filter fun n => decide ((G.neighbours n .incoming).length = 0)) h.topo
          refine ih (S := S ++ A) (done := done) ⟨a2, ?_, h.ins, h.outs, h.reach, h.keep, h.len, h.cons, h.ord, ?_⟩ ?_
          · intro n hn
            rcases List.mem_append.1 hn with hn | hn
            · exact h.src n hn
            · exact hlc n (a1 n hn)
          · intro _ n hn hp
            have hnc := inner_port ok hB (up_inner ok hfree hn)
            refine a4 n ?_ rfl hnc.2
            rw [List.mem_filter, decide_eq_true_eq, List.length_eq_zero_iff, List.eq_nil_iff_forall_not_mem]
            exact ⟨hlu n hn, fun m hm => hp m ((mem_neigh ok hnc.1).1.1 hm)⟩
          · simp only [ha] at hf
            simp at hf ⊢
            omega
    · rw [hn]
      simp only
      have hxc : x ∈ s.topo.cand := List.mem_of_mem_head? hx
      obtain ⟨s', e1, h'⟩ := step_ok ok hfree h hxc ht (by
        intro y hy
        rcases List.mem_append.1 hy with hy | hy
        · simp [hy]
        · have : y ∈ x :: t.cand := by rw [← hl]; simp [hy]
          rcases List.mem_cons.1 this with h | h
          · simp [h]
          · simp [h])
      rw [e1]
      simp only
      split
      · next he => exact ⟨_, rfl, hempty h' he⟩
      · refine ih h' ?_
        have : s'.added = s.added := by
          unfold GView.orderStep at e1
          split at e1
          · cases e1
          · split at e1
            · cases e1
            · cases e1; rfl
        rw [this, List.length_append, List.length_singleton]
        omega

theorem mapM_nodes (ok : G.Ok) {ports : List Nat} (h : ∀ p ∈ ports, G.containsPort p = true) :
    ∃ ns, ports.mapM G.portNode = some ns ∧ ∀ n, n ∈ ns ↔ ∃ p ∈ ports, G.portNode p = some n := by
  induction ports with
  | nil => exact ⟨[], rfl, by simp⟩
  | cons p ports ih =>
    obtain ⟨ns, h1, h2⟩ := ih fun q hq => h q (by simp [hq])
    obtain ⟨n, h3, -⟩ := (ok.port_iff p).1 (h p (by simp))
    refine ⟨n :: ns, by simp [h1, h3], fun m => ?_⟩
    rw [List.mem_cons, h2]
    simp [h3, eq_comm]

/-- `port_ordering` of a boundary whose ports are not linked in an acyclic view. -/
theorem portOrdering_ok (ok : G.Ok) (hs : G.SingleIn .outgoing) (hac : Acyclic G.Arc) {B : Boundary}
    (hB : ∀ p ∈ B.ports, G.containsPort p = true) (hfree : ∀ p ∈ B.ports, G.portLinks p = []) :
    ∃ O, G.portOrdering B = some O ∧ OResult G B O := by
  obtain ⟨ins, h1, h2⟩ := mapM_nodes ok (ports := B.inputs) fun p hp => hB p (by simp [Boundary.ports, hp])
  obtain ⟨outs, h3, h4⟩ := mapM_nodes ok (ports := B.outputs) fun p hp => hB p (by simp [Boundary.ports, hp])
  unfold GView.portOrdering
  rw [h1, h3]
  simp only
  generalize hsrc : ((toSet ins).filter fun n => (G.ports n .incoming).all fun p =>
      B.ports.contains p || decide ((G.portLinks p).length = 0)) = S
  have hSin : ∀ n ∈ S, G.containsNode n = true ∧ ∀ m, ¬ G.Arc m n := by
    intro n hn
    rw [← hsrc, List.mem_filter, mem_toSet, h2] at hn
    obtain ⟨⟨p, hp, hpn⟩, hall⟩ := hn
    obtain ⟨n', g1, g2⟩ := (ok.port_iff p).1 (hB p (by simp [Boundary.ports, hp]))
    rw [hpn] at g1; cases g1
    refine ⟨g2, ?_⟩
    rintro m ⟨e, f, a1, a2, a3, a4⟩
    obtain ⟨n', d', m', g1, g2', g3, g4, g5, g6⟩ := ok.shows_dir e f a1
    unfold GView.On at a3 g4
    rw [a4] at g2'; cases g2'
    rw [List.all_eq_true] at hall
    have := hall (G.toPort f) ((ok.mem_ports _ _ _).2 ⟨a3, g5⟩)
    rw [Bool.or_eq_true, List.contains_iff_mem, decide_eq_true_eq] at this
    rcases this with this | this
    · exact (shows_free ok hfree a1).2 this
    · have hf := ok.shows_sym _ _ a1
      unfold GView.Shows at hf
      rw [List.length_eq_zero_iff.1 this] at hf; cases hf
  have hSnd : S.Nodup := by rw [← hsrc]; exact (toSet_nodup _).filter _
  rw [new_in fun n hn => (hSin n hn).1]
  have hT := Topo.new_ok (F := boundaryFilter B) (d := .outgoing) (dflt := false) (algoIn_wf ok) hSnd
  refine loop_ok ok hs hac hB hfree _ (S := S.filter (boundaryFilter B).node) (done := []) ⟨hT, ?_, ?_, ?_, ?_, ?_, ?_, ?_, ?_, ?_⟩ ?_
  · intro n hn; exact hSin n (List.mem_filter.1 hn).1
  · intro n; simp [mem_toSet, h2]
  · intro n; simp [mem_toSet, h4]
  · intro n k l h; cases h
  · intro n hn; cases hn
  · simp [Ordering.new]
  · intro i o
    simp only [Ordering.Has, Ordering.new, List.getElem?_replicate]
    constructor
    · rintro ⟨l, h, h'⟩; split at h <;> cases h; cases h'
    · rintro ⟨l, h, h'⟩; split at h <;> cases h; cases h'
  · intro i o
    simp only [Ordering.Has, Ordering.new, List.getElem?_replicate]
    constructor
    · rintro ⟨l, h, h'⟩; split at h <;> cases h; cases h'
    · rintro ⟨p, q, n, -, -, -, -, h, -⟩; cases h
  · intro h; cases h
  · simp

end Verif.View
