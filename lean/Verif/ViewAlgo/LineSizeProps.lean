import Verif.ViewAlgo.LineProps
import Verif.ViewAlgo.LineSizeSpec

/-!
# C83: positions and number of the lines

For every view whose queries describe one graph (`GView.Ok`), if it has no cycle and each incoming
port has at most one link. Full statement: the same for any number of links per port. It is false,
since `new` panics, see `C54_witness_panic_multi`.
-/

namespace Verif.View

open Verif (Direction)
open Verif.Algo Verif.Convex

variable {E : Type} {G : GView E}

theorem chain_pos {R : Nat → Nat → Prop} {pos : Nat → Nat} (h : ∀ a b, R a b → pos a < pos b) (path : List Nat) :
    path.IsChain R → ∀ n, path.getLast? = some n → path.length ≤ pos n + 1 := by
  induction path using List.reverseRecOn with
  | nil => intro _ n h; simp at h
  | append_singleton l a ih =>
    intro hc n hn
    rw [List.isChain_append] at hc
    obtain ⟨h1, -, h2⟩ := hc
    rw [List.getLast?_append] at hn
    simp only [List.getLast?_singleton, Option.some_or, Option.some.injEq] at hn
    subst hn
    cases hl : l.getLast? with
    | none =>
      rw [List.getLast?_eq_none_iff] at hl
      subst hl; simp
    | some m =>
      have h3 := ih h1 m hl
      have h4 := h _ _ (h2 m (by rw [hl]; rfl) a (by simp))
      simp only [List.length_append, List.length_singleton]
      omega

theorem path_to {R : Nat → Nat → Prop} {pos : Nat → Nat} {V : Nat → Prop} (hV : ∀ a b, R a b → V a)
    (h : ∀ n, V n → pos n = 0 ∨ ∃ m, R m n ∧ pos n = pos m + 1) (k : Nat) : ∀ n, V n → pos n = k →
    ∃ path : List Nat, path.IsChain R ∧ path.getLast? = some n ∧ path.length = k + 1 ∧ ∀ x ∈ path, V x := by
  induction k with
  | zero => intro n hn _; exact ⟨[n], by simp, by simp, by simp, by simpa using hn⟩
  | succ k ih =>
    intro n hn hk
    rcases h n hn with h0 | ⟨m, h1, h2⟩
    · omega
    · obtain ⟨path, g1, g2, g3, g4⟩ := ih m (hV _ _ h1) (by omega)
      refine ⟨path ++ [n], ?_, by simp, by simp [g3], ?_⟩
      · rw [List.isChain_append]
        refine ⟨g1, by simp, ?_⟩
        intro x hx y hy
        rw [g2] at hx
        simp only [Option.mem_def, Option.some.injEq, List.head?_cons] at hx hy
        subst hx hy; exact h1
      · intro x hx
        rcases List.mem_append.1 hx with hx | hx
        · exact g4 x hx
        · rw [List.mem_singleton.1 hx]; exact hn

/-- The position of a node on its lines is the length of the longest path to the node. -/
theorem C83_positions_partial (ok : G.Ok) (hs : G.SingleIn .outgoing) (hac : Acyclic (G.ArcD .outgoing)) {c : Line}
    (hc : Line.new G.algo = some c) {n : Nat} (hn : G.containsNode n = true) :
    LongestTo (G.ArcD .outgoing) n (c.getPos n) := by
  obtain ⟨-, h, hw⟩ := line_of_new ok hs hac hc
  have ht := hw.tight
  rw [varc_eq ok] at ht
  obtain ⟨path, h1, h2, h3, -⟩ := path_to (pos := c.getPos) (V := fun n => G.containsNode n = true) (fun a b hab => (h.live a b hab).1)
    (fun n hn => ht n ((ok.mem_nodes n).2 hn)) _ n hn rfl
  exact ⟨⟨path, h1, h2, h3⟩, fun path hp hl => chain_pos h.fwd path hp n hl⟩

/-- A position is smaller than the number of nodes. -/
theorem C83_position_lt_partial (ok : G.Ok) (hs : G.SingleIn .outgoing) (hac : Acyclic (G.ArcD .outgoing)) {c : Line}
    (hc : Line.new G.algo = some c) {n : Nat} (hn : G.containsNode n = true) : c.getPos n < G.nodeCount := by
  obtain ⟨-, h, hw⟩ := line_of_new ok hs hac hc
  have ht := hw.tight
  rw [varc_eq ok] at ht
  obtain ⟨path, h1, h2, h3, h4⟩ := path_to (pos := c.getPos) (V := fun n => G.containsNode n = true) (fun a b hab => (h.live a b hab).1)
    (fun n hn => ht n ((ok.mem_nodes n).2 hn)) _ n hn rfl
  have hnd : path.Nodup := (Line.chain_pairwise (R' := fun a b => c.getPos a < c.getPos b) (fun _ _ _ => Nat.lt_trans)
    (h1.imp fun {a b} hab => h.fwd a b hab)).imp fun hab e => by rw [e] at hab; exact Nat.lt_irrefl _ hab
  have := (hnd.subperm fun x hx => (ok.mem_nodes x).2 (h4 x hx)).length_le
  rw [ok.node_count]; omega

theorem lk_length (ok : G.Ok) {n : Nat} (hn : G.containsNode n = true) (d : Direction) :
    (lk G.algoIn n d).length = (G.links n d).length := by
  unfold lk
  rw [portsIn_eq hn, ok.links_eq, List.length_flatMap, List.length_flatMap]
  congr 1
  apply List.map_congr_left
  intro p _
  rw [List.length_map]
  exact List.length_map _

/-- A node is on as many lines as it has links on the side with more links, and at least on one. -/
theorem C83_lines_of_node_partial (ok : G.Ok) (hs : G.SingleIn .outgoing) (hac : Acyclic (G.ArcD .outgoing)) {c : Line}
    (hc : Line.new G.algo = some c) {n : Nat} (hn : G.containsNode n = true) :
    (c.getLines n).length = max 1 (max (G.links n .incoming).length (G.links n .outgoing).length) := by
  obtain ⟨-, h, hw⟩ := line_of_new ok hs hac hc
  rw [hw.lenEq n ((ok.mem_nodes n).2 hn), lk_length ok hn, lk_length ok hn]

/-- The number of lines that start at a node. -/
def GView.starting (G : GView E) (n : Nat) : Nat :=
  max 1 (max (G.links n .incoming).length (G.links n .outgoing).length) - (G.links n .incoming).length

theorem lines_length (ok : G.Ok) (hs : G.SingleIn .outgoing) (hac : Acyclic (G.ArcD .outgoing)) {c : Line}
    (hc : Line.new G.algo = some c) : c.lines.length = (G.nodes.map G.starting).sum := by
  obtain ⟨-, h, hw⟩ := line_of_new ok hs hac hc
  obtain ⟨order, h1, h2, h3⟩ := hw.total
  have hp : order.Perm G.nodes := (List.perm_ext_iff_of_nodup h1 ok.nodes_nodup).2 h2
  rw [h3, (hp.map _).sum_nat]
  congr 1
  apply List.map_congr_left
  intro n hn
  have hn' := (ok.mem_nodes n).1 hn
  rw [C83_lines_of_node_partial ok hs hac hc hn', lk_length ok hn']
  rfl

theorem sum_add {α : Type} (f g : α → Nat) (l : List α) : (l.map fun x => f x + g x).sum = (l.map f).sum + (l.map g).sum := by
  induction l with
  | nil => rfl
  | cons a l ih => simp only [List.map_cons, List.sum_cons, ih]; omega

theorem sum_le {α : Type} {f g : α → Nat} {l : List α} (h : ∀ x ∈ l, f x ≤ g x) : (l.map f).sum ≤ (l.map g).sum := by
  induction l with
  | nil => exact Nat.le_refl _
  | cons a l ih =>
    simp only [List.map_cons, List.sum_cons]
    have h1 := h a (by simp)
    have h2 := ih fun x hx => h x (by simp [hx])
    omega

theorem sum_const {α : Type} (k : Nat) (l : List α) : (l.map fun _ => k).sum = l.length * k := by
  induction l with
  | nil => simp
  | cons a l ih => simp only [List.map_cons, List.sum_cons, ih, List.length_cons, Nat.succ_mul]; omega

/-- There are at most as many lines as nodes and links together. -/
theorem C83_line_count_partial (ok : G.Ok) (hcount : G.CountOk) (hs : G.SingleIn .outgoing) (hac : Acyclic (G.ArcD .outgoing)) {c : Line}
    (hc : Line.new G.algo = some c) : c.lines.length ≤ G.nodeCount + G.linkCount := by
  rw [lines_length ok hs hac hc, ok.node_count, ok.countOk_iff.1 hcount]
  unfold GView.outLinks
  rw [List.length_flatMap]
  have h1 := sum_le (l := G.nodes) (f := G.starting) (g := fun n => 1 + (G.links n .outgoing).length) fun n _ => by
    unfold GView.starting; omega
  rw [sum_add, sum_const] at h1
  omega

theorem countPairs {c : Line} {ns : List Nat} (hnd : ns.Nodup) (hline : ∀ (l : Nat) (line : List Nat), c.lines[l]? = some line → line.Nodup)
    (hmem : ∀ (l : Nat) (line : List Nat) n, c.lines[l]? = some line → (n ∈ line ↔ l ∈ c.getLines n))
    (hin : ∀ (l : Nat) (line : List Nat) n, c.lines[l]? = some line → n ∈ line → n ∈ ns)
    (hvalid : ∀ n l, l ∈ c.getLines n → l < c.lines.length) (hls : ∀ n, (c.getLines n).Nodup) :
    (c.lines.map List.length).sum = (ns.map fun n => (c.getLines n).length).sum := by
  have key : ((List.range c.lines.length).flatMap fun l => (c.lines.getD l []).map fun n => (n, l)).Perm
      (ns.flatMap fun n => (c.getLines n).map fun l => (n, l)) := by
    rw [List.perm_ext_iff_of_nodup]
    · rintro ⟨n, l⟩
      simp only [List.mem_flatMap, List.mem_range, List.mem_map, Prod.mk.injEq]
      constructor
      · rintro ⟨l', h1, n', h2, rfl, rfl⟩
        have h3 : c.lines[l']? = some (c.lines.getD l' []) := by
          rw [List.getElem?_eq_getElem h1, List.getD_eq_getElem?_getD, List.getElem?_eq_getElem h1]; rfl
        exact ⟨n', hin _ _ _ h3 h2, l', (hmem _ _ _ h3).1 h2, rfl, rfl⟩
      · rintro ⟨n', h1, l', h2, rfl, rfl⟩
        have h1 := hvalid _ _ h2
        have h3 : c.lines[l']? = some (c.lines.getD l' []) := by
          rw [List.getElem?_eq_getElem h1, List.getD_eq_getElem?_getD, List.getElem?_eq_getElem h1]; rfl
        exact ⟨l', h1, n', (hmem _ _ _ h3).2 h2, rfl, rfl⟩
    · rw [List.nodup_flatMap]
      refine ⟨fun l hl => ?_, List.nodup_range.imp ?_⟩
      · have h1 := List.mem_range.1 hl
        have h3 : c.lines[l]? = some (c.lines.getD l []) := by
          rw [List.getElem?_eq_getElem h1, List.getD_eq_getElem?_getD, List.getElem?_eq_getElem h1]; rfl
        exact (hline _ _ h3).map fun a b h => (Prod.mk.inj h).1
      · intro a b hab
        simp only [Function.onFun, List.disjoint_left, List.mem_map]
        rintro ⟨n, l⟩ ⟨_, _, h1⟩ ⟨_, _, h2⟩
        exact hab ((Prod.mk.inj h1).2.trans (Prod.mk.inj h2).2.symm)
    · rw [List.nodup_flatMap]
      refine ⟨fun n _ => (hls n).map fun a b h => (Prod.mk.inj h).2, hnd.imp ?_⟩
      intro a b hab
      simp only [Function.onFun, List.disjoint_left, List.mem_map]
      rintro ⟨n, l⟩ ⟨_, _, h1⟩ ⟨_, _, h2⟩
      exact hab ((Prod.mk.inj h1).1.trans (Prod.mk.inj h2).1.symm)
  have h := key.length_eq
  rw [List.length_flatMap, List.length_flatMap] at h
  simp only [List.length_map] at h
  rw [← h]
  congr 1
  apply List.ext_getElem
  · simp
  · intro i h1 h2
    simp only [List.length_map] at h1
    simp [List.getD_eq_getElem?_getD, List.getElem?_eq_getElem h1]

/-- The lines together have one step for each link: the sum of their lengths is the number of links
and lines. -/
theorem C83_size_partial (ok : G.Ok) (hcount : G.CountOk) (hs : G.SingleIn .outgoing) (hac : Acyclic (G.ArcD .outgoing)) {c : Line}
    (hc : Line.new G.algo = some c) : (c.lines.map List.length).sum = G.linkCount + c.lines.length := by
  obtain ⟨-, h, hw⟩ := line_of_new ok hs hac hc
  have hin : ∀ (l : Nat) (line : List Nat) n, c.lines[l]? = some line → n ∈ line → n ∈ G.nodes := by
    intro l line n h1 h2
    have h3 := (h.mem l line n h1).1 h2
    exact hw.live n (List.ne_nil_of_mem h3)
  rw [countPairs ok.nodes_nodup (fun l line hl => (h.inc hl).imp fun hab e => by rw [e] at hab; exact Nat.lt_irrefl _ hab)
    h.mem hin h.valid h.nodup, lines_length ok hs hac hc, ok.countOk_iff.1 hcount, ← ok.in_length, List.length_flatMap, ← sum_add]
  congr 1
  apply List.map_congr_left
  intro n hn
  rw [C83_lines_of_node_partial ok hs hac hc ((ok.mem_nodes n).1 hn)]
  unfold GView.starting
  omega

/-! ## The lines are paths which partition the links -/

/-- The link into `m` on the line `l`. -/
def GView.linkAt (G : GView E) (c : Line) (l m : Nat) : Option (E × E) :=
  (((G.links m .incoming).zip (c.getLines m)).find? fun x => x.2 == l).map fun x => x.1.swap

theorem lk_links (ok : G.Ok) {n : Nat} (hn : G.containsNode n = true) (d : Direction) :
    lk G.algoIn n d = (G.links n d).map fun l => (G.toPort l.1, G.toPort l.2) := by
  unfold lk
  rw [portsIn_eq hn, ok.links_eq, List.map_flatMap]
  apply List.flatMap_congr
  intro p _
  show ((G.portLinks p).map _).map _ = _
  rw [List.map_map]
  apply List.map_congr_left
  rintro ⟨e, f⟩ hef
  simp only [Function.comp_apply]
  rw [ok.from_port p e f hef]

theorem linkAt_ok (ok : G.Ok) {c : Line} (h : Line.Part c (G.ArcD .outgoing) (fun n => G.containsNode n = true))
    (hw : Line.Wired G.algoIn c) {l n m : Nat} {u v : List Nat} (hl : c.lines[l]? = some (u ++ n :: m :: v)) :
    ∃ e f, G.linkAt c l m = some (e, f) ∧ ((f, e), l) ∈ (G.links m .incoming).zip (c.getLines m) ∧ G.Shows e f ∧ G.On e n ∧ G.On f m ∧
      G.portDirection (G.toPort e) = some .outgoing := by
  have hm : m ∈ G.nodes := hw.live m (List.ne_nil_of_mem ((h.mem l _ m hl).1 (by simp)))
  have hm' := (ok.mem_nodes m).1 hm
  obtain ⟨x, hx⟩ := hw.prev m hm l (u ++ [n]) v (by rw [hl]; simp) (by simp)
  unfold Line.onLine at hx
  rw [lk_links ok hm'] at hx
  obtain ⟨y, -, hy⟩ := (Line.mem_zip_map _).1 hx
  obtain ⟨⟨⟨f, e⟩, l'⟩, hz⟩ : ∃ z, ((G.links m .incoming).zip (c.getLines m)).find? (fun x => x.2 == l) = some z := by
    rw [← Option.isSome_iff_exists, List.find?_isSome]
    exact ⟨_, hy, by simp⟩
  have hz1 := List.find?_some hz
  simp only [beq_iff_eq] at hz1
  subst hz1
  have hz2 := List.mem_of_find?_eq_some hz
  have hin : ((G.toPort f, G.toPort e), l') ∈ Line.onLine G.algoIn c m .incoming := by
    unfold Line.onLine
    rw [lk_links ok hm']
    exact (Line.mem_zip_map _).2 ⟨(f, e), rfl, hz2⟩
  obtain ⟨n', hn', ⟨q', hq'⟩, u', v', hl'⟩ := hw.inc m hm _ _ _ hin
  have hnn : n' = n := by
    rw [hl] at hl'
    have e1 := Option.some.inj hl'
    have hnd : (u ++ n :: m :: v).Nodup := (h.inc hl).imp fun hab e => by rw [e] at hab; exact Nat.lt_irrefl _ hab
    have e2 : (u ++ [n]) ++ m :: v = (u' ++ [n']) ++ m :: v' := by simpa using e1
    have hnd1 : ((u ++ [n]) ++ m :: v).Nodup := by simpa using hnd
    have hnd2 : ((u' ++ [n']) ++ m :: v').Nodup := by rw [← e2]; exact hnd1
    have i1 : ((u ++ [n]) ++ m :: v).idxOf m = (u ++ [n]).length := by
      rw [List.idxOf_append_of_notMem (fun hc => (List.nodup_append.1 hnd1).2.2 m hc m (by simp) rfl)]; simp
    have i2 : ((u ++ [n]) ++ m :: v).idxOf m = (u' ++ [n']).length := by
      rw [e2, List.idxOf_append_of_notMem (fun hc => (List.nodup_append.1 hnd2).2.2 m hc m (by simp) rfl)]; simp
    have e3 := (List.append_inj e2 (by omega)).1
    have := (List.append_inj' e3 rfl).2
    simpa using this.symm
  subst hnn
  have hp := (mem_lk.1 (List.of_mem_zip hq').1).1
  rw [portsIn_eq ((ok.mem_nodes n').1 hn')] at hp
  obtain ⟨h1, h2⟩ := (ok.mem_ports _ _ _).1 hp
  obtain ⟨h3, h4, -⟩ := ok.mem_links.1 (List.of_mem_zip hz2).1
  refine ⟨e, f, ?_, hz2, ok.shows_sym _ _ h3, h1, h4, h2⟩
  unfold GView.linkAt
  rw [hz]; rfl

theorem trail_ok (ok : G.Ok) {c : Line} (h : Line.Part c (G.ArcD .outgoing) (fun n => G.containsNode n = true))
    (hw : Line.Wired G.algoIn c) {l : Nat} (w : List Nat) : ∀ (n : Nat) (u : List Nat), c.lines[l]? = some (u ++ n :: w) →
    G.Trail n (w.filterMap (G.linkAt c l)) ∧
      (w.filterMap (G.linkAt c l)).filterMap (fun x => G.portNode (G.toPort x.2)) = w := by
  induction w with
  | nil => intro n u _; exact ⟨trivial, rfl⟩
  | cons m w ih =>
    intro n u hl
    obtain ⟨e, f, h1, -, -, h2, h3, -⟩ := linkAt_ok ok h hw hl
    obtain ⟨h4, h5⟩ := ih m (u ++ [n]) (by rw [hl]; simp)
    rw [List.filterMap_cons_some h1]
    refine ⟨⟨h2, m, h3, h4⟩, ?_⟩
    unfold GView.On at h3
    rw [List.filterMap_cons_some (b := m) (by exact h3), h5]

/-- The path of a line. -/
def GView.pathOf (G : GView E) (c : Line) (l : Nat) : Nat × List (E × E) :=
  ((c.lines.getD l []).headD 0, (c.lines.getD l []).tail.filterMap (G.linkAt c l))

theorem getD_line {c : Line} {l : Nat} (hl : l < c.lines.length) : c.lines[l]? = some (c.lines.getD l []) := by
  rw [List.getElem?_eq_getElem hl, List.getD_eq_getElem?_getD, List.getElem?_eq_getElem hl]; rfl

theorem pathOf_ok (ok : G.Ok) {c : Line} (h : Line.Part c (G.ArcD .outgoing) (fun n => G.containsNode n = true))
    (hw : Line.Wired G.algoIn c) {l : Nat} (hl : l < c.lines.length) :
    G.Trail (G.pathOf c l).1 (G.pathOf c l).2 ∧ G.visits (G.pathOf c l) = c.lines.getD l [] := by
  have h1 := getD_line hl
  have h2 := hw.ne l _ h1
  unfold GView.pathOf GView.visits
  generalize c.lines.getD l [] = line at h1 h2
  cases line with
  | nil => exact absurd rfl h2
  | cons n w =>
    obtain ⟨h3, h4⟩ := trail_ok ok h hw w n [] h1
    exact ⟨h3, by simp only [List.tail_cons, List.headD_cons]; rw [h4]⟩

theorem mem_pathOf (ok : G.Ok) {c : Line} (h : Line.Part c (G.ArcD .outgoing) (fun n => G.containsNode n = true))
    (hw : Line.Wired G.algoIn c) {l : Nat} (hl : l < c.lines.length) {e f : E} : (e, f) ∈ (G.pathOf c l).2 ↔
      ∃ m ∈ (c.lines.getD l []).tail, G.On f m ∧ ((f, e), l) ∈ (G.links m .incoming).zip (c.getLines m) := by
  have h1 := getD_line hl
  unfold GView.pathOf
  generalize c.lines.getD l [] = line at h1
  have key : ∀ m ∈ line.tail, ∃ n u v, c.lines[l]? = some (u ++ n :: m :: v) := by
    intro m hm
    cases line with
    | nil => simp at hm
    | cons a w =>
      obtain ⟨s, t, rfl⟩ := List.append_of_mem (show m ∈ w from hm)
      rcases List.eq_nil_or_concat s with rfl | ⟨s', b, rfl⟩
      · exact ⟨a, [], t, by rw [h1]; rfl⟩
      · exact ⟨b, a :: s', t, by rw [h1]; simp⟩
  simp only [List.mem_filterMap]
  constructor
  · rintro ⟨m, hm, h2⟩
    obtain ⟨n, u, v, hl⟩ := key m hm
    obtain ⟨e', f', h3, h4, -, -, h5, -⟩ := linkAt_ok ok h hw hl
    rw [h2] at h3
    cases h3
    exact ⟨m, hm, h5, h4⟩
  · rintro ⟨m, hm, h2, h3⟩
    obtain ⟨n, u, v, hl⟩ := key m hm
    obtain ⟨e', f', h4, h5, -⟩ := linkAt_ok ok h hw hl
    have := Line.zip_inj (h.nodup m) h3 h5
    cases this
    exact ⟨m, hm, h4⟩

theorem zip_inj_left {α : Type} {a : List α} {b : List Nat} (ha : a.Nodup) {x : α} {k l : Nat} (hx : (x, k) ∈ a.zip b)
    (hy : (x, l) ∈ a.zip b) : k = l := by
  obtain ⟨i, hi, ei⟩ := List.mem_iff_getElem.1 hx
  obtain ⟨j, hj, ej⟩ := List.mem_iff_getElem.1 hy
  rw [List.getElem_zip] at ei ej
  rw [List.length_zip] at hi hj
  obtain ⟨e1, e2⟩ := Prod.mk.inj ei
  obtain ⟨e3, e4⟩ := Prod.mk.inj ej
  have := (List.Nodup.getElem_inj_iff ha (hi := by omega) (hj := by omega)).1 (e1.trans e3.symm)
  subst this
  exact e2.symm.trans e4

/-- The lines are paths, and partition the links: every link is on exactly one of them. -/
theorem C83_paths_partial (ok : G.Ok) (hs : G.SingleIn .outgoing) (hac : Acyclic (G.ArcD .outgoing)) {c : Line}
    (hc : Line.new G.algo = some c) : ∃ P, G.IntoPaths P ∧ P.map G.visits = c.lines := by
  obtain ⟨-, h, hw⟩ := line_of_new ok hs hac hc
  have hvis : ((List.range c.lines.length).map (G.pathOf c)).map G.visits = c.lines := by
    rw [List.map_map]
    apply List.ext_getElem?
    intro l
    by_cases hl : l < c.lines.length
    · rw [List.getElem?_map, List.getElem?_range hl, getD_line hl]
      exact congrArg some (pathOf_ok ok h hw hl).2
    · rw [List.getElem?_eq_none (by simpa using hl), List.getElem?_eq_none (by simpa using hl)]
  refine ⟨(List.range c.lines.length).map (G.pathOf c), ⟨?_, ⟨?_, ?_⟩, ?_⟩, hvis⟩
  · intro x hx
    obtain ⟨l, hl, rfl⟩ := List.mem_map.1 hx
    exact (pathOf_ok ok h hw (List.mem_range.1 hl)).1
  · rw [List.flatMap_map, List.nodup_flatMap]
    constructor
    · intro l hl
      have hl := List.mem_range.1 hl
      have h1 := getD_line hl
      have hnd : (c.lines.getD l []).Nodup := (h.inc h1).imp fun hab e => by rw [e] at hab; exact Nat.lt_irrefl _ hab
      have h2 := (pathOf_ok ok h hw hl).2
      have h3 : ((G.pathOf c l).2.filterMap fun x => G.portNode (G.toPort x.2)).Nodup := by
        rw [← h2] at hnd
        exact (List.nodup_cons.1 hnd).2
      have h4 : ∀ x ∈ (G.pathOf c l).2, ∃ m, G.portNode (G.toPort x.2) = some m := by
        rintro ⟨e, f⟩ hx
        obtain ⟨m, -, hm, -⟩ := (mem_pathOf ok h hw hl).1 hx
        exact ⟨m, hm⟩
      clear h2
      generalize (G.pathOf c l).2 = L at h3 h4
      induction L with
      | nil => exact .nil
      | cons x L ih =>
        obtain ⟨m, hm⟩ := h4 x (by simp)
        rw [List.filterMap_cons_some (f := fun x : E × E => G.portNode (G.toPort x.2)) hm, List.nodup_cons] at h3
        refine List.nodup_cons.2 ⟨fun hx => h3.1 (List.mem_filterMap.2 ⟨x, hx, hm⟩), ih h3.2 fun y hy => h4 y (by simp [hy])⟩
    · refine (List.pairwise_lt_range (n := c.lines.length)).imp_of_mem ?_
      intro a b ha hb hab
      simp only [Function.onFun, List.disjoint_left]
      rintro ⟨e, f⟩ h1 h2
      obtain ⟨m, -, g1, g2⟩ := (mem_pathOf ok h hw (List.mem_range.1 ha)).1 h1
      obtain ⟨m', -, g3, g4⟩ := (mem_pathOf ok h hw (List.mem_range.1 hb)).1 h2
      unfold GView.On at g1 g3
      rw [g1] at g3
      cases g3
      have := zip_inj_left (ok.links_nodup' m .incoming) g2 g4
      omega
  · intro e f
    rw [List.flatMap_map, List.mem_flatMap]
    constructor
    · rintro ⟨l, hl, h1⟩
      obtain ⟨m, hm, -, h3⟩ := (mem_pathOf ok h hw (List.mem_range.1 hl)).1 h1
      obtain ⟨h4, h5, h6⟩ := ok.mem_links.1 (List.of_mem_zip h3).1
      obtain ⟨_, d, _, -, h7, -, -, h8, -⟩ := ok.shows_dir _ _ h4
      rw [h6] at h7; simp only [Option.some.injEq] at h7; subst h7
      exact ⟨ok.shows_sym _ _ h4, h8⟩
    · rintro ⟨h1, h2⟩
      obtain ⟨n, d, m, -, h3, -, h4, h5, h6⟩ := ok.shows_dir _ _ h1
      rw [h2] at h3; simp only [Option.some.injEq] at h3; subst h3
      have hm := (ok.mem_nodes m).2 h6
      have h7 : (f, e) ∈ G.links m .incoming := ok.mem_links.2 ⟨ok.shows_sym _ _ h1, h4, h5⟩
      obtain ⟨k, hk, ek⟩ := List.mem_iff_getElem.1 h7
      have hlen := hw.len m hm .incoming
      rw [lk_length ok h6] at hlen
      have hz : ((f, e), (c.getLines m)[k]) ∈ (G.links m .incoming).zip (c.getLines m) :=
        List.mem_iff_getElem.2 ⟨k, by rw [List.length_zip]; omega, by rw [List.getElem_zip, ek]⟩
      have hl := h.valid m _ (List.of_mem_zip hz).2
      have hin : ((G.toPort f, G.toPort e), (c.getLines m)[k]) ∈ Line.onLine G.algoIn c m .incoming := by
        unfold Line.onLine
        rw [lk_links ok h6]
        exact (Line.mem_zip_map _).2 ⟨(f, e), rfl, hz⟩
      obtain ⟨n', -, -, u, v, huv⟩ := hw.inc m hm _ _ _ hin
      refine ⟨_, List.mem_range.2 hl, (mem_pathOf ok h hw hl).2 ⟨m, ?_, h4, hz⟩⟩
      rw [getD_line hl] at huv
      rw [Option.some.inj huv]
      cases u <;> simp
  · intro n hn
    obtain ⟨l, hl⟩ := List.exists_mem_of_ne_nil _ (h.some_line n hn)
    have hlt := h.valid n l hl
    refine ⟨_, List.mem_map.2 ⟨l, List.mem_range.2 hlt, rfl⟩, ?_⟩
    have h1 : n ∈ G.visits (G.pathOf c l) := by
      rw [(pathOf_ok ok h hw hlt).2]
      exact (h.mem l _ n (getD_line hlt)).2 hl
    unfold GView.visits at h1
    rcases List.mem_cons.1 h1 with h1 | h1
    · exact .inl h1.symm
    · obtain ⟨x, hx, h2⟩ := List.mem_filterMap.1 h1
      exact .inr ⟨x, hx, h2⟩

/-! ## No partition into paths has fewer paths -/

/-- The source of the link is `n`, as a test. -/
def GView.srcIs (G : GView E) (n : Nat) (l : E × E) : Bool := decide (G.portNode (G.toPort l.1) = some n)

/-- The target of the link is `n`, as a test. -/
def GView.dstIs (G : GView E) (n : Nat) (l : E × E) : Bool := decide (G.portNode (G.toPort l.2) = some n)

theorem trail_count {n : Nat} : ∀ {ls : List (E × E)} {s : Nat}, G.Trail s ls →
    ls.countP (G.srcIs n) ≤ ls.countP (G.dstIs n) + (if s = n then 1 else 0) := by
  intro ls
  induction ls with
  | nil => intro s _; simp
  | cons l ls ih =>
    obtain ⟨e, f⟩ := l
    rintro s ⟨h1, m, h2, h3⟩
    have := ih h3
    unfold GView.On at h1 h2
    rw [List.countP_cons, List.countP_cons]
    simp only [GView.srcIs, GView.dstIs, h1, h2, Option.some.injEq, decide_eq_true_eq] at this ⊢
    split at this <;> split <;> omega

theorem paths_count {P : List (Nat × List (E × E))} (h : ∀ x ∈ P, G.Trail x.1 x.2) (n : Nat) :
    (P.flatMap (·.2)).countP (G.srcIs n) ≤ (P.flatMap (·.2)).countP (G.dstIs n) + P.countP (fun x => decide (x.1 = n)) := by
  induction P with
  | nil => simp
  | cons x P ih =>
    have h1 := ih fun y hy => h y (by simp [hy])
    have h2 := trail_count (n := n) (h x (by simp))
    simp only [List.flatMap_cons, List.countP_append, List.countP_cons, decide_eq_true_eq]
    omega

theorem count_starts {P : List (Nat × List (E × E))} {ns : List Nat} (hnd : ns.Nodup) :
    (ns.map fun n => P.countP (fun x => decide (x.1 = n))).sum ≤ P.length := by
  induction P with
  | nil => simp
  | cons x P ih =>
    have h1 : (ns.map fun n => (if x.1 = n then 1 else 0)).sum ≤ 1 := by
      clear ih
      induction ns with
      | nil => simp
      | cons a ns ih =>
        obtain ⟨h1, h2⟩ := List.nodup_cons.1 hnd
        simp only [List.map_cons, List.sum_cons]
        split
        · next e =>
          have : (ns.map fun n => (if x.1 = n then 1 else 0)).sum = (ns.map fun _ => 0).sum := by
            congr 1
            apply List.map_congr_left
            intro b hb
            rw [if_neg]
            rintro rfl
            exact h1 (e ▸ hb)
          rw [this, sum_const]; omega
        · have := ih h2; omega
    simp only [List.countP_cons, decide_eq_true_eq]
    rw [sum_add, List.length_cons]
    omega

theorem countP_links (ok : G.Ok) {L : List (E × E)} (hL : G.ListsLinks L) (n : Nat) :
    L.countP (G.srcIs n) = (G.links n .outgoing).length ∧ L.countP (G.dstIs n) = (G.links n .incoming).length := by
  rw [List.countP_eq_length_filter, List.countP_eq_length_filter]
  constructor
  · apply List.Perm.length_eq
    rw [List.perm_ext_iff_of_nodup (hL.nodup.filter _) (ok.links_nodup' n _)]
    rintro ⟨e, f⟩
    rw [List.mem_filter, hL.mem, ok.mem_links]
    simp only [GView.srcIs, GView.On, decide_eq_true_eq]
    constructor
    · rintro ⟨⟨h1, h2⟩, h3⟩; exact ⟨h1, h3, h2⟩
    · rintro ⟨h1, h3, h2⟩; exact ⟨⟨h1, h2⟩, h3⟩
  · have hinj : Function.Injective (Prod.swap : E × E → E × E) := Prod.swap_injective
    rw [← List.length_map (f := Prod.swap)]
    apply List.Perm.length_eq
    rw [List.perm_ext_iff_of_nodup ((hL.nodup.filter _).map hinj) (ok.links_nodup' n _)]
    rintro ⟨e, f⟩
    rw [List.mem_map, ok.mem_links]
    constructor
    · rintro ⟨⟨a, b⟩, h1, h2⟩
      simp only [Prod.swap_prod_mk, Prod.mk.injEq] at h2
      obtain ⟨rfl, rfl⟩ := h2
      rw [List.mem_filter, hL.mem] at h1
      simp only [GView.dstIs, decide_eq_true_eq] at h1
      obtain ⟨⟨h1, h2⟩, h3⟩ := h1
      obtain ⟨_, d, _, -, h5, -, -, h6, -⟩ := ok.shows_dir _ _ h1
      rw [h2] at h5; simp only [Option.some.injEq] at h5; subst h5
      exact ⟨ok.shows_sym _ _ h1, h3, h6⟩
    · rintro ⟨h1, h3, h2⟩
      refine ⟨(f, e), ?_, rfl⟩
      rw [List.mem_filter, hL.mem]
      simp only [GView.dstIs, decide_eq_true_eq]
      obtain ⟨_, d, _, -, h5, -, -, h6, -⟩ := ok.shows_dir _ _ h1
      rw [h2] at h5; simp only [Option.some.injEq] at h5; subst h5
      exact ⟨⟨ok.shows_sym _ _ h1, h6⟩, h3⟩

/-- No partition of the links into paths has fewer paths than the line partition has lines. -/
theorem C83_minimal_partial (ok : G.Ok) (hs : G.SingleIn .outgoing) (hac : Acyclic (G.ArcD .outgoing)) {c : Line}
    (hc : Line.new G.algo = some c) {P : List (Nat × List (E × E))} (hP : G.IntoPaths P) : c.lines.length ≤ P.length := by
  rw [lines_length ok hs hac hc]
  refine Nat.le_trans (sum_le fun n hn => ?_) (count_starts ok.nodes_nodup)
  have hn' := (ok.mem_nodes n).1 hn
  obtain ⟨h1, h2⟩ := countP_links ok hP.links n
  have h3 := paths_count hP.trail n
  rw [h1, h2] at h3
  unfold GView.starting
  by_cases h0 : (G.links n .incoming).length = 0
  · have : 1 ≤ P.countP (fun x => decide (x.1 = n)) := by
      obtain ⟨x, hx, h4⟩ := hP.nodes n hn'
      rw [Nat.one_le_iff_ne_zero, ne_eq, List.countP_eq_zero]
      intro hno
      rcases h4 with h4 | ⟨l, hl, h4⟩
      · exact hno x hx (by simpa using h4)
      · rw [h0, List.countP_eq_zero] at h2
        exact h2 l (List.mem_flatMap.2 ⟨x, hx, hl⟩) (by unfold GView.On at h4; simp [GView.dstIs, h4])
    omega
  · omega

/-! ## Where the comments fail -/

/-- Two nodes with three links between them. -/
def tripleG : PG.PG := (PG.PG.run 32766 PG.PG.empty [.addNode 0 3, .addNode 3 0, .linkPorts 0 3, .linkPorts 1 4, .linkPorts 2 5]).getD PG.PG.empty

/-- **C83 fails** for the comment on `LineIndex` ("the number of lines is always smaller than the
total number of nodes"): there are three lines and two nodes. -/
theorem C83_witness_lines : tripleG.nodeCount = 2 ∧
    (Line.new (ofPG tripleG 2 6).algo).map (·.lines) = some [[0, 1], [0, 1], [0, 1]] := by decide +kernel

/-! The hypotheses can be met. -/

/-- A partition of the five links and the isolated node of `exV` into paths. -/
theorem exV_paths : exV.IntoPaths [(0, [(0, 2), (3, 6)]), (0, [(1, 4), (5, 7), (9, 10)]), (5, []), (2, [])] := by
  refine ⟨?_, ?_, ?_⟩
  · intro x hx
    simp only [List.mem_cons, List.not_mem_nil, or_false] at hx
    rcases hx with rfl | rfl | rfl | rfl
    · exact ⟨by show _ = _; decide +kernel, 1, by show _ = _; decide +kernel, by show _ = _; decide +kernel, 3,
        by show _ = _; decide +kernel, trivial⟩
    · exact ⟨by show _ = _; decide +kernel, 2, by show _ = _; decide +kernel, by show _ = _; decide +kernel, 3,
        by show _ = _; decide +kernel, by show _ = _; decide +kernel, 4, by show _ = _; decide +kernel, trivial⟩
    · trivial
    · trivial
  · have h := exV_ok.1.outLinks_lists
    have hp : ([(0, 2), (3, 6), (1, 4), (5, 7), (9, 10)] : List (Nat × Nat)).Perm exV.outLinks := by decide +kernel
    exact ⟨(hp.nodup_iff).2 h.nodup, fun e f => by rw [← h.mem, ← hp.mem_iff]; rfl⟩
  · intro n hn
    have key : ∀ n ∈ exV.nodes, n = 0 ∨ n = 1 ∨ n = 2 ∨ n = 3 ∨ n = 4 ∨ n = 5 := by decide +kernel
    rcases key n ((exV_ok.1.mem_nodes n).2 hn) with rfl | rfl | rfl | rfl | rfl | rfl
    · exact ⟨_, .head _, .inl rfl⟩
    · exact ⟨_, .head _, .inr ⟨(0, 2), by simp, by show _ = _; decide +kernel⟩⟩
    · exact ⟨(2, []), by simp, .inl rfl⟩
    · exact ⟨_, .head _, .inr ⟨(3, 6), by simp, by show _ = _; decide +kernel⟩⟩
    · exact ⟨_, .tail _ (.head _), .inr ⟨(9, 10), by simp, by show _ = _; decide +kernel⟩⟩
    · exact ⟨(5, []), by simp, .inl rfl⟩

example := C83_minimal_partial exV_ok.1 (singleIn_of_single exV_ok.2.2.2.2 _) exV_acyclicD exVC_new exV_paths
example := C83_size_partial exV_ok.1 exV_ok.2.1 (singleIn_of_single exV_ok.2.2.2.2 _) exV_acyclicD exVC_new
example := C83_paths_partial (Multi.ofMG_ok fanM_ok 8 8) fanM_singleIn fanM_acyclic fanC_new
example := C83_line_count_partial exV_ok.1 exV_ok.2.1 (singleIn_of_single exV_ok.2.2.2.2 _) exV_acyclicD exVC_new
example := C83_positions_partial exV_ok.1 (singleIn_of_single exV_ok.2.2.2.2 _) exV_acyclicD exVC_new (n := 4) (by decide +kernel)
example := C83_position_lt_partial (Multi.ofMG_ok fanM_ok 8 8) fanM_singleIn fanM_acyclic fanC_new (n := 2) (by decide +kernel)
example := C83_lines_of_node_partial (Multi.ofMG_ok fanM_ok 8 8) fanM_singleIn fanM_acyclic fanC_new (n := 0) (by decide +kernel)
example := C83_size_partial (Multi.ofMG_ok fanM_ok 8 8) (Multi.ofMG_count fanM_ok 8 8) fanM_singleIn fanM_acyclic fanC_new
example : exVC.lines = [[0, 1, 3, 4], [0, 2, 3], [5]] ∧ exVC.getPos 4 = 3 ∧ exVC.getLines 0 = [0, 1] := by decide +kernel

#print axioms C83_positions_partial
#print axioms C83_position_lt_partial
#print axioms C83_lines_of_node_partial
#print axioms C83_line_count_partial
#print axioms C83_paths_partial
#print axioms C83_size_partial
#print axioms C83_minimal_partial
#print axioms C83_witness_lines

end Verif.View
