import Verif.Convex.LineBuild

/-!
# Properties of the convexity checker with line intervals
-/

namespace Verif.Convex

open Verif (Direction)
open Verif.PG
open Verif.Algo

/-- A partition of the links `R` between the nodes `V` into lines: each line is a path, each link is on
a line, each node is on a line, `getLines` are the lines of a node, and positions increase along
links. -/
structure LinePartition (R : Nat → Nat → Prop) (V : Nat → Prop) (c : Line) : Prop where
  path : ∀ (l : Nat) (line : List Nat), c.lines[l]? = some line → line.IsChain R
  mem : ∀ (l : Nat) (line : List Nat) n, c.lines[l]? = some line → (n ∈ line ↔ l ∈ c.getLines n)
  valid : ∀ n l, l ∈ c.getLines n → l < c.lines.length
  cover : ∀ a b, R a b → ∃ (l : Nat) (u v : List Nat), c.lines[l]? = some (u ++ a :: b :: v)
  nodes : ∀ n, V n → c.getLines n ≠ []
  nodup : ∀ n, (c.getLines n).Nodup
  forward : ∀ a b, R a b → c.getPos a < c.getPos b

theorem line_new {maxOff : Nat} (hmax : maxOff ≤ 32767) {g : PG} (hg : PG.Reach maxOff g)
    (hac : Acyclic (Arc g .outgoing)) :
    ∃ c, Line.new (ofPG g) = some c ∧ c.graph = ofPG g ∧ Line.Part c (Arc g .outgoing) (· ∈ (ofPG g).nodes) ∧
      Line.Wired (ofPG g) c := by
  have hI := hg.inv hmax
  obtain ⟨order, h1, h2⟩ := C31_new hmax hg hac
  have hR : VArc (ofPG g) .outgoing = Arc g .outgoing := by
    funext m n; exact propext (varc_iff hI)
  obtain ⟨c, h3, h4, h5, h6⟩ := Line.build_part (ofPG_wf hI) (Single.countSym (ofPG_wf hI) ofPG_single) h2.nodup
    (fun n => by rw [h2.mem, ofPG_nodes]) (fun m n hmn => h2.arcs m n ((varc_iff hI).1 hmn))
  rw [hR] at h5
  refine ⟨c, ?_, h4, h5, h6⟩
  unfold Line.new
  unfold Topo.new at h1
  split at h1
  · simp at h1
  · rename_i o x e
    simp only [Option.some.injEq] at h1
    have : o = order := congrArg Topo.order h1
    subst this
    rw [e]; exact h3

/-- On an acyclic graph `LineConvexChecker::new` partitions the graph into lines. -/
theorem C32_new {maxOff : Nat} (hmax : maxOff ≤ 32767) {g : PG} (hg : PG.Reach maxOff g)
    (hac : Acyclic (Arc g .outgoing)) : 
    ∃ c, Line.new (ofPG g) = some c ∧ LinePartition (Arc g .outgoing) (fun n => g.containsNode n = true) c := by
  obtain ⟨c, h1, _, h, _⟩ := line_new hmax hg hac
  exact ⟨c, h1, h.chain, h.mem, h.valid, h.arc, fun n hn => h.some_line n (ofPG_nodes.2 hn), h.nodup, h.fwd⟩

/-- On an acyclic graph, `is_node_convex(S)` holds exactly when no path between two nodes of `S`
leaves `S`, for any non-empty list of distinct nodes of the graph. -/
theorem C32_is_node_convex_partial {maxOff : Nat} (hmax : maxOff ≤ 32767) {g : PG} (hg : PG.Reach maxOff g)
    (hac : Acyclic (Arc g .outgoing)) {guess : Line.Guess} (hgs : guess.OK) {S : List Nat} (hne : S ≠ [])
    (hnd : S.Nodup) (hS : ∀ n ∈ S, g.containsNode n = true) :
    ∃ c r, Line.new (ofPG g) = some c ∧ c.isNodeConvex guess S = some r ∧ (r = true ↔ Convex (Arc g .outgoing) S) := by
  obtain ⟨c, h1, _, h, _⟩ := line_new hmax hg hac
  obtain ⟨r, h3, h4⟩ := Line.isNodeConvex_ok h hgs hnd (fun n hn => ofPG_nodes.2 (hS n hn)) hne
  exact ⟨c, r, h1, h3, h4⟩

/-- `is_convex(S, inputs, outputs)`, for input ports and output ports of nodes of `S`: it holds
exactly when every link on a path between two nodes of `S` is within the subgraph. -/
theorem C32_is_convex_partial {maxOff : Nat} (hmax : maxOff ≤ 32767) {g : PG} (hg : PG.Reach maxOff g)
    (hac : Acyclic (Arc g .outgoing)) {guess : Line.Guess} (hgs : guess.OK) {S inputs outputs : List Nat} (hne : S ≠ [])
    (hnd : S.Nodup) (hS : ∀ n ∈ S, g.containsNode n = true)
    (hin : ∀ p ∈ inputs, ∃ n ∈ S, p ∈ g.ports n .incoming)
    (hout : ∀ p ∈ outputs, ∃ n ∈ S, p ∈ g.ports n .outgoing) :
    ∃ c r, Line.new (ofPG g) = some c ∧ c.isConvex guess S inputs outputs = some r ∧
      (r = true ↔ PortConvex g S inputs outputs) := by
  have hI := hg.inv hmax
  obtain ⟨c, h1, h2, h, _⟩ := line_new hmax hg hac
  obtain ⟨r, h3, h4⟩ := Line.isNodeConvex_ok h hgs hnd (fun n hn => ofPG_nodes.2 (hS n hn)) hne
  have key := any_links (g := g) (inputs := inputs) (outputs := outputs)
  rw [portConvex_iff hI hin hout]
  unfold Line.isConvex
  by_cases hc : ∃ p ∈ outputs, ∃ q ∈ inputs, g.portLink? p = some (some q)
  · exact ⟨c, false, h1, by rw [h2]; exact if_pos (key.2 hc), by simp [hc]⟩
  · exact ⟨c, r, h1, by rw [h2]; exact (if_neg (fun h => hc (key.1 h))).trans h3, by
      rw [h4]; simp only [hc, not_false_eq_true, true_and]⟩

/-- The two checkers agree. -/
theorem C32_agrees_with_topo_partial {maxOff : Nat} (hmax : maxOff ≤ 32767) {g : PG} (hg : PG.Reach maxOff g)
    (hac : Acyclic (Arc g .outgoing)) {guess : Line.Guess} (hgs : guess.OK) {S inputs outputs : List Nat} (hne : S ≠ [])
    (hnd : S.Nodup) (hS : ∀ n ∈ S, g.containsNode n = true)
    (hin : ∀ p ∈ inputs, ∃ n ∈ S, p ∈ g.ports n .incoming)
    (hout : ∀ p ∈ outputs, ∃ n ∈ S, p ∈ g.ports n .outgoing) :
    ∃ c t, Line.new (ofPG g) = some c ∧ Topo.new (ofPG g) = some t ∧
      c.isConvex guess S inputs outputs = t.isConvex S inputs outputs := by
  obtain ⟨c, r, h1, h2, h3⟩ := C32_is_convex_partial hmax hg hac hgs hne hnd hS hin hout
  obtain ⟨t, r', h4, h5, h6⟩ := C31_is_convex hmax hg hac hS hin hout
  refine ⟨c, t, h1, h4, ?_⟩
  rw [h2, h5, Bool.eq_iff_iff.2 (h3.trans h6.symm)]

/-- The intervals `I` represent the nodes `S`: one interval for each line with a node of `S`, its
bounds being positions of nodes of `S`, so that the nodes of the line in the interval are those in `S`. -/
structure Represents (c : Line) (S : List Nat) (I : List Line.Interval) : Prop where
  lines : (I.map (·.line)).Nodup
  bounds : ∀ x ∈ I, (∃ n ∈ S, x.line ∈ c.getLines n ∧ c.getPos n = x.min) ∧
    ∃ n ∈ S, x.line ∈ c.getLines n ∧ c.getPos n = x.max
  inside : ∀ x ∈ I, ∀ n, x.line ∈ c.getLines n → (n ∈ S ↔ x.min ≤ c.getPos n ∧ c.getPos n ≤ x.max)
  all : ∀ n ∈ S, ∀ l ∈ c.getLines n, ∃ x ∈ I, x.line = l

/-- The nodes of `S` on each line are contiguous. -/
def Contiguous (c : Line) (S : List Nat) : Prop :=
  ∀ (l : Nat) (line : List Nat) (i j k : Nat) (a x b : Nat), c.lines[l]? = some line →
    line[i]? = some a → line[j]? = some x → line[k]? = some b → i ≤ j → j ≤ k → a ∈ S → b ∈ S → x ∈ S

theorem contiguous_iff {c : Line} {R : Nat → Nat → Prop} {V : Nat → Prop} (h : Line.Part c R V) {S : List Nat} :
    Line.Contig c S ↔ Contiguous c S := by
  have mono : ∀ {l : Nat} {line : List Nat} {i j a b : Nat}, c.lines[l]? = some line → line[i]? = some a →
      line[j]? = some b → (i ≤ j ↔ c.getPos a ≤ c.getPos b) := by
    intro l line i j a b hl hi hj
    have hinc := h.inc hl
    have := Line.inc_lt hinc hi hj
    omega
  constructor
  · intro hc l line i j k a x b hl hi hj hk hij hjk ha hb
    exact hc l a x b ((h.mem l line a hl).1 (List.mem_of_getElem? hi)) ((h.mem l line x hl).1 (List.mem_of_getElem? hj))
      ((h.mem l line b hl).1 (List.mem_of_getElem? hk)) ha hb ((mono hl hi hj).1 hij) ((mono hl hj hk).1 hjk)
  · intro hc l a b d hla hlb hld ha hd h5 h6
    obtain ⟨line, i, hl, hi⟩ := h.line hla
    obtain ⟨j, hj⟩ := List.mem_iff_getElem?.1 ((h.mem l line b hl).2 hlb)
    obtain ⟨k, hk⟩ := List.mem_iff_getElem?.1 ((h.mem l line d hl).2 hld)
    exact hc l line i j k a b d hl hi hj hk ((mono hl hi hj).2 h5) ((mono hl hj hk).2 h6) ha hd

theorem represents_iff {c : Line} {S : List Nat} {I : List Line.Interval} : Represents c S I ↔ Line.IOK c S I :=
  ⟨fun h => ⟨h.lines, fun x hx => (h.bounds x hx).1, fun x hx => (h.bounds x hx).2, h.inside, h.all⟩,
    fun h => ⟨h.keys, fun x hx => ⟨h.min_mem x hx, h.max_mem x hx⟩, h.mem, h.all⟩⟩

/-- On an acyclic graph, `get_intervals_from_nodes(S)` finds intervals exactly when the nodes of `S`
on each line are contiguous, and then they represent `S`. -/
theorem C32_intervals {maxOff : Nat} (hmax : maxOff ≤ 32767) {g : PG} (hg : PG.Reach maxOff g)
    (hac : Acyclic (Arc g .outgoing)) {guess : Line.Guess} (hgs : guess.OK) {S : List Nat} (hnd : S.Nodup) :
    ∃ c I, Line.new (ofPG g) = some c ∧ c.intervals guess S = some I ∧
      (I.isSome ↔ Contiguous c S) ∧ ∀ I', I = some I' → Represents c S I' := by
  obtain ⟨c, h1, _, h, _⟩ := line_new hmax hg hac
  obtain ⟨I, h2, h3, h4⟩ := Line.intervals_ok h hgs hnd
  refine ⟨c, I, h1, h2, ?_, fun I' e => represents_iff.2 (h4 I' e)⟩
  rw [← contiguous_iff h]
  cases I with
  | none => simp [h3]
  | some I => simp [(h4 I rfl).contig]

/-- The middle of the interval as interpolation. -/
def middle : Line.Guess := fun _ _ low high => (low + high) / 2

theorem middle_ok : middle.OK := by
  intro l pos low high h
  unfold middle; omega

/-- The empty set of nodes is convex, but `is_node_convex` panics. -/
theorem C32_witness_empty :
    ((Line.new (ofPG dagG)).map fun c => c.isNodeConvex middle []) = some none ∧
      Convex (Arc dagG .outgoing) [] := by
  refine ⟨by decide +kernel, ?_⟩
  intro s hs; simp at hs

/-- With a node given twice the answer is wrong. -/
theorem C32_witness_duplicate :
    ((Line.new (ofPG dagG)).map fun c => (c.isNodeConvex middle [0, 0], c.isNodeConvex middle [0])) =
      some (some false, some true) := by decide +kernel

-- the hypotheses of the theorems above are met
example : ∃ c r, Line.new (ofPG dagG) = some c ∧ c.isConvex middle [0, 1] [] (dagG.ports 1 .outgoing) = some r ∧
    (r = true ↔ PortConvex dagG [0, 1] [] (dagG.ports 1 .outgoing)) :=
  C32_is_convex_partial (by decide) dagG_reach dagG_acyclic middle_ok (by simp) (by decide) (by decide +kernel) (by simp)
    (fun p hp => ⟨1, by simp, hp⟩)
-- the diamond 0 → 1, 2 → 3 → 4 with the isolated node 5
example : (Line.new (ofPG dagG)).map (·.lines) = some [[0, 1, 3, 4], [0, 2, 3], [5]] := by decide +kernel
example : ((Line.new (ofPG dagG)).bind fun c => c.isNodeConvex middle [0, 1, 2, 3]) = some true := by decide +kernel
example : ((Line.new (ofPG dagG)).bind fun c => c.isNodeConvex middle [3, 1, 0]) = some false := by decide +kernel
example : ((Line.new (ofPG dagG)).bind fun c => c.isNodeConvex middle [0, 4]) = some false := by decide +kernel
example : ((Line.new (ofPG dagG)).bind fun c => c.isNodeConvex middle [1, 2, 5]) = some true := by decide +kernel

example : ((Line.new (ofPG dagG)).bind fun c => c.intervals middle [1, 3]) =
    some (some [⟨0, 1, 2⟩, ⟨1, 2, 2⟩]) := by decide +kernel
example : ((Line.new (ofPG dagG)).bind fun c => c.intervals middle [0, 3]) = some none := by decide +kernel

example := C32_new (by decide) dagG_reach dagG_acyclic

example := C32_is_node_convex_partial (by decide) dagG_reach dagG_acyclic middle_ok (S := [0, 1, 3]) (by decide) (by decide) (by decide +kernel)

example := C32_agrees_with_topo_partial (by decide) dagG_reach dagG_acyclic middle_ok (S := [1, 3]) (inputs := dagG.ports 3 .incoming)
  (outputs := dagG.ports 1 .outgoing) (by decide) (by decide) (by decide +kernel) (fun p hp => ⟨3, by simp, hp⟩) (fun p hp => ⟨1, by simp, hp⟩)

example := C32_intervals (by decide) dagG_reach dagG_acyclic middle_ok (S := [1, 3]) (by decide)

#print axioms C32_new
#print axioms C32_is_node_convex_partial
#print axioms C32_is_convex_partial
#print axioms C32_agrees_with_topo_partial
#print axioms C32_intervals
#print axioms C32_witness_empty
#print axioms C32_witness_duplicate

end Verif.Convex
