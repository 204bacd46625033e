import Verif.Algo.PostDfs
import Verif.Algo.TopoProps

/-!
# C28: `postorder` visits the reachable nodes once, children first
-/

namespace Verif.Algo

open Verif (Direction)
open Verif.PG

/-- An arc the filters let the traversal follow: both ports and the target node are accepted. -/
def FArc (g : PG) (F : Filter) (d : Direction) (n m : Nat) : Prop :=
  ∃ p ∈ g.ports n d, ∃ q, g.portLink? p = some (some q) ∧ g.portNode q = some m ∧
    F.port n p = true ∧ F.node m = true ∧ F.port m q = true

theorem ofPG_head {g : PG} {p q} : ((ofPG g).links p).head? = some q ↔ g.portLink? p = some (some q) := by
  simp only [ofPG]
  cases g.portLink? p with
  | none => simp
  | some x => cases x <;> simp

theorem ofPG_hport {g : PG} (hI : Inv g) {cap} (hcap : g.nodeMeta.length ≤ cap) (p q : Nat)
    (h : ((ofPG g).links p).head? = some q) : ∃ m, (ofPG g).portNode q = some m ∧ m < cap := by
  rw [ofPG_head] at h
  cases hp : g.port? p with
  | none => simp [PG.portLink?, hp] at h
  | some x =>
    obtain ⟨n, d⟩ := x
    rw [portLink?_eq hI (by simp [hp])] at h
    simp only [Option.some.injEq] at h
    obtain ⟨m, hm, _⟩ := lk_port hI hp h
    obtain ⟨mm, hmm, _⟩ := port_at hI hm
    exact ⟨m, by simp [ofPG, PG.portNode, hm], Nat.lt_of_lt_of_le (node?_lt hmm) hcap⟩

theorem farc_succs {g : PG} {F : Filter} {d : Direction} (n m : Nat) : FArc g F d n m ↔ m ∈ Post.succs (ofPG g) F d n := by
  simp only [Post.succs, List.mem_filterMap, FArc]
  apply exists_congr
  intro p
  apply and_congr Iff.rfl
  unfold Post.target
  constructor
  · rintro ⟨q, h1, h2, h3, h4, h5⟩
    have h1' := ofPG_head.2 h1
    have h2' : (ofPG g).portNode q = some m := h2
    simp [h3, h1', h2', h4, h5]
  · intro h
    split at h
    · next hp =>
      split at h
      · simp at h
      · next q hq =>
        split at h
        · simp at h
        · next m' hm' =>
          split at h
          · next hf =>
            simp only [Option.some.injEq] at h
            subst h
            simp only [Bool.and_eq_true] at hf
            exact ⟨q, ofPG_head.1 hq, hm', hp, hf.1, hf.2⟩
          · simp at h
    · simp at h

theorem farc_all {g : PG} (hI : Inv g) {d n m} : FArc g .all d n m ↔ Arc g d n m := by
  rw [← varc_iff hI]
  constructor
  · rintro ⟨p, hp, q, hq, hm, _⟩
    have hq' : q ∈ (ofPG g).links p := by simp [ofPG, hq]
    obtain ⟨m', hm'⟩ := (ofPG_wf hI).link_dir _ _ _ _ hp hq'
    have h2 := ((ofPG_wf hI).ports_node _ _ _ hm').1
    have : some m' = some m := h2.symm.trans hm
    cases this
    exact ⟨p, hp, q, hq', hm'⟩
  · rintro ⟨p, hp, q, hq, hm⟩
    refine ⟨p, hp, q, ?_, ((ofPG_wf hI).ports_node _ _ _ hm).1, rfl, rfl, rfl⟩
    simp only [ofPG] at hq
    cases h : g.portLink? p with
    | none => simp [h] at hq
    | some x => cases x <;> simp [h] at hq ⊢; exact hq.symm

/-- The traversal with filters, on any graph: it does not panic, yields exactly the nodes reached
from the accepted sources along accepted arcs, each once, and a successor comes before its
predecessor unless the predecessor can be reached back from it. -/
theorem C28_filtered {maxOff : Nat} (hmax : maxOff ≤ 32767) {g : PG} (hg : PG.Reach maxOff g) (F : Filter) (d : Direction)
    {cap : Nat} (hcap : g.nodeMeta.length ≤ cap) {S : List Nat} (hS : ∀ n ∈ S, n < cap) :
    ∃ l s, postorder (ofPG g) F d cap S = some (l, s) ∧ l.Nodup ∧
      (∀ n, n ∈ l ↔ ∃ r ∈ S, F.node r = true ∧ Relation.ReflTransGen (FArc g F d) r n) ∧
      (∀ n ∈ l, ∀ m, FArc g F d n m → Before l m n ∨ Relation.ReflTransGen (FArc g F d) m n) := by
  have hI := hg.inv hmax
  obtain ⟨l, s, h1, h2, h3, h4, _⟩ := postorder_ok (FArc g F d) farc_succs (ofPG_hport hI hcap) hS
  exact ⟨l, s, h1, h2, h3, h4⟩

example := C28_filtered (by decide) dagG_reach ⟨fun n => n != 2, fun _ p => p != 10⟩ .outgoing (cap := 8) (by decide) (S := [0, 0, 2]) (by decide)

/-- `postorder` on any graph and sources in it: exactly the reachable nodes, each once. -/
theorem C28_postorder {maxOff : Nat} (hmax : maxOff ≤ 32767) {g : PG} (hg : PG.Reach maxOff g) (d : Direction)
    {cap : Nat} (hcap : g.nodeMeta.length ≤ cap) {S : List Nat} (hS : ∀ n ∈ S, g.containsNode n = true) :
    ∃ l s, postorder (ofPG g) .all d cap S = some (l, s) ∧ l.Nodup ∧
      (∀ n, n ∈ l ↔ ∃ r ∈ S, Relation.ReflTransGen (Arc g d) r n) ∧
      (∀ n ∈ l, ∀ m, Arc g d n m → Before l m n ∨ Relation.ReflTransGen (Arc g d) m n) ∧
      ∃ hi, Post.sizeHint (ofPG g) s = some (0, hi) := by
  have hI := hg.inv hmax
  have hR : FArc g .all d = Arc g d := by funext n m; exact propext (farc_all hI)
  have hlive : ∀ n ∈ S, n < cap := by
    intro n hn
    obtain ⟨m, hm⟩ := Option.isSome_iff_exists.1 (hS n hn)
    exact Nat.lt_of_lt_of_le (node?_lt hm) hcap
  obtain ⟨l, s, h1, h2, h3, h4, h5⟩ := postorder_ok (FArc g .all d) farc_succs (ofPG_hport hI hcap) hlive
  rw [hR] at h3 h4
  refine ⟨l, s, h1, h2, fun n => (h3 n).trans ⟨fun ⟨r, a, _, b⟩ => ⟨r, a, b⟩, fun ⟨r, a, b⟩ => ⟨r, a, rfl, b⟩⟩, h4, (ofPG g).nodes.length - s.seen, ?_⟩
  rw [Post.sizeHint, if_pos]
  rw [h5]
  have hsub : ∀ n ∈ l, n ∈ (ofPG g).nodes := by
    intro n hn
    obtain ⟨r, hr, _, hp⟩ := (h3 n).1 hn
    cases hp with
    | refl => exact ofPG_nodes.2 (hS n hr)
    | tail _ h => exact (varc_nodes (ofPG_wf hI) ((varc_iff hI).2 h)).2
  exact (List.Nodup.subperm h2 hsub).length_le

/-- On an acyclic graph each node comes after all its successors. -/
theorem C28_acyclic {maxOff : Nat} (hmax : maxOff ≤ 32767) {g : PG} (hg : PG.Reach maxOff g) (d : Direction)
    {cap : Nat} (hcap : g.nodeMeta.length ≤ cap) {S : List Nat} (hS : ∀ n ∈ S, g.containsNode n = true)
    (hac : Acyclic (Arc g d)) :
    ∃ l s, postorder (ofPG g) .all d cap S = some (l, s) ∧ ∀ n ∈ l, ∀ m, Arc g d n m → Before l m n := by
  obtain ⟨l, s, h1, h2, h3, h4, _⟩ := C28_postorder hmax hg d hcap hS
  refine ⟨l, s, h1, fun n hn m hm => (h4 n hn m hm).resolve_right ?_⟩
  intro hc
  exact hac n (Relation.TransGen.head' hm hc)

/-- The successors of a node in the order of its ports, as far as the filters accept them. -/
def fsucc (g : PG) (F : Filter) (d : Direction) (n : Nat) : List Nat :=
  (g.ports n d).filterMap fun p => (g.portLink? p).join.bind fun q => (g.portNode q).bind fun m =>
    if F.port n p && F.node m && F.port m q then some m else none

/-- The order is exactly that of the recursive depth first search `Dfs` from the sources in their
order, following the ports in their order. -/
theorem C28_depth_first {maxOff : Nat} (hmax : maxOff ≤ 32767) {g : PG} (hg : PG.Reach maxOff g) (F : Filter) (d : Direction)
    {cap : Nat} (hcap : g.nodeMeta.length ≤ cap) {S : List Nat} (hS : ∀ n ∈ S, n < cap) :
    ∃ l s, postorder (ofPG g) F d cap S = some (l, s) ∧ Dfs (fsucc g F d) [] (S.filter F.node) l := by
  have hI := hg.inv hmax
  obtain ⟨l, s, h1, -⟩ := postorder_ok (FArc g F d) farc_succs (ofPG_hport hI hcap) hS
  have h2 := postorder_dfs (ofPG_hport hI hcap) h1
  refine ⟨l, s, h1, ?_⟩
  have : Post.succs (ofPG g) F d = fsucc g F d := by
    funext n
    simp only [Post.succs, fsucc, ofPG]
    congr 1
    funext p
    simp only [Post.target]
    cases F.port n p with
    | false =>
      simp only [Bool.false_eq_true, if_false, Bool.false_and]
      cases (g.portLink? p).join with
      | none => rfl
      | some q => cases h : g.portNode q <;> simp [h]
    | true =>
      simp only [if_true, Bool.true_and]
      cases h : (g.portLink? p).join with
      | none => simp
      | some q => cases h : g.portNode q <;> simp [h]
  rwa [this] at h2

example := C28_depth_first (by decide) exG_reach .all .outgoing (cap := 4) (by decide) (S := [3, 0]) (by decide)

/-- A source beyond the capacity panics. -/
theorem C28_witness_out_of_range : postorder (ofPG dagG) .all .outgoing 6 [0, 6] = none := by decide +kernel

/-! The hypotheses can be met: a diamond and a graph with a cycle, a self link and a filter. -/

example : (postorder (ofPG dagG) .all .outgoing 8 [0, 5]).map (·.1) = some [4, 3, 1, 2, 0, 5] := by decide +kernel
example : (postorder (ofPG dagG) .all .incoming 8 [4]).map (·.1) = some [0, 1, 2, 3, 4] := by decide +kernel
example : (postorder (ofPG exG) .all .outgoing 4 [0]).map (·.1) = some [1, 0] := by decide +kernel
example : (postorder (ofPG dagG) ⟨fun n => n != 2, fun _ p => p != 10⟩ .outgoing 8 [0, 0, 2]).map (·.1) =
    some [3, 1, 0] := by decide +kernel
example := C28_postorder (by decide) exG_reach .outgoing (cap := 9) (by decide) (S := [0, 3]) (by decide)

#print axioms C28_filtered
#print axioms C28_postorder
#print axioms C28_acyclic
#print axioms C28_depth_first
#print axioms C28_witness_out_of_range

end Verif.Algo
