import Verif.Lca.Query
import Verif.Hierarchy.Props

/-!
# Lowest common ancestors (C30)

`Anc K a n` says that `a` is `n` or above it in the forest with child lists `K`
(`Verif/Hierarchy/Spec.lean`). The structure is built from a graph with node list `nodes` and a
hierarchy made by any history of calls. A node is `Covered` if the root of its tree is a node of
the graph.
-/

namespace Verif.Lca

open Verif.Hier

/-- The root of the tree of `n` is a node of the graph. -/
def Covered (nodes : List Nat) (h : Hierarchy) (n : Nat) : Prop := ∃ r ∈ nodes, h.isRoot r = true ∧ Anc h.kids r n

theorem tree_of_reach {h : Hierarchy} (hr : Reach h) : Tree h.kids h.parent h.fuel where
  forest := hr.inv.1.forest
  par_iff n p := hr.inv.1.repr.parent_iff
  pos := by simp [Hierarchy.fuel]
  depth x := by
    have key : ∀ k x y, up h.parent k x = some y → x ∈ level h.kids y k := by
      intro k
      induction k with
      | zero => intro x y h; simp [up] at h; simp [level, h]
      | succ k ih =>
        intro x y hu
        simp only [up] at hu
        cases hp : h.parent x with
        | none => rw [hp] at hu; cases hu
        | some p =>
          rw [hp] at hu
          exact List.mem_flatMap.2 ⟨p, ih p y hu, hr.inv.1.repr.parent_iff.1 hp⟩
    cases hu : up h.parent h.fuel x with
    | none => rfl
    | some y =>
      have := key _ _ _ hu
      rw [level_empty hr.inv.1] at this
      simp at this

theorem tree_size {h : Hierarchy} (hr : Reach h) (n : Nat) (L : List Nat) (hnd : L.Nodup)
    (hL : ∀ x ∈ L, Anc h.kids n x) : L.length ≤ h.fuel := by
  have h1 : (L.filter (· ≠ n)).length ≤ h.data.data.length := by
    refine length_le_of_nodup_lt (hnd.filter _) ?_
    intro x hx
    rw [List.mem_filter] at hx
    have := hL x hx.1
    cases this with
    | refl => simp at hx
    | step _ hm => exact hr.inv.1.lt_of_mem hm
  have h2 : L ⊆ n :: L.filter (· ≠ n) := by
    intro x hx
    by_cases h : x = n
    · simp [h]
    · exact List.mem_cons_of_mem _ (List.mem_filter.2 ⟨hx, by simpa using h⟩)
  have h3 := (hnd.subperm h2).length_le
  simp only [List.length_cons] at h3
  simp only [Hierarchy.fuel]
  omega

theorem new_ok {h : Hierarchy} (hr : Reach h) {nodes : List Nat} (hnd : nodes.Nodup) :
    ∃ s, new nodes h = some s ∧ Good h.kids h.parent (Covered nodes h) s := by
  have T := tree_of_reach hr
  have hroot : ∀ n, h.isRoot n = true ↔ h.parent n = none := by
    intro n; simp [Hierarchy.isRoot, Hierarchy.parent, Option.isNone_iff_eq_none]
  obtain ⟨L, s, t, h1, h2, h3⟩ := roots_ok T (Nat.le_of_lt (lt_two_pow _)) (tree_size hr) hroot ⟨fun _ => 0, fun _ => 0, fun _ => []⟩ (fun _ => rfl)
    nodes [] (by simpa using hnd) [] _ 0 (Done.nil _ _ _ _) (by simp)
  have hc : ∀ x, Covered nodes h x ↔ x ∈ L := by
    intro x; rw [h3]; simp [Covered, hroot]
  refine ⟨s, by simp [new, h1], ?_, ?_, ?_⟩
  · intro x y hx hy
    rw [h2.nest x ((hc x).1 hx) y ((hc y).1 hy)]
    simp [LCA.isAncestor]
  · intro x hx; exact h2.climb x ((hc x).1 hx)
  · rintro x y ⟨r, r1, r2, r3⟩ hy
    refine ⟨r, r1, r2, ?_⟩
    rcases T.anc_total r3 hy with h | h
    · exact h
    · rw [T.anc_root ((hroot r).1 r2) h]; exact .refl _

/-- **C30** For every hierarchy made by any history of calls and every graph containing the roots
of the trees of `a` and `b`: `LCA::new` and the queries do not panic and end; `is_ancestor` is
exact; `root` is the root of the tree; and `lca` is a common ancestor below all other common
ancestors, or `None` if there is none. -/
theorem C30_lca {h : Hierarchy} (hr : Reach h) {nodes : List Nat} (hnd : nodes.Nodup) :
    ∃ s, new nodes h = some s ∧ ∀ a b, Covered nodes h a → Covered nodes h b →
      (s.isAncestor a b = true ↔ Anc h.kids a b) ∧
      (∃ r, s.root h.fuel a = some r ∧ h.isRoot r = true ∧ Anc h.kids r a) ∧
      ∃ o, s.lca h.fuel a b = some o ∧
        (∀ c, o = some c → Anc h.kids c a ∧ Anc h.kids c b ∧ ∀ d, Anc h.kids d a → Anc h.kids d b → Anc h.kids d c) ∧
        (o = none → ∀ c, ¬ (Anc h.kids c a ∧ Anc h.kids c b)) := by
  obtain ⟨s, h1, G⟩ := new_ok hr hnd
  have T := tree_of_reach hr
  refine ⟨s, h1, fun a b ha hb => ⟨G.anc a b ha hb, ?_, lca_ok T G ha hb⟩⟩
  obtain ⟨r, r1, r2, r3⟩ := root_ok T G h.fuel a ha (T.depth a)
  exact ⟨r, r1, by simpa [Hierarchy.isRoot, Option.isNone_iff_eq_none] using r2, r3⟩

/-- **C30** Stated with depths: no common ancestor is further from the root of its tree than the
answer. -/
theorem C30_deepest {h : Hierarchy} (hr : Reach h) {nodes : List Nat} (hnd : nodes.Nodup) {s : LCA}
    (hs : new nodes h = some s) {a b c d r i j : Nat} (ha : Covered nodes h a) (hb : Covered nodes h b)
    (hc : s.lca h.fuel a b = some (some c)) (hd1 : Anc h.kids d a) (hd2 : Anc h.kids d b)
    (hi : d ∈ level h.kids r i) (hj : c ∈ level h.kids r j) : i ≤ j := by
  obtain ⟨s', h1, h2⟩ := C30_lca hr hnd
  rw [hs] at h1; cases h1
  obtain ⟨-, -, o, ho, h3, -⟩ := h2 a b ha hb
  rw [hc] at ho; cases ho
  obtain ⟨-, -, h5⟩ := h3 c rfl
  have hdc := h5 d hd1 hd2
  -- descend from `d` to `c`
  have key : ∀ x, Anc h.kids d x → ∃ k, x ∈ level h.kids r (i + k) := by
    intro x hx
    induction hx with
    | refl => exact ⟨0, hi⟩
    | step _ hm ih =>
      obtain ⟨k, hk⟩ := ih
      exact ⟨k + 1, List.mem_flatMap.2 ⟨_, hk, hm⟩⟩
  obtain ⟨k, hk⟩ := key c hdc
  have := level_unique hr.inv.1.forest hk hj
  omega

/-- Two trees: 0 with the chain 1, 2, 3, 4, 5 below it and 6 below 2; and 7 with 8. -/
def lcaOps : List Op :=
  [.pushChild 1 0, .pushChild 2 1, .pushChild 3 2, .pushChild 4 3, .pushChild 5 4, .pushFrontChild 6 2, .pushChild 8 7]

def lcaH : Hierarchy := ((runOps .new lcaOps).getD ([], .new)).2

theorem lcaH_reach : Reach lcaH :=
  runOps_reach (ops := lcaOps) (h' := lcaH) (rs := List.replicate 7 (.ok none)) .new
    (by intro op hop; simp [lcaOps] at hop; rcases hop with rfl | rfl | rfl | rfl | rfl | rfl | rfl <;> simp [Op.ok]) rfl

def lcaS : LCA := (new (List.range 10) lcaH).getD ⟨fun _ => 0, fun _ => 0, fun _ => []⟩

example : new (List.range 10) lcaH = some lcaS := by
  obtain ⟨s, h, -⟩ := C30_lca lcaH_reach (nodes := List.range 10) (by decide)
  simp [lcaS, h]

example : Covered (List.range 10) lcaH 5 ∧ Covered (List.range 10) lcaH 6 :=
  ⟨⟨0, by decide, by decide, .step (.step (.step (.step (.step (.refl _) (by decide : 1 ∈ lcaH.kids 0)) (by decide : 2 ∈ lcaH.kids 1))
      (by decide : 3 ∈ lcaH.kids 2)) (by decide : 4 ∈ lcaH.kids 3)) (by decide : 5 ∈ lcaH.kids 4)⟩,
   ⟨0, by decide, by decide, .step (.step (.step (.refl _) (by decide : 1 ∈ lcaH.kids 0)) (by decide : 2 ∈ lcaH.kids 1))
      (by decide : 6 ∈ lcaH.kids 2)⟩⟩

example : lcaS.lca lcaH.fuel 5 6 = some (some 2) ∧ lcaS.lca lcaH.fuel 5 8 = some none ∧
    lcaS.lca lcaH.fuel 1 5 = some (some 1) ∧ lcaS.isAncestor 2 5 = true ∧ lcaS.isAncestor 5 2 = false ∧
    lcaS.root lcaH.fuel 5 = some 0 ∧ lcaS.root lcaH.fuel 9 = some 9 := by decide +kernel

/-- The condition on the roots is needed: if the root 7 is not a node of the graph, then the query
claims that 0 is above 8. -/
theorem C30_witness_not_covered : ∃ s, new (List.range 7) lcaH = some s ∧ s.lca lcaH.fuel 0 8 = some (some 0) ∧
    ¬ Anc lcaH.kids 0 8 := by
  obtain ⟨s, h1, -⟩ := C30_lca lcaH_reach (nodes := List.range 7) (by decide)
  refine ⟨s, h1, ?_, ?_⟩
  · have : ((new (List.range 7) lcaH).map fun s => s.lca lcaH.fuel 0 8) = some (some (some 0)) := by decide +kernel
    rw [h1] at this
    simpa using this
  · intro hc
    have h7 : lcaH.parent 8 = some 7 := by decide
    have T := tree_of_reach lcaH_reach
    have : Anc lcaH.kids 7 8 := .step (.refl _) (by decide : 8 ∈ lcaH.kids 7)
    have := T.root_unique (r := 0) (r' := 7) (by decide) (by decide) hc this
    cases this

end Verif.Lca

#print axioms Verif.Lca.C30_lca
#print axioms Verif.Lca.C30_deepest
#print axioms Verif.Lca.C30_witness_not_covered
