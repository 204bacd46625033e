import Verif.Equality.Built
import Verif.Hierarchy.Props
import Verif.Secondary.Props
import Verif.View.Cache
import Verif.PortGraph.Example

/-!
# C62: equality
-/

namespace Verif.Equality

open Verif (Direction)
open Verif.Hier Verif.PG

/-! ## Hierarchies -/

/-- **C62** Two hierarchies are equal for `==` exactly if every node has the same list of children in
both, whatever happened before. Missing for the full claim: histories that push a node under itself
(see C23). -/
theorem C62_hierarchy_partial {a b : Hierarchy} (ha : Hier.Reach a) (hb : Hier.Reach b) :
    eqHierarchy a b = true ↔ a.kids = b.kids := by
  obtain ⟨va, -⟩ := ha.inv
  obtain ⟨vb, -⟩ := hb.inv
  unfold eqHierarchy
  rw [Secondary.C21_dense_eq]
  constructor
  · rintro ⟨-, h⟩
    have hg : a.get = b.get := funext h
    have := kids_eq (h := a) (K := b.kids) (by rw [hg]; exact vb.repr)
    exact this
  · intro h
    refine ⟨va.dflt.trans vb.dflt.symm, fun n => ?_⟩
    have ra := va.repr
    have rb := vb.repr
    rw [← h] at rb
    have key : (a.get n).parent = (b.get n).parent ∧ (a.get n).prev = (b.get n).prev ∧ (a.get n).next = (b.get n).next := by
      by_cases hn : ∃ p, n ∈ a.kids p
      · obtain ⟨p, hp⟩ := hn
        obtain ⟨l1, l2, hl⟩ := List.append_of_mem hp
        obtain ⟨h1, h2, h3⟩ := ra.sib p l1 n l2 hl
        obtain ⟨k1, k2, k3⟩ := rb.sib p l1 n l2 hl
        exact ⟨h1.trans k1.symm, h2.trans k2.symm, h3.trans k3.symm⟩
      · have hn : ∀ p, n ∉ a.kids p := fun p hp => hn ⟨p, hp⟩
        obtain ⟨h1, h2, h3⟩ := ra.root n hn
        obtain ⟨k1, k2, k3⟩ := rb.root n hn
        exact ⟨h1.trans k1.symm, h2.trans k2.symm, h3.trans k3.symm⟩
    exact NodeData.ext' ((ra.first n).trans (rb.first n).symm) ((ra.last n).trans (rb.last n).symm)
      ((ra.count n).trans (rb.count n).symm) key.1 key.2.1 key.2.2

/-- **C62** Equal hierarchies stay equal: the same calls give the same results and equal hierarchies. -/
theorem C62_hierarchy_calls_partial {a b : Hierarchy} (ha : Hier.Reach a) (hb : Hier.Reach b) (he : eqHierarchy a b = true)
    {op : Hier.Op} (hop : op.ok) : (a.step op = none ∧ b.step op = none) ∨
      ∃ r a' b', a.step op = some (r, a') ∧ b.step op = some (r, b') ∧ eqHierarchy a' b' = true := by
  have hk := (C62_hierarchy_partial ha hb).1 he
  obtain ⟨a1, a2⟩ := C24_calls_partial ha hop
  obtain ⟨b1, b2⟩ := C24_calls_partial hb hop
  rw [← hk] at b1 b2
  cases hs : spec a.kids op with
  | none => exact .inl ⟨a1 hs, b1 hs⟩
  | some x =>
    obtain ⟨a', e1, k1⟩ := a2 x.1 x.2 hs
    obtain ⟨b', e2, k2⟩ := b2 x.1 x.2 hs
    exact .inr ⟨x.1, a', b', e1, e2, (C62_hierarchy_partial (.step ha hop e1) (.step hb hop e2)).2 (k1.trans k2.symm)⟩

/-- A hierarchy after some detours and the same one built directly. -/
def detour : Option (List Res × Hierarchy) :=
  runOps .new [.pushChild 5 6, .pushChild 2 0, .pushFrontChild 1 0, .remove 5, .detach 2, .pushChild 2 0]

/-- The same forest without detours. -/
def direct : Option (List Res × Hierarchy) := runOps .new [.pushChild 1 0, .pushChild 2 0]

example : (detour.map fun x => x.2.kids 0) = some [1, 2] ∧ (direct.map fun x => x.2.kids 0) = some [1, 2] ∧
    (match detour, direct with
      | some x, some y => eqHierarchy x.2 y.2 && decide (x.2.data.data.length ≠ y.2.data.data.length)
      | _, _ => false) = true := by decide +kernel

/-! ## Graphs -/

/-- **C62** Two graphs without unused slots (see `C62_compacted_partial` and `C62_built`) are equal for
`==` exactly if they have the same nodes, ports and links. -/
theorem C62_packed_partial {maxOff : Nat} (hmax : maxOff ≤ 32767) {a b : PG} (ha : PG.Reach maxOff a) (hb : PG.Reach maxOff b)
    (pa : Packed a) (pb : Packed b) : eqGraph a b = true ↔ SameShape a b := by
  unfold eqGraph
  rw [decide_eq_true_eq]
  constructor
  · rintro rfl
    exact ⟨fun _ => rfl, fun _ _ _ => rfl, fun _ => rfl⟩
  · exact pa.ext (ha.inv hmax) (hb.inv hmax) pb

/-- **C62** After `compact_nodes` and `compact_ports`, graphs are equal for `==` exactly if they have
the same nodes, ports and links. -/
theorem C62_compacted_partial {maxOff : Nat} (hmax : maxOff ≤ 32767) {a b : PG} (ha : PG.Reach maxOff a) (hb : PG.Reach maxOff b)
    (ea : ∀ n, a.numPorts n .incoming + a.numPorts n .outgoing = 0 → a.nodePortCapacity n = 0)
    (eb : ∀ n, b.numPorts n .incoming + b.numPorts n .outgoing = 0 → b.nodePortCapacity n = 0) :
    ∃ a' b', ((a.compactNodes).bind fun x => (x.1.compactPorts).map (·.1)) = some a' ∧
      ((b.compactNodes).bind fun x => (x.1.compactPorts).map (·.1)) = some b' ∧
      PG.Reach maxOff a' ∧ PG.Reach maxOff b' ∧ (eqGraph a' b' = true ↔ SameShape a' b') := by
  have key : ∀ a : PG, PG.Reach maxOff a →
      (∀ n, a.numPorts n .incoming + a.numPorts n .outgoing = 0 → a.nodePortCapacity n = 0) →
      ∃ a', ((a.compactNodes).bind fun x => (x.1.compactPorts).map (·.1)) = some a' ∧ PG.Reach maxOff a' ∧ Packed a' := by
    intro a ha ea
    obtain ⟨g1, h1, h2, h3, -, -, h6, h7, -, h9, h10⟩ := compactNodes_ok (ha.inv hmax)
    have hr1 : PG.Reach maxOff g1 := .step (op := .compactNodes) ha trivial (by simp [PG.step, h1])
    have he1 : ∀ n m, g1.node? n = some m → m.incoming + m.outgoing = 0 → m.capacity = 0 := by
      intro n m hm h0
      obtain ⟨n0, -, hm0⟩ := (h3 n m).1 hm
      have := ea n0
      rw [numPorts_eq hm0, numPorts_eq hm0, capacity_eq hm0] at this
      exact this h0
    obtain ⟨g2, k1, k2, -, -, -, k6, k7, k8, -, k10, k11⟩ := compactPorts_ok h2 he1
    refine ⟨g2, by simp [h1, k1], ?_, ?_, ?_, ?_⟩
    · refine .step (op := .compactPorts) hr1 ?_ (by simp [PG.step, k1])
      intro n h0
      cases e : g1.node? n with
      | none => simp [PG.nodePortCapacity, e]
      | some m =>
        rw [numPorts_eq e, numPorts_eq e] at h0
        rw [capacity_eq e]; exact he1 n m e h0
    · rw [k10, h9, k7, h6]
    · rw [k6, k8]
    · unfold PG.compactPorts at k1
      split at k1
      · cases k1
      · split at k1
        · cases k1
        · simp only [Option.some.injEq, Prod.mk.injEq] at k1
          rw [← k1.1]
  obtain ⟨a', h1, h2, h3⟩ := key a ha ea
  obtain ⟨b', k1, k2, k3⟩ := key b hb eb
  exact ⟨a', b', h1, k1, h2, k2, C62_packed_partial hmax h2 k2 h3 k3⟩

/-- **C62** Two graphs built without removing nodes or changing numbers of ports are equal for `==`
exactly if they have the same nodes with the same numbers of ports and the same links, named by
offsets: the order in which links were made and unmade does not matter. -/
theorem C62_built {maxOff : Nat} (hmax : maxOff ≤ 32767) {a b : PG} (ha : Built maxOff a) (hb : Built maxOff b) :
    eqGraph a b = true ↔ a.abs = b.abs := by
  have La := ha.layout hmax
  have Lb := hb.layout hmax
  unfold eqGraph
  rw [decide_eq_true_eq]
  exact ⟨fun h => h ▸ rfl, fun h => La.packed.ext La.inv Lb.inv Lb.packed (La.shape Lb h)⟩

/-- A graph after a node was removed and another one took its place. -/
def again : PG := (PG.empty.run 32767 [.addNode 1 1, .removeNode 0, .addNode 1 1]).getD .empty

/-- The graph of one node. -/
def once : PG := (PG.empty.run 32767 [.addNode 1 1]).getD .empty

/-- **C62 fails** for graphs with a past: two graphs with the same nodes, ports and links, and no
unused slots, are different for `==` (the vector of free lists has a different length). -/
theorem C62_witness_history : PG.Reach 32767 again ∧ PG.Reach 32767 once ∧ SameShape again once ∧
    again.abs = once.abs ∧ eqGraph again once = false := by
  have h1 : again.nodeMeta = once.nodeMeta := by decide +kernel
  have h2 : again.portMeta = once.portMeta := by decide +kernel
  have h3 : again.portLink = once.portLink := by decide +kernel
  have hn : again.node? = once.node? := by funext n; simp only [PG.node?, h1]
  have hp : again.port? = once.port? := by funext n; simp only [PG.port?, h2]
  refine ⟨checkedRun_reach .init (ops := [.addNode 1 1, .removeNode 0, .addNode 1 1]) (by decide +kernel),
    checkedRun_reach .init (ops := [.addNode 1 1]) (by decide +kernel), ⟨fun n => ?_, fun n d k => ?_, fun p => ?_⟩, ?_, by decide +kernel⟩
  · simp only [PG.containsNode, hn]
  · simp only [PG.portIndex, hn]
  · simp only [PG.portLink?, hp, h3]
  · have : again = { once with portFree := again.portFree } := by decide +kernel
    rw [this]; rfl

/-- The links of `C62_built` made in two orders, with a detour. -/
def linksA : PG := (PG.empty.run 32767 [.addNode 0 2, .addNode 2 0, .linkPorts 0 2, .linkPorts 3 1]).getD .empty

/-- The same links. -/
def linksB : PG := (PG.empty.run 32767 [.addNode 3 3, .clear, .addNode 0 2, .addNode 2 0, .linkPorts 1 2, .unlinkPort 2,
  .linkPorts 1 3, .linkPorts 2 0]).getD .empty

theorem run_built {maxOff : Nat} {ops : List PG.Op} {g g' : PG} (hg : Built maxOff g) (ho : ∀ op ∈ ops, Building op)
    (h : g.run maxOff ops = some g') : Built maxOff g' := by
  induction ops generalizing g with
  | nil => cases h; exact hg
  | cons op ops ih =>
    unfold PG.run at h
    split at h
    · cases h
    · rename_i g1 h1
      exact ih (.step hg (ho op (by simp)) h1) (fun o h => ho o (by simp [h])) h

theorem linksA_built : Built 32767 linksA :=
  run_built .init (ops := [.addNode 0 2, .addNode 2 0, .linkPorts 0 2, .linkPorts 3 1]) (by simp [Building]) (by decide +kernel)

theorem linksB_built : Built 32767 linksB :=
  run_built .init (ops := [.addNode 3 3, .clear, .addNode 0 2, .addNode 2 0, .linkPorts 1 2, .unlinkPort 2,
    .linkPorts 1 3, .linkPorts 2 0]) (by simp [Building]) (by decide +kernel)

example : (eqGraph linksA linksB = true ↔ linksA.abs = linksB.abs) ∧ eqGraph linksA linksB = true ∧ linksA.linkCount = 2 :=
  ⟨C62_built (by decide) linksA_built linksB_built, by decide +kernel, by decide +kernel⟩

example := C62_compacted_partial (maxOff := 32767) (by decide) exG_reach linksA_built.reach
  (fun n h => by
    by_cases hn : n < exG.nodeMeta.length
    · have : ∀ n < exG.nodeMeta.length, exG.numPorts n .incoming + exG.numPorts n .outgoing = 0 → exG.nodePortCapacity n = 0 := by
        decide +kernel
      exact this n hn h
    · simp [PG.nodePortCapacity, PG.node?, List.getElem?_eq_none (Nat.le_of_not_lt hn)])
  (fun n h => by
    by_cases hn : n < linksA.nodeMeta.length
    · have : ∀ n < linksA.nodeMeta.length, linksA.numPorts n .incoming + linksA.numPorts n .outgoing = 0 → linksA.nodePortCapacity n = 0 := by
        decide +kernel
      exact this n hn h
    · simp [PG.nodePortCapacity, PG.node?, List.getElem?_eq_none (Nat.le_of_not_lt hn)])

/-! ## Regions -/

theorem Asked.keeps {r s : Region} (h : Asked r s) (hr : Hier.Reach r.hierarchy) (hc : View.CacheOk r.hierarchy.kids r.root r.cache) :
    s.graph = r.graph ∧ s.root = r.root ∧ s.hierarchy = r.hierarchy ∧ View.CacheOk r.hierarchy.kids r.root s.cache := by
  induction h with
  | refl => exact ⟨rfl, rfl, rfl, hc⟩
  | @step s t n b _ hs ih =>
    obtain ⟨i1, i2, i3, i4⟩ := ih
    obtain ⟨v, -⟩ := hr.inv
    obtain ⟨b', c', h1, -, h3⟩ := View.isDescendant_ok v i4 n
    unfold Region.isDescendant at hs
    rw [i2, i3, h1] at hs
    simp only [Option.map_some, Option.some.injEq, Prod.mk.injEq] at hs
    obtain ⟨-, rfl⟩ := hs
    exact ⟨i1, rfl, rfl, h3⟩

/-- **C62** Asking a region does not change what it is equal to. Regions that are equal give the same
answer to every question, whatever they were asked before. -/
theorem C62_region {g g' : PG} {h h' : Hierarchy} (hr : Hier.Reach h) (hr' : Hier.Reach h') {root root' : Nat} {r r' : Region}
    (ha : Asked (.new g h root) r) (ha' : Asked (.new g' h' root') r') :
    (eqRegion r r' = true ↔ root = root' ∧ g = g' ∧ h.kids = h'.kids) ∧
    (eqRegion r r' = true → ∀ n, ∃ b s s', r.isDescendant n = some (b, s) ∧ r'.isDescendant n = some (b, s') ∧ eqRegion s s' = true) := by
  obtain ⟨a1, a2, a3, a4⟩ := ha.keeps hr (View.cacheOk_new _ _)
  obtain ⟨b1, b2, b3, b4⟩ := ha'.keeps hr' (View.cacheOk_new _ _)
  have hiff : eqRegion r r' = true ↔ root = root' ∧ g = g' ∧ h.kids = h'.kids := by
    unfold eqRegion
    rw [a1, a2, a3, b1, b2, b3]
    simp only [Region.new, Bool.and_eq_true, beq_iff_eq, C62_hierarchy_partial hr hr', eqGraph, decide_eq_true_eq, and_assoc]
    exact and_congr_right fun _ => and_congr_left fun _ => decide_eq_true_iff
  refine ⟨hiff, fun he n => ?_⟩
  obtain ⟨e1, e2, e3⟩ := hiff.1 he
  obtain ⟨v, -⟩ := hr.inv
  obtain ⟨v', -⟩ := hr'.inv
  obtain ⟨b, c, h1, h2, -⟩ := View.isDescendant_ok v a4 n
  obtain ⟨b', c', k1, k2, -⟩ := View.isDescendant_ok v' b4 n
  simp only [Region.new] at *
  have hb : b = b' := by
    rw [← e1, ← e3] at k2
    cases b <;> cases b' <;> simp_all
  subst hb
  refine ⟨b, { r with cache := c }, { r' with cache := c' }, ?_, ?_, ?_⟩
  · unfold Region.isDescendant; rw [a2, a3, h1]; rfl
  · unfold Region.isDescendant; rw [b2, b3, k1]; rfl
  · unfold eqRegion at he ⊢; exact he

theorem asked_some : ((Region.new exG exH 0).isDescendant 4).isSome = true := by decide +kernel

/-- A region asked once and a new one. -/
example := C62_region (g := exG) (g' := exG) exH_reach exH_reach (root := 0) (root' := 0)
  (show Asked (.new exG exH 0) (((Region.new exG exH 0).isDescendant 4).get asked_some).2 from
    .step (n := 4) (b := true) (.refl _)
      ((Option.some_get asked_some).symm.trans (congrArg some (Prod.ext (by decide +kernel) rfl))))
  (.refl _)

#print axioms C62_hierarchy_partial
#print axioms C62_hierarchy_calls_partial
#print axioms C62_packed_partial
#print axioms C62_compacted_partial
#print axioms C62_built
#print axioms C62_witness_history
#print axioms C62_region

example := C62_hierarchy_partial exH_reach exH_reach

end Verif.Equality
