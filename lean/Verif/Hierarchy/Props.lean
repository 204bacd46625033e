import Verif.Hierarchy.Levels

/-!
# Properties of `Hierarchy` (C23–C26)
-/

namespace Verif.Hier

/-- An example: node 0 has children 1, 2, 3, and 2 has children 5, 4. -/
def exOps : List Op :=
  [.pushChild 2 0, .pushFrontChild 1 0, .insertAfter 3 2, .pushChild 4 2, .insertBefore 5 4, .pushChild 0 4]

/-- A run of calls with their results. -/
def runOps : Hierarchy → List Op → Option (List Res × Hierarchy)
  | h, [] => some ([], h)
  | h, op :: ops =>
    match h.step op with
    | none => none
    | some (r, h) => (runOps h ops).map fun x => (r :: x.1, x.2)

theorem runOps_reach {ops : List Op} : ∀ {h h' : Hierarchy} {rs : List Res}, Reach h → (∀ op ∈ ops, op.ok) →
    runOps h ops = some (rs, h') → Reach h' := by
  induction ops with
  | nil => intro h h' rs hr _ e; cases e; exact hr
  | cons op ops ih =>
    intro h h' rs hr hok e
    unfold runOps at e
    split at e
    · cases e
    · rename_i r h1 hs
      cases h2 : runOps h1 ops with
      | none => rw [h2] at e; cases e
      | some x =>
        rw [h2] at e
        cases e
        exact ih (.step hr (hok op (by simp)) hs) (fun o ho => hok o (by simp [ho])) h2

/-- The hierarchy made by `exOps`. -/
def exH : Hierarchy := ((runOps .new exOps).getD ([], .new)).2

example : (runOps .new exOps).map (·.1) =
    some [.ok none, .ok none, .ok none, .ok none, .ok none, .error (.cycle 0 4)] := rfl

theorem exH_reach : Reach exH :=
  runOps_reach (ops := exOps) (h' := exH)
    (rs := [.ok none, .ok none, .ok none, .ok none, .ok none, .error (.cycle 0 4)]) .new
    (by intro op hop; simp [exOps] at hop; rcases hop with rfl | rfl | rfl | rfl | rfl | rfl <;> simp [Op.ok]) rfl

/-! ## C23 -/

/-- **C23** A hierarchy made by any history of calls is an ordered forest: no node is listed twice
and none is below itself. What the accessors say agrees with the child lists. -/
theorem C23_forest_partial {h : Hierarchy} (hr : Reach h) :
    Forest h.kids ∧
    (∀ n p, h.parent n = some p ↔ n ∈ h.kids p) ∧
    (∀ p, h.first p = (h.kids p).head? ∧ h.last p = (h.kids p).getLast? ∧ h.childCount p = (h.kids p).length ∧
      (h.hasChildren p = true ↔ h.kids p ≠ [])) ∧
    (∀ p l1 n l2, h.kids p = l1 ++ n :: l2 → h.prev n = l1.getLast? ∧ h.next n = l2.head?) ∧
    ∀ n, h.isRoot n = true → (∀ p, n ∉ h.kids p) ∧ h.prev n = none ∧ h.next n = none := by
  obtain ⟨v, -⟩ := hr.inv
  refine ⟨v.forest, fun n p => v.repr.parent_iff, fun p => ⟨v.repr.first p, v.repr.last p, v.repr.count p, ?_⟩,
    fun p l1 n l2 e => (v.repr.sib p l1 n l2 e).2, fun n hn => ?_⟩
  · simp only [Hierarchy.hasChildren, Hierarchy.childCount, v.repr.count, decide_eq_true_eq]
    exact List.length_pos_iff
  · simp only [Hierarchy.isRoot, Hierarchy.parent, Option.isNone_iff_eq_none] at hn
    have := v.repr.root_iff.1 hn
    exact ⟨this, (v.repr.root n this).2⟩

example : exH.kids 0 = [1, 2, 3] ∧ exH.kids 2 = [5, 4] ∧ exH.parent 5 = some 2 ∧ exH.isRoot 0 = true := by decide

/-- **C23** There is no endless chain of parents. -/
theorem C23_parents_end_partial {h : Hierarchy} (hr : Reach h) : WellFounded fun p n => h.parent n = some p :=
  hr.inv.1.wf

example : WellFounded fun p n => exH.parent n = some p := C23_parents_end_partial exH_reach

/-- **C23 fails** when a childless root is pushed under itself: the call succeeds and the node
becomes its own parent. -/
theorem C23_witness_self_cycle : ∃ h, Hierarchy.new.pushChild 0 0 = some (.ok h) ∧ h.parent 0 = some 0 ∧
    h.kids 0 = [0] := ⟨_, rfl, by decide, by decide⟩

/-- After that, attaching any other node with children to it never returns: the climb to the root
needs more fuel than any given amount. -/
theorem C23_witness_endless (h : Hierarchy) (he : Hierarchy.new.pushChild 0 0 = some (.ok h)) (f : Nat) :
    h.climb 1 f 0 = none := by
  have hp : (h.get 0).parent = some 0 := by
    have : h = ((Hierarchy.new.pushChild 0 0).getD (.ok .new)).toOption.getD .new := by rw [he]; rfl
    rw [this]
    decide
  induction f with
  | zero => rfl
  | succ f ih => simp [Hierarchy.climb, hp, ih]

/-! ## C24 -/

/-- **C24** Every call does to the child lists what the specification `spec` says, with the same
result; in particular nothing panics except `rekey` into a node in use, and a failed call changes
nothing. -/
theorem C24_calls_partial {h : Hierarchy} (hr : Reach h) {op : Op} (hop : op.ok) :
    (spec h.kids op = none → h.step op = none) ∧
    ∀ r K, spec h.kids op = some (r, K) → ∃ h', h.step op = some (r, h') ∧ h'.kids = K := by
  obtain ⟨v, hb⟩ := hr.inv
  obtain ⟨h1, h2⟩ := step_ok v hb op hop
  refine ⟨h1, fun r K e => ?_⟩
  obtain ⟨h', e', v', -⟩ := h2 r K e
  exact ⟨h', e', kids_eq v'.repr⟩

example : ∃ h', exH.step (.detach 5) = some (.ok (some 2), h') ∧ h'.kids 2 = [4] :=
  ⟨((exH.step (.detach 5)).getD (.ok none, exH)).2, rfl, by decide⟩

/-- The runs of the specification. -/
noncomputable def specRun : Kids → List Op → Option (List Res × Kids)
  | K, [] => some ([], K)
  | K, op :: ops =>
    match spec K op with
    | none => none
    | some (r, K) => (specRun K ops).map fun x => (r :: x.1, x.2)

/-- **C24** The same for whole histories, starting with an empty hierarchy. -/
theorem C24_histories_partial (ops : List Op) (hok : ∀ op ∈ ops, op.ok) :
    (runOps .new ops).map (fun x => (x.1, x.2.kids)) = specRun (fun _ => []) ops := by
  suffices hs : ∀ ops : List Op, (∀ op ∈ ops, op.ok) → ∀ h, Reach h →
      (runOps h ops).map (fun x => (x.1, x.2.kids)) = specRun h.kids ops by
    rw [hs ops hok .new .new, kids_eq inv_new.repr]
  intro ops
  induction ops with
  | nil => intro _ h _; rfl
  | cons op ops ih =>
    intro hok h hr
    obtain ⟨h1, h2⟩ := C24_calls_partial hr (hok op (by simp))
    unfold runOps specRun
    cases hs : spec h.kids op with
    | none => rw [h1 hs]; rfl
    | some rk =>
      obtain ⟨r, K⟩ := rk
      obtain ⟨h', e, hk⟩ := h2 r K hs
      rw [e]
      simp only
      have := ih (fun o ho => hok o (by simp [ho])) h' (.step hr (hok op (by simp)) e)
      rw [hk] at this
      rw [← this]
      simp only [Option.map_map]
      rfl

example := C24_histories_partial exOps
  (by intro op hop; simp [exOps] at hop; rcases hop with rfl | rfl | rfl | rfl | rfl | rfl <;> simp [Op.ok])

/-- **C24** The iterator over the children: any mixture of `next` and `next_back` calls behaves as
on the list of the children, with the exact remaining length, and does not panic. -/
theorem C24_children_iter {h : Hierarchy} (hr : Reach h) (p : Nat) (bs : List Bool) :
    (h.children p).calls h bs = some (listCalls bs (h.kids p)) := by
  obtain ⟨v, -⟩ := hr.inv
  have := children_calls v.repr p bs [] (h.kids p) [] (h.get p).first (h.get p).last (by simp)
    (fun _ => ⟨v.repr.first p, v.repr.last p⟩)
  rw [← v.repr.count] at this
  exact this

example : (exH.children 0).calls exH [false, true, true, false] =
    some [(3, some 1), (2, some 3), (1, some 2), (0, none)] := by decide

/-- **C24** Every call with valid arguments returns, unless it is `rekey` into a node in use. -/
theorem C24_no_panic_partial {h : Hierarchy} (hr : Reach h) {op : Op} (hop : op.ok)
    (hrk : ∀ old new, op = .rekey old new → h.isRoot new = true ∧ h.kids new = []) : h.step op ≠ none := by
  obtain ⟨v, -⟩ := hr.inv
  have key : ∃ x, spec h.kids op = some x := by
    cases op <;> unfold spec <;> simp only
    case rekey old new =>
      obtain ⟨h1, h2⟩ := hrk old new rfl
      have := (C23_forest_partial hr).2.2.2.2 new h1
      rw [if_neg]
      · exact ⟨_, rfl⟩
      · rintro (⟨p, hp⟩ | hh)
        · exact this.1 p hp
        · exact hh h2
    all_goals repeat' split
    all_goals exact ⟨_, rfl⟩
  obtain ⟨⟨r, K⟩, e⟩ := key
  obtain ⟨h', e', -⟩ := (C24_calls_partial hr hop).2 r K e
  rw [e']
  simp

example := C24_no_panic_partial exH_reach (op := .rekey 2 7) ⟨by decide, by decide⟩
  (by intro old new e; cases e; decide)

/-! ## C25 -/

/-- **C25** `swap_nodes` exchanges the two names everywhere. -/
theorem C25_swap_nodes {h : Hierarchy} (hr : Reach h) (a b : Nat) :
    ∃ h', h.swapNodes a b = some h' ∧
      (∀ n, h'.kids (transpose a b n) = (h.kids n).map (transpose a b)) ∧
      (∀ n, h'.parent (transpose a b n) = (h.parent n).map (transpose a b)) ∧
      (∀ n, h'.next (transpose a b n) = (h.next n).map (transpose a b)) ∧
      ∀ n, h'.prev (transpose a b n) = (h.prev n).map (transpose a b) := by
  obtain ⟨v, -⟩ := hr.inv
  obtain ⟨h', e, v'⟩ := swapNodes_ok v a b
  have hk := kids_eq v'.repr
  have hk1 : ∀ n, h'.kids (transpose a b n) = (h.kids n).map (transpose a b) := by
    intro n
    rw [hk]
    simp only [Kids.swap, transpose_invol]
  have sib : ∀ n, h'.parent (transpose a b n) = (h.parent n).map (transpose a b) ∧
      h'.next (transpose a b n) = (h.next n).map (transpose a b) ∧
      h'.prev (transpose a b n) = (h.prev n).map (transpose a b) := by
    intro n
    by_cases hroot : ∀ p, n ∉ h.kids p
    · have h1 := v.repr.root n hroot
      have h2 := v'.repr.root (transpose a b n) (by
        intro p hp
        obtain ⟨y, hy, hyn⟩ := List.mem_map.1 hp
        have := congrArg (transpose a b) hyn
        rw [transpose_invol, transpose_invol] at this
        subst this
        exact hroot _ hy)
      simp only [Hierarchy.parent, Hierarchy.next, Hierarchy.prev, h1, h2, Option.map_none, and_self]
    · simp only [Classical.not_forall, Classical.not_not] at hroot
      obtain ⟨p, hp⟩ := hroot
      obtain ⟨l1, l2, e⟩ := List.append_of_mem hp
      have h1 := v.repr.sib p l1 n l2 e
      have h2 := v'.repr.sib (transpose a b p) (l1.map (transpose a b)) (transpose a b n) (l2.map (transpose a b)) (by
        simp only [Kids.swap, transpose_invol, e, List.map_append, List.map_cons])
      simp only [Hierarchy.parent, Hierarchy.next, Hierarchy.prev, h1, h2]
      simp
  exact ⟨h', e, hk1, fun n => (sib n).1, fun n => (sib n).2.1, fun n => (sib n).2.2⟩

example : (exH.swapNodes 0 2).map (fun h => (h.kids 2, h.kids 0, h.parent 0, h.parent 4)) =
    some ([1, 0, 3], [5, 4], some 2, some 0) := by decide

/-- **C25** `rekey` into an unused node moves the place of `old` in the tree to `new`. -/
theorem C25_rekey_partial {h : Hierarchy} (hr : Reach h) {old new : Nat} (hroot : h.isRoot new = true)
    (hkids : h.kids new = []) :
    ∃ h', h.rekey old new = some h' ∧ ∀ n, h'.kids (transpose old new n) = (h.kids n).map (transpose old new) := by
  obtain ⟨v, -⟩ := hr.inv
  have hno := (C23_forest_partial hr).2.2.2.2 new hroot
  have hn : h.get new = {} := by
    have := v.repr.root new hno.1
    have a1 := v.repr.first new
    have a2 := v.repr.last new
    have a3 := v.repr.count new
    rw [hkids] at a1 a2 a3
    exact NodeData.ext' a1 a2 a3 this.1 this.2.1 this.2.2
  obtain ⟨h', e, v'⟩ := rekey_ok v (old := old) hn
  refine ⟨h', e, fun n => ?_⟩
  rw [kids_eq v'.repr]
  simp only [Kids.swap, transpose_invol]

example : exH.isRoot 7 = true ∧ exH.kids 7 = [] ∧
    (exH.rekey 2 7).map (fun h => (h.kids 0, h.kids 7, h.kids 2, h.parent 7)) = some ([1, 7, 3], [5, 4], [], some 0) := by
  decide

/-- **C25** `rekey` into a node in use panics, as documented. -/
theorem C25_rekey_occupied {h : Hierarchy} (hr : Reach h) {old new : Nat}
    (hocc : h.isRoot new = false ∨ h.kids new ≠ []) : h.rekey old new = none := by
  obtain ⟨v, -⟩ := hr.inv
  have : h.get new ≠ {} := by
    intro e
    rcases hocc with hh | hh
    · simp [Hierarchy.isRoot, Hierarchy.parent, e] at hh
    · have := v.repr.count new
      rw [e] at this
      exact hh (List.length_eq_zero_iff.1 this.symm)
  simp [Hierarchy.rekey, this]

example := C25_rekey_occupied exH_reach (old := 2) (new := 0) (.inr (by decide))

/-- **C25 fails** for `rekey(n, n)` with a node in use: it panics instead of doing nothing. -/
theorem C25_witness_rekey_same : Reach exH ∧ exH.rekey 2 2 = none := ⟨exH_reach, by decide⟩

/-! ## C26 -/

/-- **C26** `descendants(n)` yields the levels below `n` one after the other, each from left to
right, and then ends. -/
theorem C26_levels {h : Hierarchy} (hr : Reach h) (n : Nat) :
    ∃ m f0, level h.kids n m = [] ∧
      ∀ f, f0 ≤ f → (h.descendants n).collect h f = some ((List.range m).flatMap (level h.kids n)) := by
  obtain ⟨v, -⟩ := hr.inv
  obtain ⟨f0, h0⟩ := bfs_levels h.kids n h.fuel (level_empty v n)
  refine ⟨h.fuel, f0 + 1, level_empty v n, fun f hf => ?_⟩
  cases f with
  | zero => omega
  | succ f => rw [descendants_collect v.repr, h0 _ (by omega)]

example := C26_levels exH_reach 0

/-- **C26** `descendants(n)` yields `n` first, then exactly the nodes below it, each once and in
order of non-decreasing depth. -/
theorem C26_descendants {h : Hierarchy} (hr : Reach h) (n : Nat) :
    ∃ l f0, (∀ f, f0 ≤ f → (h.descendants n).collect h f = some l) ∧
      l.head? = some n ∧ l.Nodup ∧ (∀ x, x ∈ l ↔ Anc h.kids n x) ∧
      l.Pairwise fun x y => ∀ i j, x ∈ level h.kids n i → y ∈ level h.kids n j → i ≤ j := by
  obtain ⟨v, -⟩ := hr.inv
  have F := v.forest
  obtain ⟨m, f0, hm, hc⟩ := C26_levels hr n
  have hend : ∀ k, m ≤ k → level h.kids n k = [] := by
    intro k hk
    induction k with
    | zero =>
      have : m = 0 := by omega
      rw [this] at hm
      exact hm
    | succ k ih =>
      by_cases e : m = k + 1
      · rw [← e]; exact hm
      · unfold level
        rw [ih (by omega)]
        rfl
  refine ⟨_, f0, hc, ?_, ?_, ?_, ?_⟩
  · cases m with
    | zero => simp [level] at hm
    | succ m => simp [List.range_succ_eq_map, level]
  · rw [List.nodup_flatMap]
    refine ⟨fun k _ => level_nodup F k, ?_⟩
    refine List.Pairwise.imp ?_ (List.nodup_range (n := m))
    intro i j hij x hx hx'
    exact hij (level_unique F hx hx')
  · intro x
    rw [List.mem_flatMap]
    constructor
    · rintro ⟨k, -, hk⟩
      exact level_anc hk
    · intro ha
      obtain ⟨k, hk⟩ := anc_level ha
      refine ⟨k, ?_, hk⟩
      rw [List.mem_range]
      rcases Nat.lt_or_ge k m with hlt | hge
      · exact hlt
      · rw [hend k hge] at hk
        cases hk
  · rw [List.pairwise_flatMap]
    refine ⟨?_, ?_⟩
    · intro k _
      refine List.Pairwise.imp_of_mem ?_ (level_nodup F k)
      intro x y hx hy _ i j hi hj
      rw [level_unique F hi hx, level_unique F hj hy]
      exact Nat.le_refl _
    · refine List.Pairwise.imp ?_ (List.pairwise_lt_range (n := m))
      intro i j hij x hx y hy i' j' hi hj
      rw [level_unique F hi hx, level_unique F hj hy]
      omega

example : (exH.descendants 0).collect exH 20 = some [0, 1, 2, 3, 5, 4] := by decide

#print axioms C23_forest_partial
#print axioms C23_parents_end_partial
#print axioms C23_witness_self_cycle
#print axioms C23_witness_endless
#print axioms C24_calls_partial
#print axioms C24_histories_partial
#print axioms C24_children_iter
#print axioms C24_no_panic_partial
#print axioms C25_swap_nodes
#print axioms C25_rekey_partial
#print axioms C25_rekey_occupied
#print axioms C25_witness_rekey_same
#print axioms C26_levels
#print axioms C26_descendants

end Verif.Hier
