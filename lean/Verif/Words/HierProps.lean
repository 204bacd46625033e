import Verif.Words.HierLemmas
import Verif.Hierarchy.Props

/-!
# C76: the machine words of a `Hierarchy`
-/

namespace Verif.Words

open Verif.Index
open Verif.Hier (Hierarchy NodeData AttachError)
open Verif.Secondary

theorem HHeld.small {h : Hierarchy} (hh : HHeld h) : SH h := by
  induction hh with
  | new => exact .new
  | step _ ha hs ih => exact (step_enc ih ha).2 _ _ hs

/-- **C76** One call on the words panics exactly if the call on the numbers does, and otherwise gives the word
of the answer and the words of the next hierarchy. -/
theorem C76_call {h : Hierarchy} (hh : HHeld h) {op : Hier.Op} (ha : HArgs h op) :
    (encH h).step (encHOp op) = (h.step op).map fun x => (encHRes x.1, encH x.2) :=
  (step_enc hh.small ha).1

/-- **C76** A history on the words, from the empty hierarchy: the answers are the words of the answers in
numbers, and the memory at the end is that of the hierarchy of numbers. -/
theorem C76_history {ops : List Hier.Op} (hf : HFit .new ops) :
    WH.run .new (ops.map encHOp) = (Hier.runOps .new ops).map fun x => (x.1.map encHRes, encH x.2) := by
  have key : ∀ (ops : List Hier.Op) (h : Hierarchy), HHeld h → HFit h ops →
      WH.run (encH h) (ops.map encHOp) = (Hier.runOps h ops).map fun x => (x.1.map encHRes, encH x.2) := by
    intro ops
    induction ops with
    | nil => intro h _ _; rfl
    | cons op ops ih =>
      intro h hh hf
      simp only [List.map_cons, WH.run, Hier.runOps, C76_call hh hf.1]
      cases hs : h.step op with
      | none => rfl
      | some x =>
        obtain ⟨r, h1⟩ := x
        simp only [Option.map_some, ih h1 (.step hh hf.1 hs) (hf.2 r h1 hs), Option.map_map]
        rfl
  exact key ops .new .new hf

/-- **C76** Different hierarchies have different words. -/
theorem C76_injective {h k : Hierarchy} (hh : HHeld h) (hk : HHeld k) (e : encH h = encH k) : h = k := by
  have sh := hh.small
  have sk := hk.small
  simp only [encH, WH.mk.injEq, Dense.mk.injEq] at e
  have hd : h.data.data = k.data.data := by
    apply List.ext_getElem?
    intro i
    have h1 := congrArg (·[i]?) e.1
    simp only [List.getElem?_map] at h1
    cases e1 : h.data.data[i]? with
    | none =>
      cases e2 : k.data.data[i]? with
      | none => rfl
      | some y => rw [e1, e2] at h1; cases h1
    | some x =>
      cases e2 : k.data.data[i]? with
      | none => rw [e1, e2] at h1; cases h1
      | some y =>
        rw [e1, e2] at h1
        simp only [Option.map_some, Option.some.injEq] at h1
        rw [encData_inj (sh.data _ (List.mem_of_getElem? e1)) (sk.data _ (List.mem_of_getElem? e2)) h1]
  obtain ⟨⟨a, b⟩⟩ := h
  obtain ⟨⟨c, d⟩⟩ := k
  have h1 := sh.default
  have h2 := sk.default
  simp only at hd h1 h2
  rw [hd, h1, h2]

/-- **C76** The queries on the words give the words of their answers, and none panics. -/
theorem C76_queries {h : Hierarchy} (hh : HHeld h) {n : Nat} (hn : n < 2 ^ 31) :
    (encH h).parent (encIx n) = some ((h.parent n).map encIx) ∧
      (encH h).isRoot (encIx n) = some (h.isRoot n) ∧
      (encH h).first (encIx n) = some ((h.first n).map encIx) ∧ (encH h).last (encIx n) = some ((h.last n).map encIx) ∧
      (encH h).next (encIx n) = some ((h.next n).map encIx) ∧ (encH h).prev (encIx n) = some ((h.prev n).map encIx) ∧
      (encH h).childCount (encIx n) = some (h.childCount n) ∧
      (encH h).hasChildren (encIx n) = some (h.hasChildren n) := by
  have s := hh.small.get n
  have hc := s.count
  simp only [WH.parent, WH.isRoot, WH.first, WH.last, WH.next, WH.prev, WH.childCount, WH.hasChildren, get_enc h hn,
    Option.map_some, encData, toOption_enc s.first, toOption_enc s.last, toOption_enc s.next, toOption_enc s.prev,
    toOption_enc s.parent, Hierarchy.parent, Hierarchy.isRoot, Hierarchy.first, Hierarchy.last, Hierarchy.next,
    Hierarchy.prev, Hierarchy.childCount, Hierarchy.hasChildren, Option.isNone_map, BitVec.toNat_ofNat,
    Nat.mod_eq_of_lt hc]
  exact ⟨trivial, trivial, trivial, trivial, trivial, trivial, trivial, rfl⟩

/-! ## Iterators -/

/-- The state of a `Children` iterator in words. -/
def encChildren (c : Hier.Children) : WChildren := ⟨encMaybe c.next, encMaybe c.prev, c.len⟩

/-- The state of a `Descendants` iterator in words. -/
def encNext : Hier.NextStates → WNext
  | .root n => .root (encIx n)
  | .descendants q => .descendants (q.map encIx)

/-- The iterator holds nodes in range. -/
def CFit (c : Hier.Children) : Prop := SO c.next ∧ SO c.prev

/-- The iterator holds nodes in range. -/
def NFit : Hier.NextStates → Prop
  | .root n => n < 2 ^ 31
  | .descendants q => ∀ n ∈ q, n < 2 ^ 31

theorem maybeNew_enc (o : Option Nat) : maybeNew (o.map encIx) = encMaybe o := by cases o <;> rfl

theorem children_step_enc {h : Hierarchy} (hh : HHeld h) {c : Hier.Children} (hc : CFit c) :
    (encChildren c).step (encH h) = (c.step h).map (fun x => (x.1.map encIx, encChildren x.2)) ∧
      (encChildren c).stepBack (encH h) = (c.stepBack h).map (fun x => (x.1.map encIx, encChildren x.2)) ∧
      (∀ x c', c.step h = some (x, c') → CFit c') ∧ ∀ x c', c.stepBack h = some (x, c') → CFit c' := by
  obtain ⟨nx, pv, len⟩ := c
  obtain ⟨h1, h2⟩ := hc
  simp only at h1 h2
  unfold WChildren.step WChildren.stepBack Hier.Children.step Hier.Children.stepBack
  simp only [encChildren, toOption_enc h1, toOption_enc h2]
  by_cases hl : len = 0
  · simp only [if_pos hl]
    refine ⟨rfl, rfl, ?_, ?_⟩ <;> (intro x c' e; cases e; exact ⟨h1, h2⟩)
  · simp only [if_neg hl]
    refine ⟨?_, ?_, ?_, ?_⟩
    · cases nx with
      | none => rfl
      | some x =>
        simp only [Option.map_some, (C76_queries hh (h1 x rfl)).2.2.2.2.1, maybeNew_enc]
    · cases pv with
      | none => rfl
      | some x =>
        simp only [Option.map_some, (C76_queries hh (h2 x rfl)).2.2.2.2.2.1, maybeNew_enc]
    · intro y c' e
      cases nx with
      | none => cases e
      | some x => cases e; exact ⟨(hh.small.get x).next, h2⟩
    · intro y c' e
      cases pv with
      | none => cases e
      | some x => cases e; exact ⟨h1, (hh.small.get x).prev⟩

/-- Calls of `next` (`false`) and `next_back` (`true`) on the words, with the lengths reported before them. -/
def WChildren.calls (h : WH) : List Bool → WChildren → Option (List (Nat × Option Ix))
  | [], _ => some []
  | back :: bs, c =>
    match (if back then c.stepBack h else c.step h) with
    | none => none
    | some (x, c') => (WChildren.calls h bs c').map ((c.len, x) :: ·)

/-- **C76** The iterator over the children, asked any sequence of `next` and `next_back`. -/
theorem C76_children {h : Hierarchy} (hh : HHeld h) {n : Nat} (hn : n < 2 ^ 31) (bs : List Bool) :
    ((encH h).children (encIx n)).bind (WChildren.calls (encH h) bs) =
      ((h.children n).calls h bs).map fun l => l.map fun x => (x.1, x.2.map encIx) := by
  have key : ∀ (bs : List Bool) (c : Hier.Children), CFit c → WChildren.calls (encH h) bs (encChildren c) =
      (c.calls h bs).map fun l => l.map fun x => (x.1, x.2.map encIx) := by
    intro bs
    induction bs with
    | nil => intro c _; rfl
    | cons b bs ih =>
      intro c hc
      obtain ⟨e1, e2, f1, f2⟩ := children_step_enc hh hc
      cases b with
      | false =>
        simp only [WChildren.calls, Hier.Children.calls, Bool.false_eq_true, if_false, e1]
        cases hs : c.step h with
        | none => rfl
        | some x =>
          simp only [Option.map_some, ih x.2 (f1 _ _ hs), Option.map_map]
          rfl
      | true =>
        simp only [WChildren.calls, Hier.Children.calls, if_true, e2]
        cases hs : c.stepBack h with
        | none => rfl
        | some x =>
          simp only [Option.map_some, ih x.2 (f2 _ _ hs), Option.map_map]
          rfl
  have s := hh.small.get n
  have e : (encH h).children (encIx n) = some (encChildren (h.children n)) := by
    simp only [WH.children, get_enc h hn, Option.map_some, encData, encChildren, Hierarchy.children, BitVec.toNat_ofNat,
      Nat.mod_eq_of_lt s.count]
  rw [e]
  exact key bs _ ⟨s.first, s.last⟩

theorem next_step_enc {h : Hierarchy} (hh : HHeld h) {q : Hier.NextStates} (hq : NFit q) :
    (encNext q).step (encH h) = some ((q.step h).1.map encIx, encNext (q.step h).2) ∧ NFit (q.step h).2 := by
  cases q with
  | root r =>
    have s := (hh.small.get r).first
    simp only [encNext, WNext.step, Hier.NextStates.step, (C76_queries hh hq).2.2.1, Option.map_some]
    refine ⟨by cases h.first r <;> rfl, ?_⟩
    intro n hn
    simp only [Option.mem_toList] at hn
    exact s n hn
  | descendants l =>
    cases l with
    | nil => exact ⟨rfl, hq⟩
    | cons x l =>
      have hx : x < 2 ^ 31 := hq x (by simp)
      have hl : ∀ n ∈ l, n < 2 ^ 31 := fun n hn => hq n (by simp [hn])
      have s1 := (hh.small.get x).first
      have s2 := (hh.small.get x).next
      simp only [encNext, WNext.step, Hier.NextStates.step, List.map_cons, (C76_queries hh hx).2.2.1,
        (C76_queries hh hx).2.2.2.2.1, Option.bind_eq_bind, Option.bind_some, Option.map_some, Hierarchy.next, Hierarchy.first]
      generalize (h.get x).first = a at s1 ⊢
      generalize (h.get x).next = b at s2 ⊢
      cases a with
      | none =>
        cases b with
        | none => exact ⟨rfl, hl⟩
        | some y =>
          refine ⟨rfl, ?_⟩
          intro n hn
          rcases List.mem_cons.1 hn with rfl | hn
          · exact s2 _ rfl
          · exact hl n hn
      | some z =>
        cases b with
        | none =>
          refine ⟨by simp, ?_⟩
          intro n hn
          rcases List.mem_append.1 hn with hn | hn
          · exact hl n hn
          · rw [List.mem_singleton.1 hn]; exact s1 _ rfl
        | some y =>
          refine ⟨by simp, ?_⟩
          intro n hn
          rcases List.mem_append.1 hn with hn | hn
          · rcases List.mem_cons.1 hn with rfl | hn
            · exact s2 _ rfl
            · exact hl n hn
          · rw [List.mem_singleton.1 hn]; exact s1 _ rfl

/-- The items of a `Descendants` iterator in words; `none` is a panic or running out of fuel. -/
def WNext.collect (h : WH) : Nat → WNext → Option (List Ix)
  | 0, _ => none
  | f + 1, q =>
    match q.step h with
    | none => none
    | some (none, _) => some []
    | some (some x, q) => (WNext.collect h f q).map (x :: ·)

/-- **C76** The iterator over the descendants. -/
theorem C76_descendants {h : Hierarchy} (hh : HHeld h) {n : Nat} (hn : n < 2 ^ 31) (f : Nat) :
    WNext.collect (encH h) f ((encH h).descendants (encIx n)) = ((h.descendants n).collect h f).map (List.map encIx) := by
  have key : ∀ (f : Nat) (q : Hier.NextStates), NFit q →
      WNext.collect (encH h) f (encNext q) = (q.collect h f).map (List.map encIx) := by
    intro f
    induction f with
    | zero => intro q _; rfl
    | succ f ih =>
      intro q hq
      obtain ⟨e1, e2⟩ := next_step_enc hh hq
      simp only [WNext.collect, Hier.NextStates.collect, e1]
      generalize q.step h = y at e2 ⊢
      obtain ⟨a, b⟩ := y
      cases a with
      | none => rfl
      | some x =>
        simp only [Option.map_some, ih b e2, Option.map_map]
        rfl
  exact key f (.root n) hn

/-! ## The forest seen through the words -/

/-- **C76** A history on the words answers as the ordered forest of `Hier.spec` does, panics exactly if that is undefined, and
at its end the counts and the iterators over the children are those of the lists of the forest. -/
theorem C76_forest {ops : List Hier.Op} (hf : HFit .new ops) (hok : ∀ op ∈ ops, op.ok) :
    (∀ as h, WH.run .new (ops.map encHOp) = some (as, h) → ∃ rs K, Hier.specRun (fun _ => []) ops = some (rs, K) ∧
      as = rs.map encHRes ∧ ∀ n, n < 2 ^ 31 →
        h.childCount (encIx n) = some (K n).length ∧
        ∀ bs, (h.children (encIx n)).bind (WChildren.calls h bs) =
          some ((Hier.listCalls bs (K n)).map fun x => (x.1, x.2.map encIx))) ∧
    (WH.run .new (ops.map encHOp) = none ↔ Hier.specRun (fun _ => []) ops = none) := by
  have hs := Hier.C24_histories_partial ops hok
  have hr := C76_history hf
  have held : ∀ (ops : List Hier.Op) (h : Hierarchy), HHeld h → HFit h ops → ∀ rs h', Hier.runOps h ops = some (rs, h') →
      HHeld h' := by
    intro ops
    induction ops with
    | nil => intro h hh _ rs h' e; cases e; exact hh
    | cons op ops ih =>
      intro h hh hf rs h' e
      simp only [Hier.runOps] at e
      cases e1 : h.step op with
      | none => rw [e1] at e; cases e
      | some x =>
        rw [e1] at e
        simp only at e
        cases e2 : Hier.runOps x.2 ops with
        | none => rw [e2] at e; cases e
        | some y =>
          rw [e2] at e
          cases e
          exact ih x.2 (.step hh hf.1 e1) (hf.2 _ _ e1) _ _ e2
  refine ⟨fun as w e => ?_, ?_⟩
  · rw [hr] at e
    obtain ⟨⟨rs, h⟩, e1, e2⟩ := Option.map_eq_some_iff.1 e
    cases e2
    rw [e1] at hs
    refine ⟨rs, h.kids, hs.symm, rfl, fun n hn => ?_⟩
    have hreach : Hier.Reach h := Hier.runOps_reach .new hok e1
    have hheld := held ops .new .new hf rs h e1
    refine ⟨?_, fun bs => ?_⟩
    · rw [(C76_queries hheld hn).2.2.2.2.2.2.1, ((Hier.C23_forest_partial hreach).2.2.1 n).2.2.1]
    · rw [C76_children hheld hn bs, Hier.C24_children_iter hreach n bs]
      rfl
  · rw [hr, ← hs]
    simp

/-! ## Beyond the range -/

/-- A node with the top bit set is attached as another node than the one that holds its data: node
`2^31` is listed as the child of 1, while it is node 0 that has the parent 1. -/
theorem C76_witness_alias : ∃ h, WH.new.pushChild (encIx (2 ^ 31)) (encIx 1) = some (.ok h) ∧
    h.first (encIx 1) = some (some (encIx (2 ^ 31))) ∧ h.parent (encIx 0) = some (some (encIx 1)) ∧
    h.detach (encIx 0) ≠ none ∧ encIx (2 ^ 31) ≠ encIx 0 :=
  ⟨((WH.new.pushChild (encIx (2 ^ 31)) (encIx 1)).getD (.ok .new)).toOption.getD .new,
    by decide +kernel, by decide +kernel, by decide +kernel, by decide +kernel, by decide +kernel⟩

/-- The check for cycles compares words, so a node is pushed under itself by its other name: node 0 with
the child 1 becomes its own parent. -/
theorem C76_witness_cycle : ∃ h h', WH.new.pushChild (encIx 1) (encIx 0) = some (.ok h) ∧
    h.pushChild (encIx 0) (encIx 0) = some (.error (.cycle (encIx 0) (encIx 0))) ∧
    h.pushChild (encIx (2 ^ 31)) (encIx 0) = some (.ok h') ∧ h'.parent (encIx 0) = some (some (encIx 0)) :=
  ⟨((WH.new.pushChild (encIx 1) (encIx 0)).getD (.ok .new)).toOption.getD .new,
    ((((WH.new.pushChild (encIx 1) (encIx 0)).getD (.ok .new)).toOption.getD .new).pushChild (encIx (2 ^ 31)) (encIx 0)).getD
      (.ok .new) |>.toOption.getD .new,
    by decide +kernel, by decide +kernel, by decide +kernel, by decide +kernel⟩

theorem range_top (k : Nat) : (List.range (k + 1)).filter (k ≤ ·) = [k] := by
  rw [List.range_succ, List.filter_append]
  have : (List.range k).filter (k ≤ ·) = [] := by
    rw [List.filter_eq_nil_iff]
    intro a ha
    have := List.mem_range.1 ha
    simp only [decide_eq_true_eq]
    omega
  rw [this]
  simp

theorem shrink_one (h : WH) (k : Nat) :
    h.shrinkTo (k + 1) k = (h.removeAt k).map fun h => ⟨h.data.shrinkTo k⟩ := by
  unfold WH.shrinkTo
  rw [range_top]
  simp only [List.reverse_singleton, List.foldlM_cons, List.foldlM_nil, Option.bind_eq_bind]
  cases h.removeAt k <;> rfl

theorem cut_all {h : WH} {k : Nat} (hk : h.data.data.length ≤ k) : (⟨h.data.shrinkTo k⟩ : WH) = h := by
  unfold Dense.shrinkTo
  rw [List.take_of_length_le hk]

/-- `shrink_to` disconnects the nodes from the new capacity up to the capacity of the vector. If that is
`2^31 + 1`, then `shrink_to(2^31)` disconnects node 0. -/
theorem C76_witness_shrink : ∃ h h', WH.new.pushChild (encIx 0) (encIx 1) = some (.ok h) ∧
    h.parent (encIx 0) = some (some (encIx 1)) ∧
    h.shrinkTo (2 ^ 31 + 1) (2 ^ 31) = some h' ∧ h'.parent (encIx 0) = some none := by
  let h0 : WH := ((WH.new.pushChild (encIx 0) (encIx 1)).getD (.ok .new)).toOption.getD .new
  let h1 : WH := (h0.removeAt (2 ^ 31)).getD .new
  have e0 : h0.removeAt (2 ^ 31) = some h1 := by decide +kernel
  have e1 : h1.data.data.length = 2 := by decide +kernel
  have e2 : h1.parent (encIx 0) = some none := by decide +kernel
  refine ⟨h0, h1, by decide +kernel, by decide +kernel, ?_, e2⟩
  rw [shrink_one, e0]
  exact congrArg some (cut_all (by rw [e1]; decide))

/-! ## Examples -/

/-- The calls of `Hier.exOps` and more. -/
def exHOps : List Hier.Op :=
  Hier.exOps ++ [.detach 5, .swapNodes 2 3, .rekey 1 7, .pushChild 9 9, .remove 2, .ensureCapacity 3 20, .shrinkTo 1 6]

/-- The check that a history is within the limits. -/
def hFitCheck : Hierarchy → List Hier.Op → Bool
  | _, [] => true
  | h, op :: ops => args h op && match h.step op with
    | none => true
    | some x => hFitCheck x.2 ops
where
  /-- `HArgs`. -/
  args (h : Hierarchy) : Hier.Op → Bool
  | .pushChild n p | .pushFrontChild n p => decide (n < 2 ^ 31 ∧ p < 2 ^ 31)
  | .insertBefore n b | .insertAfter n b => decide (n < 2 ^ 31 ∧ b < 2 ^ 31)
  | .detach n | .detachChildren n | .remove n => decide (n < 2 ^ 31)
  | .swapNodes a b | .rekey a b => decide (a < 2 ^ 31 ∧ b < 2 ^ 31)
  | .ensureCapacity _ _ => true
  | .shrinkTo e _ => decide (h.data.data.length + e ≤ 2 ^ 31)

theorem hFitCheck_fit {ops : List Hier.Op} : ∀ {h : Hierarchy}, hFitCheck h ops = true → HFit h ops := by
  induction ops with
  | nil => intros; trivial
  | cons op ops ih =>
    intro h e
    simp only [hFitCheck, Bool.and_eq_true] at e
    refine ⟨?_, fun r h' hs => ih ?_⟩
    · have := e.1
      cases op <;> simpa [hFitCheck.args, HArgs] using this
    · have := e.2
      rw [hs] at this
      exact this

example := C76_history (ops := exHOps) (hFitCheck_fit (by decide +kernel))

example : (Hier.runOps .new exHOps).map (·.1.length) = some 13 := by decide +kernel

theorem exH_held : HHeld Hier.exH := by
  have h1 : HHeld ((Hierarchy.new.step (.pushChild 2 0)).getD (.ok none, .new)).2 :=
    .step (r := .ok none) .new (op := .pushChild 2 0) ⟨by decide, by decide⟩ rfl
  have h2 := HHeld.step (r := .ok none) h1 (op := .pushFrontChild 1 0) ⟨by decide, by decide⟩ rfl
  have h3 := HHeld.step (r := .ok none) h2 (op := .insertAfter 3 2) ⟨by decide, by decide⟩ rfl
  have h4 := HHeld.step (r := .ok none) h3 (op := .pushChild 4 2) ⟨by decide, by decide⟩ rfl
  have h5 := HHeld.step (r := .ok none) h4 (op := .insertBefore 5 4) ⟨by decide, by decide⟩ rfl
  exact h5

example := C76_call exH_held (op := .swapNodes 2 3) ⟨by decide, by decide⟩
example := C76_queries exH_held (n := 2) (by decide)
example := C76_children exH_held (n := 0) (by decide) [false, true, false, true]
example := C76_descendants exH_held (n := 0) (by decide) 7
example : Hier.exH = Hier.exH := C76_injective exH_held exH_held rfl
example : (Hier.exH.children 0).calls Hier.exH [false, true] = some [(3, some 1), (2, some 3)] := by decide
example := C76_forest (ops := Hier.exOps) (hFitCheck_fit (by decide +kernel))
  (by intro op hop; simp [Hier.exOps] at hop; rcases hop with rfl | rfl | rfl | rfl | rfl | rfl <;> simp [Hier.Op.ok])

#print axioms C76_call
#print axioms C76_history
#print axioms C76_injective
#print axioms C76_queries
#print axioms C76_children
#print axioms C76_descendants
#print axioms C76_forest
#print axioms C76_witness_alias
#print axioms C76_witness_cycle
#print axioms C76_witness_shrink

end Verif.Words
