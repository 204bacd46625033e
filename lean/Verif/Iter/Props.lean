import Verif.Iter.Spec
import Verif.PortGraph.PropsIter
import Verif.Hierarchy.Props
import Verif.Secondary.Props
import Verif.Multi.IterLemmas

/-!
# Property C58: iterators of port graphs, hierarchies and maps answer every sequence of calls
-/

namespace Verif.Iter

open Verif (Direction)

/-! ## Lemmas -/

section Lemmas

variable {S X : Type}

private theorem nth_default {next : S → Option (Option X × S)} {R : S → List X → Prop}
    (hnext : ∀ s l, R s l → ∃ s', next s = some (l.head?, s') ∧ R s' l.tail) (n : Nat) :
    ∀ s l, R s l → ∃ s', nthDefault next n s = some (l[n]?, s') ∧ R s' (l.drop (n + 1)) := by
  induction n with
  | zero =>
    intro s l h
    obtain ⟨s', h1, h2⟩ := hnext s l h
    refine ⟨s', ?_, ?_⟩
    · rw [nthDefault, h1]; cases l <;> rfl
    · cases l <;> exact h2
  | succ n ih =>
    intro s l h
    obtain ⟨s', h1, h2⟩ := hnext s l h
    cases l with
    | nil => exact ⟨s', by rw [nthDefault, h1]; rfl, h2⟩
    | cons x l =>
      obtain ⟨t, h3, h4⟩ := ih s' l h2
      exact ⟨t, by rw [nthDefault, h1]; simpa using h3, h4⟩

private theorem count_default {next : S → Option (Option X × S)} {R : S → List X → Prop}
    (hnext : ∀ s l, R s l → ∃ s', next s = some (l.head?, s') ∧ R s' l.tail) (f : Nat) :
    ∀ s l, R s l → l.length < f → countDefault next f s = some l.length := by
  induction f with
  | zero => intro s l _ h; omega
  | succ f ih =>
    intro s l h hf
    obtain ⟨s', h1, h2⟩ := hnext s l h
    cases l with
    | nil => rw [countDefault, h1]; rfl
    | cons x l =>
      have := ih s' l h2 (by simpa using hf)
      rw [countDefault, h1]
      simp only [List.head?_cons, this, Option.map_some, List.length_cons]

private theorem behavesFor_of {it : It S X} {kinds : ICall → Prop} (R : S → List X → Prop)
    (hnext : ∀ s l, R s l → ∃ s', it.next s = some (l.head?, s') ∧ R s' l.tail)
    (hback : kinds .back → ∀ s l, R s l → ∃ s', it.back s = some (l.getLast?, s') ∧ R s' l.dropLast)
    (hnth : ∀ n s l, R s l → ∃ s', it.nth n s = some (l[n]?, s') ∧ R s' (l.drop (n + 1)))
    (hcount : ∀ s l, R s l → it.count s = some l.length)
    (hhint : kinds .hint → ∀ s l, R s l → it.hint s = (l.length, some l.length)) {s : S} {l : List X} (h : R s l) :
    BehavesFor kinds it s l := by
  intro cs
  induction cs generalizing s l with
  | nil => intro _; rfl
  | cons c cs ih =>
    intro hk
    have hc := hk c List.mem_cons_self
    have hcs : ∀ c ∈ cs, kinds c := fun d hd => hk d (List.mem_cons_of_mem _ hd)
    have key : ∃ s', it.call s c = some ((listCall l c).1, s') ∧ R s' (listCall l c).2 := by
      cases c with
      | next =>
        obtain ⟨s', h1, h2⟩ := hnext s l h
        exact ⟨s', by simp [It.call, h1, listCall], h2⟩
      | back =>
        obtain ⟨s', h1, h2⟩ := hback hc s l h
        exact ⟨s', by simp [It.call, h1, listCall], h2⟩
      | nth n =>
        obtain ⟨s', h1, h2⟩ := hnth n s l h
        exact ⟨s', by simp [It.call, h1, listCall], h2⟩
      | count => exact ⟨s, by simp [It.call, hcount s l h, listCall], h⟩
      | hint => exact ⟨s, by simp [It.call, hhint hc s l h, listCall], h⟩
    obtain ⟨s', h1, h2⟩ := key
    simp only [It.run, h1, listRun, ih h2 hcs, Option.map_some]

end Lemmas

/-! ## Port graphs -/

private def RangeR (s : NodePorts) (l : List Nat) : Prop := s.start ≤ s.stop ∧ l = List.range' s.start (s.stop - s.start)

private theorem range_behaves {s : NodePorts} {l : List Nat} (h : RangeR s l) : Behaves nodePortsIt s l := by
  refine behavesFor_of RangeR ?_ ?_ ?_ ?_ ?_ h
  · rintro ⟨a, b⟩ l ⟨h1, rfl⟩
    simp only at h1
    by_cases hab : a < b
    · obtain ⟨k, rfl⟩ : ∃ k, b = a + (k + 1) := ⟨b - a - 1, by omega⟩
      refine ⟨⟨a + 1, a + (k + 1)⟩, ?_, by show a + 1 ≤ a + (k + 1); omega, ?_⟩
      · simp [nodePortsIt, List.range'_succ]
      · simp only [Nat.add_sub_cancel_left, List.range'_succ, List.tail_cons]
        congr 1
        omega
    · obtain rfl : a = b := by omega
      exact ⟨⟨a, a⟩, by simp [nodePortsIt], Nat.le_refl _, by simp⟩
  · rintro - ⟨a, b⟩ l ⟨h1, rfl⟩
    simp only at h1
    by_cases hab : a < b
    · obtain ⟨k, rfl⟩ : ∃ k, b = a + (k + 1) := ⟨b - a - 1, by omega⟩
      refine ⟨⟨a, a + k⟩, ?_, by show a ≤ a + k; omega, ?_⟩
      · simp [nodePortsIt, List.range'_concat]
      · simp only [Nat.add_sub_cancel_left, List.range'_concat, List.dropLast_concat]
    · obtain rfl : a = b := by omega
      exact ⟨⟨a, a⟩, by simp [nodePortsIt], Nat.le_refl _, by simp⟩
  · rintro n ⟨a, b⟩ l ⟨h1, rfl⟩
    simp only at h1
    by_cases hab : a + n < b
    · refine ⟨⟨a + n + 1, b⟩, ?_, by show a + n + 1 ≤ b; omega, ?_⟩
      · have : n < b - a := by omega
        simp [nodePortsIt, hab, this]
      · rw [List.drop_range']
        simp only [Nat.mul_one, Nat.one_mul]
        congr 1
        omega
    · refine ⟨⟨b, b⟩, ?_, Nat.le_refl _, ?_⟩
      · have : ¬ n < b - a := by omega
        simp [nodePortsIt, hab, this]
      · simp only [Nat.sub_self, List.range'_zero]
        rw [List.drop_eq_nil_of_le]
        simp
        omega
  · rintro ⟨a, b⟩ l ⟨h1, rfl⟩
    simp [nodePortsIt]
  · rintro - ⟨a, b⟩ l ⟨h1, rfl⟩
    simp [nodePortsIt]

/-- **C58** The ports of a node: `ports(n, d)`, `inputs`, `outputs` and `all_ports` answer every
sequence of calls of `next`, `next_back`, `nth`, `count` and `size_hint` as the list of those
ports; also for nodes that are not in the graph. -/
theorem C58_node_ports (g : PG.PG) (n : Nat) :
    (∀ d, Behaves nodePortsIt (nodePorts g n d) (g.ports n d)) ∧ Behaves nodePortsIt (nodeAllPorts g n) (g.allPorts n) := by
  refine ⟨fun d => range_behaves ?_, range_behaves ?_⟩
  · unfold nodePorts PG.PG.ports
    cases g.node? n with
    | none => cases d <;> exact ⟨Nat.le_refl _, rfl⟩
    | some m =>
      cases d
      · exact ⟨Nat.le_add_right .., by simp [PG.NodeMeta.ports, PG.NodeMeta.start, PG.NodeMeta.numPorts]⟩
      · exact ⟨Nat.le_add_right .., by simp [PG.NodeMeta.ports, PG.NodeMeta.start, PG.NodeMeta.numPorts]⟩
  · unfold nodeAllPorts PG.PG.allPorts
    cases g.node? n with
    | none => exact ⟨Nat.le_refl _, rfl⟩
    | some m =>
      refine ⟨by show m.first ≤ m.first + m.incoming + m.outgoing; omega, ?_⟩
      simp only [PG.NodeMeta.allPorts]
      congr 1
      omega

/-- **C58** `nodes_iter` of a reachable port graph: the nodes in increasing order. -/
theorem C58_nodes {maxOff : Nat} (hmax : maxOff ≤ 32767) {g : PG.PG} (hg : PG.PG.Reach maxOff g) :
    Behaves nodesIt g.nodesIter ((List.range g.nodeMeta.length).filter g.containsNode) :=
  behavesFor_of PG.NodesR PG.nodes_next (fun _ => PG.nodes_back) (nth_default PG.nodes_next)
    (fun s l h => by simp [nodesIt, h.2]) (fun _ s l h => by simp [nodesIt, h.2]) (PG.nodesIter_R (hg.inv hmax))

example := C58_nodes (by decide) PG.exG_reach

/-- **C58** `ports_iter` of a reachable port graph: the ports in increasing order. -/
theorem C58_ports {maxOff : Nat} (hmax : maxOff ≤ 32767) {g : PG.PG} (hg : PG.PG.Reach maxOff g) :
    Behaves portsIt g.portsIter ((List.range g.portMeta.length).filter g.containsPort) :=
  behavesFor_of PG.PortsR PG.ports_next (fun _ => PG.ports_back) (nth_default PG.ports_next)
    (fun s l h => by simp [portsIt, h.2]) (fun _ s l h => by simp [portsIt, h.2]) (PG.portsIter_R (hg.inv hmax))

example := C58_ports (by decide) PG.exG_reach

/-- **C58** `port_offsets` and `all_port_offsets`: the incoming offsets, then the outgoing ones. -/
theorem C58_port_offsets (g : PG.PG) (n : Nat) :
    (∀ d, Behaves offsetsIt (g.portOffsets n d) ((List.range (g.numPorts n d)).map fun i => (d, i))) ∧
    Behaves offsetsIt (g.allPortOffsets n) ((List.range (g.numPorts n .incoming)).map (fun i => (Direction.incoming, i)) ++
      (List.range (g.numPorts n .outgoing)).map fun i => (Direction.outgoing, i)) := by
  have key : ∀ s l, PG.OffsetsR s l → Behaves offsetsIt s l := fun s l h =>
    behavesFor_of PG.OffsetsR PG.offsets_next (fun _ => PG.offsets_back) (nth_default PG.offsets_next)
      (fun s l h => by simp [offsetsIt, PG.offsets_len s l h]) (fun _ s l h => by simp [offsetsIt, PG.offsets_len s l h]) h
  refine ⟨fun d => key _ _ ?_, key _ _ ?_⟩
  · cases d <;> simp [PG.OffsetsR, PG.PG.portOffsets, List.range_eq_range']
  · simp [PG.OffsetsR, PG.PG.allPortOffsets, List.range_eq_range']

/-! ## Hierarchies -/

private def ChildrenR (K : Hier.Kids) (p : Nat) (s : Hier.Children) (l : List Nat) : Prop :=
  s.len = l.length ∧ ∃ l1 l2, K p = l1 ++ l ++ l2 ∧ (l ≠ [] → s.next = l.head? ∧ s.prev = l.getLast?)

/-- **C58** The children of a node, for every history of the hierarchy (without pushing a node
under itself): every sequence of calls is answered as by the list of children. -/
theorem C58_children {h : Hier.Hierarchy} (hr : Hier.Reach h) (p : Nat) :
    Behaves (childrenIt h) (h.children p) (h.kids p) := by
  obtain ⟨v, -⟩ := hr.inv
  have r := v.repr
  have hnext : ∀ s l, ChildrenR h.kids p s l → ∃ s', s.step h = some (l.head?, s') ∧ ChildrenR h.kids p s' l.tail := by
    rintro ⟨a, b, k⟩ l ⟨hk, l1, l2, e, hab⟩
    simp only at hk hab
    subst hk
    cases l with
    | nil => exact ⟨⟨a, b, 0⟩, by simp [Hier.Children.step], rfl, l1, l2, e, fun h => absurd rfl h⟩
    | cons x m =>
      obtain ⟨rfl, rfl⟩ := hab (by simp)
      have hx := (r.sib p l1 x (m ++ l2) (by rw [e]; simp)).2.2
      refine ⟨⟨h.next x, _, m.length⟩, by simp [Hier.Children.step]; rfl, rfl, l1 ++ [x], l2, by rw [e]; simp, fun hm => ?_⟩
      have hm : m ≠ [] := hm
      refine ⟨?_, ?_⟩
      · simp only [Hier.Hierarchy.next, hx, List.tail_cons]
        cases m with
        | nil => exact absurd rfl hm
        | cons => rfl
      · cases m with
        | nil => exact absurd rfl hm
        | cons => simp [List.getLast?_cons]
  refine behavesFor_of (ChildrenR h.kids p) hnext ?_ (nth_default hnext) ?_ ?_ ?_
  · rintro - ⟨a, b, k⟩ l ⟨hk, l1, l2, e, hab⟩
    simp only at hk hab
    subst hk
    rcases List.eq_nil_or_concat l with rfl | ⟨m, y, rfl⟩
    · exact ⟨⟨a, b, 0⟩, by simp [childrenIt, Hier.Children.stepBack], rfl, l1, l2, e, fun h => absurd rfl h⟩
    · rw [List.concat_eq_append] at *
      obtain ⟨rfl, rfl⟩ := hab (by simp)
      have hx := (r.sib p (l1 ++ m) y l2 (by rw [e]; simp)).2.1
      refine ⟨⟨_, h.prev y, m.length⟩, by simp [childrenIt, Hier.Children.stepBack]; rfl, by simp, l1, y :: l2,
        by rw [e]; simp, fun hm => ?_⟩
      rw [List.dropLast_concat] at hm ⊢
      refine ⟨?_, ?_⟩
      · cases m with
        | nil => exact absurd rfl hm
        | cons => simp
      · simp only [Hier.Hierarchy.prev, hx]
        rcases List.eq_nil_or_concat m with rfl | ⟨m', z, rfl⟩
        · exact absurd rfl hm
        · simp [← List.append_assoc]
  · intro s l h1
    exact count_default hnext _ s l h1 (by rw [h1.1]; exact Nat.lt_succ_self _)
  · intro _ s l h1
    simp [childrenIt, h1.1]
  · exact ⟨r.count p, [], [], by simp, fun _ => ⟨r.first p, r.last p⟩⟩

/-- What is left of the descendants, as a list. -/
private def DescR (h : Hier.Hierarchy) (s : Hier.NextStates) (l : List Nat) : Prop := ∃ f, s.collect h f = some l

private theorem desc_next {h : Hier.Hierarchy} (s : Hier.NextStates) (l : List Nat) (hs : DescR h s l) :
    ∃ s', some (s.step h) = some (l.head?, s') ∧ DescR h s' l.tail := by
  obtain ⟨f, hf⟩ := hs
  cases f with
  | zero => simp [Hier.NextStates.collect] at hf
  | succ f =>
    rcases hst : s.step h with ⟨x, s'⟩
    simp only [Hier.NextStates.collect, hst] at hf
    cases x with
    | none =>
      obtain rfl := Option.some.inj hf
      refine ⟨s', rfl, ?_⟩
      have : s = .descendants [] := by
        cases s with
        | root r => simp [Hier.NextStates.step] at hst
        | descendants q =>
          cases q with
          | nil => rfl
          | cons x q => simp [Hier.NextStates.step] at hst
      subst this
      have : s' = .descendants [] := by
        simp only [Hier.NextStates.step, Prod.mk.injEq, true_and] at hst
        exact hst.symm
      subst this
      exact ⟨1, rfl⟩
    | some x =>
      simp only [Option.map_eq_some_iff] at hf
      obtain ⟨l', h1, rfl⟩ := hf
      exact ⟨s', rfl, f, h1⟩

private theorem desc_len {h : Hier.Hierarchy} (f : Nat) : ∀ s l, Hier.NextStates.collect h f s = some l → queueLen s ≤ l.length := by
  induction f with
  | zero => intro s l hs; simp [Hier.NextStates.collect] at hs
  | succ f ih =>
    intro s l hs
    rcases hst : s.step h with ⟨x, s'⟩
    simp only [Hier.NextStates.collect, hst] at hs
    cases s with
    | root r =>
      simp only [Hier.NextStates.step, Prod.mk.injEq] at hst
      obtain ⟨rfl, rfl⟩ := hst
      simp only [Option.map_eq_some_iff] at hs
      obtain ⟨l', -, rfl⟩ := hs
      simp [queueLen]
    | descendants q =>
      cases q with
      | nil => simp [queueLen]
      | cons y q =>
        simp only [Hier.NextStates.step, Prod.mk.injEq] at hst
        obtain ⟨rfl, rfl⟩ := hst
        simp only [Option.map_eq_some_iff] at hs
        obtain ⟨l', h1, rfl⟩ := hs
        have := ih _ _ h1
        revert this
        cases h.next y <;> cases h.first y <;> simp [queueLen] <;> omega

/-- **C58** `descendants(n)`: every sequence of calls of `next`, `nth` and `count` is answered as by
the list of the levels below `n`, with enough fuel for `count`; after any number of calls of `next`
the size hint is a correct lower bound for what is left. -/
theorem C58_descendants {h : Hier.Hierarchy} (hr : Hier.Reach h) (n : Nat) :
    ∃ m, Hier.level h.kids n m = [] ∧
      let l := (List.range m).flatMap (Hier.level h.kids n)
      (∀ fuel, l.length < fuel →
        BehavesFor (fun c => c ≠ .back ∧ c ≠ .hint) (descendantsIt h fuel) (h.descendants n) l) ∧
      Multi.ServesForward (fun s => some (Hier.NextStates.step h s)) (fun s => (queueLen s, none)) (h.descendants n) l := by
  obtain ⟨m, f0, h1, h2⟩ := Hier.C26_levels hr n
  refine ⟨m, h1, fun fuel hf => ?_, ?_⟩
  · refine behavesFor_of (fun s l => DescR h s l ∧ l.length < fuel) ?_ (fun hc => absurd rfl hc.1) ?_ ?_
      (fun hc => absurd rfl hc.2) ⟨⟨f0, h2 _ (Nat.le_refl _)⟩, hf⟩
    · rintro s l ⟨hs, hl⟩
      obtain ⟨s', h3, h4⟩ := desc_next s l hs
      exact ⟨s', h3, h4, by rw [List.length_tail]; omega⟩
    · rintro k s l ⟨hs, hl⟩
      obtain ⟨s', h3, h4⟩ := nth_default (R := DescR h) desc_next k s l hs
      exact ⟨s', h3, h4, by rw [List.length_drop]; omega⟩
    · rintro s l ⟨hs, hl⟩
      exact count_default (R := DescR h) desc_next _ s l hs hl
  · refine Multi.forward_of (DescR h) desc_next ?_ ⟨f0, h2 _ (Nat.le_refl _)⟩
    rintro s l ⟨f, hs⟩
    exact ⟨desc_len f s l hs, fun u hu => nomatch hu⟩

example : Hier.Reach Hier.exH ∧ (childrenIt Hier.exH).run (Hier.exH.children 0) [.nth 1, .hint, .back, .count, .next] =
    some [.item (some 2), .hint 1 (some 1), .item (some 3), .count 0, .item none] :=
  ⟨Hier.exH_reach, by decide +kernel⟩

example : (descendantsIt Hier.exH 9).run (Hier.exH.descendants 0) [.next, .nth 2, .hint, .count] =
    some [.item (some 0), .item (some 3), .hint 1 none, .count 2] := by decide +kernel

/-! ## Secondary maps -/

private def EnumR {V : Type} (maxKey : Nat) (s : Enum V) (l : List (Nat × V)) : Prop :=
  s.index + s.rest.length ≤ maxKey + 1 ∧ l = (List.range' s.index s.rest.length).zip s.rest

/-- **C58** `iter` of a dense map with keys up to the maximum of the index type: every sequence of
calls is answered as by the list of all entries with their keys. -/
theorem C58_dense_iter {V : Type} (maxKey : Nat) (m : Secondary.Dense V) (hm : m.data.length ≤ maxKey + 1) :
    Behaves (denseIt maxKey) (denseStart m) m.iter := by
  refine behavesFor_of (EnumR maxKey) ?_ ?_ ?_ ?_ ?_ ?_
  · rintro ⟨i, r⟩ l ⟨h1, rfl⟩
    simp only at h1
    cases r with
    | nil => exact ⟨⟨i, []⟩, rfl, h1, rfl⟩
    | cons x r =>
      simp only [List.length_cons] at h1
      refine ⟨⟨i + 1, r⟩, ?_, by show i + 1 + r.length ≤ maxKey + 1; omega, ?_⟩
      · simp [denseIt, keyOf, List.range'_succ, show i ≤ maxKey by omega]
      · simp [List.range'_succ]
  · rintro - ⟨i, r⟩ l ⟨h1, rfl⟩
    simp only at h1
    rcases List.eq_nil_or_concat r with rfl | ⟨q, x, rfl⟩
    · exact ⟨⟨i, []⟩, rfl, h1, rfl⟩
    · rw [List.concat_eq_append] at *
      simp only [List.length_append, List.length_cons, List.length_nil] at h1
      have e : (List.range' i (q.length + 1)).zip (q ++ [x]) = (List.range' i q.length).zip q ++ [(i + q.length, x)] := by
        rw [List.range'_concat, Nat.one_mul, List.zip_append (by simp)]
        rfl
      refine ⟨⟨i, q⟩, ?_, by show i + q.length ≤ maxKey + 1; omega, ?_⟩
      · simp [denseIt, keyOf, e, show i + q.length ≤ maxKey by omega]
      · simp [e]
  · rintro n ⟨i, r⟩ l ⟨h1, rfl⟩
    simp only at h1
    cases hn : r[n]? with
    | none =>
      have hlen : r.length ≤ n := List.getElem?_eq_none_iff.mp hn
      refine ⟨⟨i, []⟩, ?_, by show i + 0 ≤ maxKey + 1; omega, ?_⟩
      · simp only [denseIt, hn]
        rw [List.getElem?_eq_none]
        simp
        omega
      · rw [List.drop_eq_nil_of_le]
        · rfl
        · simp
          omega
    | some x =>
      obtain ⟨hlt, -⟩ := List.getElem?_eq_some_iff.mp hn
      refine ⟨⟨i + n + 1, r.drop (n + 1)⟩, ?_, ?_, ?_⟩
      · have : ((List.range' i r.length).zip r)[n]? = some (i + n, x) := by
          rw [List.getElem?_zip_eq_some]
          exact ⟨by simp [hlt], hn⟩
        simp [denseIt, hn, keyOf, this, show i + n ≤ maxKey by omega]
      · show i + n + 1 + (r.drop (n + 1)).length ≤ maxKey + 1
        rw [List.length_drop]
        omega
      · rw [List.zip, List.drop_zipWith, List.drop_range', List.length_drop]
        rw [Nat.mul_one, ← Nat.add_assoc]
  · rintro ⟨i, r⟩ l ⟨h1, rfl⟩
    simp [denseIt]
  · rintro - ⟨i, r⟩ l ⟨h1, rfl⟩
    simp [denseIt]
  · exact ⟨by show 0 + m.data.length ≤ maxKey + 1; omega, by simp [Secondary.Dense.iter, denseStart, List.range_eq_range']⟩

example : (denseIt 5).run (denseStart (⟨[7, 8, 9, 10], 0⟩ : Secondary.Dense Nat)) [.nth 1, .back, .hint, .next, .next] =
    some [.item (some (1, 8)), .item (some (3, 10)), .hint 1 (some 1), .item (some (2, 9)), .item none] := by decide +kernel

/-- The bound on the length is needed: a key that the index type cannot hold makes the iterator
panic. -/
theorem C58_witness_key_too_large :
    (denseIt 1).run (denseStart (⟨[7, 8, 9], 0⟩ : Secondary.Dense Nat)) [.nth 2] = none := by decide +kernel

private def BitsR (maxKey : Nat) (s : List Nat) (l : List (Nat × Bool)) : Prop :=
  (∀ k ∈ s, k ≤ maxKey) ∧ l = s.map fun k => (k, true)

/-- **C58** `iter` of a bit vector with keys up to the maximum of the index type: every sequence of
calls is answered as by the list of the keys with set bits. -/
theorem C58_bit_vec_iter (maxKey : Nat) (m : List Bool) (hm : m.length ≤ maxKey + 1) :
    Behaves (bitsIt maxKey) (bitsStart m) (Secondary.Bits.iter m) := by
  refine behavesFor_of (BitsR maxKey) ?_ ?_ ?_ ?_ ?_ ?_
  · rintro s l ⟨h1, rfl⟩
    cases s with
    | nil => exact ⟨[], rfl, h1, rfl⟩
    | cons k s =>
      exact ⟨s, by simp [bitsIt, keyOf, h1 k], fun k hk => h1 k (List.mem_cons_of_mem _ hk), rfl⟩
  · rintro - s l ⟨h1, rfl⟩
    rcases List.eq_nil_or_concat s with rfl | ⟨q, k, rfl⟩
    · exact ⟨[], rfl, h1, rfl⟩
    · rw [List.concat_eq_append] at *
      exact ⟨q, by simp [bitsIt, keyOf, h1 k], fun k hk => h1 k (by simp [hk]), by simp⟩
  · rintro n s l ⟨h1, rfl⟩
    cases hn : s[n]? with
    | none =>
      refine ⟨[], by simp [bitsIt, hn], (by simp), ?_⟩
      have hlen : s.length ≤ n := List.getElem?_eq_none_iff.mp hn
      rw [List.drop_eq_nil_of_le]
      · rfl
      · simp
        omega
    | some k =>
      have := h1 k (List.mem_of_getElem? hn)
      exact ⟨s.drop (n + 1), by simp [bitsIt, hn, keyOf, this], fun k hk => h1 k (List.mem_of_mem_drop hk), by simp⟩
  · rintro s l ⟨h1, rfl⟩
    simp [bitsIt]
  · rintro - s l ⟨h1, rfl⟩
    simp [bitsIt]
  · refine ⟨?_, ?_⟩
    · intro k hk
      simp only [bitsStart, List.mem_filter, List.mem_range] at hk
      omega
    · unfold Secondary.Bits.iter bitsStart
      rw [← List.filterMap_eq_filter, List.map_filterMap]
      apply List.filterMap_congr
      intro k hk
      by_cases h : m[k]? = some true <;> simp [h, Option.guard]

example : (bitsIt 9).run (bitsStart [true, false, true, true]) [.nth 1, .count, .back, .hint] =
    some [.item (some (2, true)), .count 1, .item (some (3, true)), .hint 0 (some 0)] := by decide +kernel

/-- **C58** `iter` of a hash set: every sequence of calls of `next`, `nth`, `count` and `size_hint`
is answered as by the list of its elements, in the order of the set. -/
theorem C58_hash_set_iter {K : Type} (m : List K) :
    BehavesFor (fun c => c ≠ .back) hashIt m (Secondary.HSet.iter m) := by
  refine behavesFor_of (fun s l => l = s.map fun k => (k, true)) ?_ (fun h => absurd rfl h) ?_ ?_ ?_ rfl
  · rintro s l rfl
    exact ⟨s.tail, by simp [hashIt], by simp⟩
  · rintro n s l rfl
    exact ⟨s.drop (n + 1), by simp [hashIt], by simp⟩
  · rintro s l rfl
    simp [hashIt]
  · rintro - s l rfl
    simp [hashIt]

example := C58_children Hier.exH_reach 0

end Verif.Iter

#print axioms Verif.Iter.C58_node_ports
#print axioms Verif.Iter.C58_nodes
#print axioms Verif.Iter.C58_ports
#print axioms Verif.Iter.C58_port_offsets
#print axioms Verif.Iter.C58_children
#print axioms Verif.Iter.C58_descendants
#print axioms Verif.Iter.C58_dense_iter
#print axioms Verif.Iter.C58_witness_key_too_large
#print axioms Verif.Iter.C58_bit_vec_iter
#print axioms Verif.Iter.C58_hash_set_iter
