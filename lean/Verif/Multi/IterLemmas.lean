import Verif.Multi.IterSpec
import Verif.Multi.ViewOk
import Verif.PortGraph.IterLemmas

/-! Lemmas about the iterators of multiport graphs. -/

namespace Verif.Multi

open Verif (Direction)
open Verif.PG Verif.View

section
variable {S X : Type} {next back : S → Option (Option X × S)} {hint : S → Nat × Option Nat}

theorem serves_of (R : S → List X → Prop)
    (hnext : ∀ s l, R s l → ∃ s', next s = some (l.head?, s') ∧ R s' l.tail)
    (hback : ∀ s l, R s l → ∃ s', back s = some (l.getLast?, s') ∧ R s' l.dropLast)
    (hh : ∀ s l, R s l → HintOk (hint s) l.length) {s l} (h : R s l) : Serves next back hint s l := by
  intro bs
  induction bs generalizing s l with
  | nil => exact ⟨s, rfl, hh _ _ h⟩
  | cons b bs ih =>
    cases b with
    | false =>
      obtain ⟨s', h1, h2⟩ := hnext s l h
      obtain ⟨t, h3, h4⟩ := ih h2
      exact ⟨t, by simp only [runCalls, Bool.false_eq_true, if_false, h1, h3]; rfl, h4⟩
    | true =>
      obtain ⟨s', h1, h2⟩ := hback s l h
      obtain ⟨t, h3, h4⟩ := ih h2
      exact ⟨t, by simp only [runCalls, if_true, h1, h3]; rfl, h4⟩

theorem forward_of (R : S → List X → Prop)
    (hnext : ∀ s l, R s l → ∃ s', next s = some (l.head?, s') ∧ R s' l.tail)
    (hh : ∀ s l, R s l → HintOk (hint s) l.length) {s l} (h : R s l) : ServesForward next hint s l := by
  intro k
  induction k generalizing s l with
  | zero => exact ⟨s, rfl, hh _ _ h⟩
  | succ k ih =>
    obtain ⟨s', h1, h2⟩ := hnext s l h
    obtain ⟨t, h3, h4⟩ := ih h2
    refine ⟨t, ?_, ?_⟩
    · simp only [List.replicate_succ, runCalls, Bool.false_eq_true, if_false, h1, h3, Option.map_some]
      rw [List.range_succ_eq_map]
      cases l <;> simp [Function.comp_def]
    · rw [List.length_tail] at h4
      rw [show l.length - (k + 1) = l.length - 1 - k by omega]; exact h4

/-- `findKept` over an iterator of `l` finds the first kept item. -/
theorem findKept_next {R : S → List X → Prop} {keep : X → Option Bool} {p : X → Bool}
    (hnext : ∀ s l, R s l → ∃ s', next s = some (l.head?, s') ∧ R s' l.tail) (f : Nat) {s l} (h : R s l)
    (hp : ∀ x ∈ l, keep x = some (p x)) (hf : l.length < f) :
    ∃ s' l', findKept next keep f s = some ((l.filter p).head?, s') ∧ R s' l' ∧ l'.filter p = (l.filter p).tail ∧
      (∀ x ∈ l', x ∈ l) := by
  induction f generalizing s l with
  | zero => omega
  | succ f ih =>
    obtain ⟨s', h1, h2⟩ := hnext s l h
    cases l with
    | nil => exact ⟨s', [], by simp [findKept, h1], h2, rfl, by simp⟩
    | cons x l =>
      simp only [List.head?_cons] at h1
      simp only [List.tail_cons] at h2
      have hx := hp x (by simp)
      cases hpx : p x with
      | true =>
        refine ⟨s', l, ?_, h2, ?_, by simp +contextual⟩
        · simp [findKept, h1, hx, hpx]
        · simp [hpx]
      | false =>
        obtain ⟨t, l', h3, h4, h5, h6⟩ := ih h2 (fun y hy => hp y (by simp [hy])) (by simp at hf; omega)
        refine ⟨t, l', ?_, h4, ?_, fun y hy => by simp [h6 y hy]⟩
        · simp [findKept, h1, hx, hpx, h3]
        · simp [hpx, h5]

theorem findKept_back {R : S → List X → Prop} {keep : X → Option Bool} {p : X → Bool}
    (hback : ∀ s l, R s l → ∃ s', back s = some (l.getLast?, s') ∧ R s' l.dropLast) (f : Nat) {s l} (h : R s l)
    (hp : ∀ x ∈ l, keep x = some (p x)) (hf : l.length < f) :
    ∃ s' l', findKept back keep f s = some ((l.filter p).getLast?, s') ∧ R s' l' ∧ l'.filter p = (l.filter p).dropLast ∧
      (∀ x ∈ l', x ∈ l) := by
  have := findKept_next (S := S) (next := back) (R := fun s l => R s l.reverse) (keep := keep) (p := p) (by
    intro s l hs
    obtain ⟨s', h1, h2⟩ := hback s _ hs
    refine ⟨s', ?_, ?_⟩
    · rw [h1, List.getLast?_reverse]
    · rw [List.dropLast_reverse] at h2; exact h2) f (s := s) (l := l.reverse) (by simpa using h) (by simpa using hp) (by simpa using hf)
  obtain ⟨s', l', h1, h2, h3, h4⟩ := this
  refine ⟨s', l'.reverse, ?_, h2, ?_, ?_⟩
  · rw [h1, List.filter_reverse, List.head?_reverse]
  · rw [List.filter_reverse, h3, List.filter_reverse, ← List.dropLast_reverse, List.reverse_reverse]
  · simpa using h4

end

/-! ### Nodes and ports -/

variable {m : MG}

theorem length_filterMap_le' {α β : Type} (f : α → Option β) (l : List α) : (l.filterMap f).length ≤ l.length :=
  List.length_filterMap_le f l

def MNodesR (m : MG) (s : MNodes) (l : List Nat) : Prop :=
  ∃ l', NodesR s.iter l' ∧ l'.filter (fun n => !m.copy n) = l ∧ s.len = l.length

theorem mnodes_took {s : MNodes} {l : List Nat} (h : s.len = l.length) {it : Nodes} {o : Option Nat}
    (ho : o = none ↔ l = []) {l' l'' : List Nat} (h1 : NodesR it l'') (h2 : l''.filter (fun n => !m.copy n) = l')
    (hl : l'.length = l.length - 1) : ∃ s', s.took (some (o, it)) = some (o, s') ∧ MNodesR m s' l' := by
  cases o with
  | none =>
    have := ho.1 rfl
    subst this
    exact ⟨_, rfl, l'', h1, h2, by simp_all⟩
  | some x =>
    have : l ≠ [] := fun hl => by cases ho.2 hl
    have hp := List.length_pos_iff.2 this
    refine ⟨⟨it, s.len - 1⟩, ?_, l'', h1, h2, ?_⟩
    · simp only [MNodes.took]; rw [if_neg (by omega)]
    · simp only; omega

theorem mnodes_next (s : MNodes) (l) (h : MNodesR m s l) :
    ∃ s', s.next m = some (l.head?, s') ∧ MNodesR m s' l.tail := by
  obtain ⟨l', h1, h2, h3⟩ := h
  have hf : l'.length < s.iter.iter.length + 1 := by
    have := List.length_filterMap_le liveIdx s.iter.iter
    rw [h1.1] at this; omega
  obtain ⟨t, l'', h4, h5, h6, -⟩ := findKept_next (p := fun n => !m.copy n) nodes_next _ h1 (fun _ _ => rfl) hf
  unfold MNodes.next
  rw [h4]
  rw [h2] at h6 ⊢
  exact mnodes_took h3 (by simp) h5 h6 (by simp)

theorem mnodes_back (s : MNodes) (l) (h : MNodesR m s l) :
    ∃ s', s.nextBack m = some (l.getLast?, s') ∧ MNodesR m s' l.dropLast := by
  obtain ⟨l', h1, h2, h3⟩ := h
  have hf : l'.length < s.iter.iter.length + 1 := by
    have := List.length_filterMap_le liveIdx s.iter.iter
    rw [h1.1] at this; omega
  obtain ⟨t, l'', h4, h5, h6, -⟩ := findKept_back (p := fun n => !m.copy n) nodes_back _ h1 (fun _ _ => rfl) hf
  unfold MNodes.nextBack
  rw [h4]
  rw [h2] at h6 ⊢
  exact mnodes_took h3 (by simp) h5 h6 (by simp)

def shownPort (m : MG) (p : Nat) : Bool :=
  match m.graph.portNode p with
  | some n => !m.copy n
  | none => false

def MPortsR (m : MG) (s : Ports) (l : List Nat) : Prop :=
  ∃ l', PortsR s l' ∧ (∀ p ∈ l', (m.graph.portNode p).isSome = true) ∧ l'.filter (shownPort m) = l

theorem keepPort_eq {p : Nat} (h : (m.graph.portNode p).isSome = true) : m.keepPort p = some (shownPort m p) := by
  obtain ⟨n, hn⟩ := Option.isSome_iff_exists.1 h
  simp [MG.keepPort, shownPort, hn]

theorem mports_next (s : Ports) (l) (h : MPortsR m s l) :
    ∃ s', mportsNext m s = some (l.head?, s') ∧ MPortsR m s' l.tail := by
  obtain ⟨l', h1, h2, h3⟩ := h
  have hf : l'.length < s.iter.length + 1 := by
    have := List.length_filterMap_le portIdx s.iter
    rw [h1.1] at this; omega
  obtain ⟨t, l'', h4, h5, h6, h7⟩ := findKept_next (p := shownPort m) ports_next _ h1
    (fun p hp => keepPort_eq (h2 p hp)) hf
  refine ⟨t, by rw [← h3]; exact h4, l'', h5, fun p hp => h2 p (h7 p hp), by rw [h6, h3]⟩

theorem mports_back (s : Ports) (l) (h : MPortsR m s l) :
    ∃ s', mportsBack m s = some (l.getLast?, s') ∧ MPortsR m s' l.dropLast := by
  obtain ⟨l', h1, h2, h3⟩ := h
  have hf : l'.length < s.iter.length + 1 := by
    have := List.length_filterMap_le portIdx s.iter
    rw [h1.1] at this; omega
  obtain ⟨t, l'', h4, h5, h6, h7⟩ := findKept_back (p := shownPort m) ports_back _ h1
    (fun p hp => keepPort_eq (h2 p hp)) hf
  refine ⟨t, by rw [← h3]; exact h4, l'', h5, fun p hp => h2 p (h7 p hp), by rw [h6, h3]⟩

/-! ### Links of a port -/

def PLR (m : MG) : PLinks → List (Subport × Subport) → Prop
  | .single p false, l => ∃ o, m.linkFrom (some (p, 0)) p = some o ∧ l = o.toList
  | .single _ true, l => l = []
  | .multi p subs, l => ∃ os, (subs.mapM fun x => m.linkFrom (newMulti p x.2) x.1) = some os ∧ l = os.filterMap id

theorem mapM_cons_some {α β : Type} {f : α → Option β} {a : α} {l : List α} {r : List β} :
    (a :: l).mapM f = some r ↔ ∃ b bs, f a = some b ∧ l.mapM f = some bs ∧ r = b :: bs := by
  rw [List.mapM_cons]
  cases hf : f a with
  | none => simp
  | some b =>
    cases hl : l.mapM f with
    | none => simp [hl]
    | some bs => simp [hl, eq_comm]

theorem mapM_reverse_some {α β : Type} {f : α → Option β} {l : List α} {r : List β} (h : l.mapM f = some r) :
    l.reverse.mapM f = some r.reverse := by
  induction l generalizing r with
  | nil => cases h; rfl
  | cons a l ih =>
    obtain ⟨b, bs, h1, h2, rfl⟩ := mapM_cons_some.1 h
    rw [List.reverse_cons, List.mapM_append, ih h2]
    simp [h1]

theorem findLink_eq {p : Nat} {l : List (Nat × Nat)} {os}
    (h : (l.mapM fun x => m.linkFrom (newMulti p x.2) x.1) = some os) :
    ∃ l' os', findLink m p l = some ((os.filterMap id).head?, l') ∧
      (l'.mapM fun x => m.linkFrom (newMulti p x.2) x.1) = some os' ∧ os'.filterMap id = (os.filterMap id).tail := by
  induction l generalizing os with
  | nil => cases h; exact ⟨[], [], rfl, rfl, rfl⟩
  | cons x l ih =>
    obtain ⟨o, os, h1, h2, rfl⟩ := mapM_cons_some.1 h
    cases o with
    | none =>
      obtain ⟨l', os', h3, h4, h5⟩ := ih h2
      exact ⟨l', os', by simp [findLink, h1, h3], h4, by simpa using h5⟩
    | some y => exact ⟨l, os, by simp [findLink, h1], h2, by simp⟩

theorem plinks_next (c : PLinks) (l) (h : PLR m c l) : ∃ c', c.next m = some (l.head?, c') ∧ PLR m c' l.tail := by
  cases c with
  | single p e =>
    cases e with
    | false =>
      obtain ⟨o, h1, rfl⟩ := h
      refine ⟨.single p true, ?_, ?_⟩
      · simp only [PLinks.next, h1]; cases o <;> rfl
      · show _ = []
        cases o <;> rfl
    | true => cases h; exact ⟨_, rfl, rfl⟩
  | multi p subs =>
    obtain ⟨os, h1, rfl⟩ := h
    obtain ⟨l', os', h2, h3, h4⟩ := findLink_eq h1
    exact ⟨.multi p l', by simp only [PLinks.next, h2], os', h3, h4.symm⟩

theorem plinks_back (c : PLinks) (l) (h : PLR m c l) :
    ∃ c', c.nextBack m = some (l.getLast?, c') ∧ PLR m c' l.dropLast := by
  cases c with
  | single p e =>
    cases e with
    | false =>
      obtain ⟨o, h1, rfl⟩ := h
      refine ⟨.single p true, ?_, ?_⟩
      · simp only [PLinks.nextBack, h1]; cases o <;> rfl
      · show _ = []
        cases o <;> rfl
    | true => cases h; exact ⟨_, rfl, rfl⟩
  | multi p subs =>
    obtain ⟨os, h1, rfl⟩ := h
    obtain ⟨l', os', h2, h3, h4⟩ := findLink_eq (mapM_reverse_some h1)
    rw [List.filterMap_reverse] at h2 h4
    refine ⟨.multi p l'.reverse, ?_, os'.reverse, mapM_reverse_some h3, ?_⟩
    · simp only [PLinks.nextBack, h2, List.head?_reverse]
    · rw [List.filterMap_reverse, h4, ← List.dropLast_reverse, List.reverse_reverse]

theorem plinks_new {p : Nat} {l} (h : m.portLinks? p = some l) : ∃ c, m.plinks p = some c ∧ PLR m c l := by
  unfold MG.portLinks? at h
  unfold MG.plinks
  split at h
  · next hm =>
    rw [if_pos hm]
    split at h
    · next c hc =>
      cases hd : m.graph.portDirection p with
      | none => rw [hd] at h; cases h
      | some d =>
        rw [hd] at h
        simp only [Option.map_eq_some_iff] at h
        obtain ⟨os, h1, rfl⟩ := h
        exact ⟨.multi p (m.graph.ports c d).zipIdx, by rw [hc], os, h1, rfl⟩
    · cases h
  · next hm =>
    rw [if_neg hm]
    rw [Option.map_eq_some_iff] at h
    obtain ⟨o, h1, rfl⟩ := h
    exact ⟨.single p false, rfl, o, h1, rfl⟩

/-! ### Links of a node -/

/-- What is left of a `NodeLinks`, with the number of loop steps that are left at most. -/
def MLR (m : MG) (s : MLinks) (l : List (Subport × Subport)) (k : Nat) : Prop :=
  ∃ a bs, (match s.current with | none => a = [] | some c => PLR m c a) ∧ s.ports.mapM m.portLinks? = some bs ∧
    l = (a ++ bs.flatten).filter (fun y => !decide (s.lo ≤ y.2.1 ∧ y.2.1 < s.hi)) ∧
    k = a.length + (if s.current.isSome then 1 else 0) + (bs.map fun b => b.length + 2).sum

theorem mlinks_next (f : Nat) {s : MLinks} {l k} (h : MLR m s l k) (hf : k < f) :
    ∃ s' k', s.next m f = some (l.head?, s') ∧ MLR m s' l.tail k' ∧ k' ≤ k := by
  induction f generalizing s l k with
  | zero => omega
  | succ f ih =>
    obtain ⟨a, bs, h1, h2, rfl, rfl⟩ := h
    cases hc : s.current with
    | none =>
      rw [hc] at h1
      simp only at h1
      subst h1
      cases hp : s.ports with
      | nil =>
        rw [hp] at h2
        cases h2
        exact ⟨s, _, by simp [MLinks.next, hc, hp], ⟨[], [], by rw [hc], by rw [hp]; rfl, by simp, rfl⟩, by simp [hc]⟩
      | cons p ps =>
        rw [hp] at h2
        obtain ⟨b, bs, h3, h4, rfl⟩ := mapM_cons_some.1 h2
        obtain ⟨c, h5, h6⟩ := plinks_new h3
        obtain ⟨s', k', h7, h8, h9⟩ := ih (s := { s with ports := ps, current := some c }) ⟨b, bs, h6, h4, rfl, rfl⟩
          (by simp [hc] at hf ⊢; omega)
        refine ⟨s', k', ?_, ?_, ?_⟩
        · simp only [MLinks.next, hc, hp, h5, h7]
          simp
        · simpa using h8
        · simp [hc] at h9 ⊢; omega
    | some c =>
      rw [hc] at h1
      simp only at h1
      obtain ⟨c', h3, h4⟩ := plinks_next c a h1
      cases a with
      | nil =>
        obtain ⟨s', k', h7, h8, h9⟩ := ih (s := { s with current := none }) ⟨[], bs, rfl, h2, rfl, rfl⟩
          (by simp [hc] at hf ⊢; omega)
        refine ⟨s', k', ?_, h8, ?_⟩
        · simp only [List.head?_nil] at h3
          simp only [MLinks.next, hc, h3, h7]
        · simp [hc] at h9 ⊢; omega
      | cons y a =>
        simp only [List.head?_cons, List.tail_cons] at h3 h4
        by_cases hr : s.lo ≤ y.2.1 ∧ y.2.1 < s.hi
        · obtain ⟨s', k', h7, h8, h9⟩ := ih (s := { s with current := some c' }) ⟨a, bs, h4, h2, rfl, rfl⟩
            (by simp [hc] at hf ⊢; omega)
          have he : ((y :: a) ++ bs.flatten).filter (fun y => !decide (s.lo ≤ y.2.1 ∧ y.2.1 < s.hi)) =
              (a ++ bs.flatten).filter (fun y => !decide (s.lo ≤ y.2.1 ∧ y.2.1 < s.hi)) := by
            rw [List.cons_append, List.filter_cons_of_neg (by simp [hr])]
          refine ⟨s', k', ?_, ?_, ?_⟩
          · simp only [MLinks.next, hc, h3, if_pos hr, h7, he]
          · rw [he]; exact h8
          · simp [hc] at h9 ⊢; omega
        · have he : ((y :: a) ++ bs.flatten).filter (fun y => !decide (s.lo ≤ y.2.1 ∧ y.2.1 < s.hi)) =
              y :: (a ++ bs.flatten).filter (fun y => !decide (s.lo ≤ y.2.1 ∧ y.2.1 < s.hi)) := by
            rw [List.cons_append, List.filter_cons_of_pos (by simp; omega)]
          refine ⟨{ s with current := some c' }, a.length + 1 + (bs.map fun b => b.length + 2).sum, ?_, ?_, ?_⟩
          · simp only [MLinks.next, hc, h3, if_neg hr, he, List.head?_cons]
          · rw [he]; exact ⟨a, bs, h4, h2, rfl, rfl⟩
          · simp [hc]

/-! ### Links between two nodes -/

def MCR (m : MG) (t fuel f : Nat) (s : MLinks) (r : List (Subport × Subport)) : Prop :=
  ∃ l k, MLR m s l k ∧ k < fuel ∧ l.length < f ∧ (∀ y ∈ l, (m.graph.portNode y.2.1).isSome = true) ∧
    r = l.filter fun y => decide (m.graph.portNode y.2.1 = some t)

theorem conns_next {t fuel F : Nat} (f : Nat) (s : MLinks) (r) (h : MCR m t fuel f s r) (hF : f ≤ F) :
    ∃ s', connsNext m t fuel f s = some (r.head?, s') ∧ MCR m t fuel F s' r.tail := by
  induction f generalizing s r with
  | zero => obtain ⟨l, k, -, -, h, -⟩ := h; omega
  | succ f ih =>
    obtain ⟨l, k, h1, h2, h3, h4, rfl⟩ := h
    obtain ⟨s', k', h5, h6, h7⟩ := mlinks_next fuel h1 h2
    cases l with
    | nil =>
      refine ⟨s', ?_, [], k', h6, by omega, by simp at h3 ⊢; omega, by simp, by simp⟩
      simp only [List.head?_nil] at h5
      simp [connsNext, h5]
    | cons y l =>
      simp only [List.head?_cons, List.tail_cons] at h5 h6
      obtain ⟨n, hn⟩ := Option.isSome_iff_exists.1 (h4 y (by simp))
      by_cases hy : n = t
      · refine ⟨s', ?_, l, k', h6, by omega, by simp at h3; omega, fun z hz => h4 z (by simp [hz]), ?_⟩
        · simp [connsNext, h5, hn, hy]
        · rw [List.filter_cons_of_pos (by simp [hn, hy])]; rfl
      · obtain ⟨s'', h8, h9⟩ := ih s' _ ⟨l, k', h6, by omega, by simp at h3; omega, fun z hz => h4 z (by simp [hz]), rfl⟩ (by omega)
        rw [List.filter_cons_of_neg (by simp [hn, hy])]
        exact ⟨s'', by simp [connsNext, h5, hn, hy, h8], h9⟩

/-! ### Subports -/

def MSR (m : MG) (s : MSubs) (l : List Subport) : Prop :=
  ∃ a bs, ((List.range' s.lo (s.hi - s.lo)).mapM fun k => s.current.bind fun p => newMulti p k) = some a ∧
    s.ports.mapM m.subportsAt? = some bs ∧ l = a ++ bs.flatten ∧
    (s.lo < s.hi → ∃ p c, s.current = some p ∧ m.multi p = true ∧ m.copyNode p = some (some c))

/-- Where the subport `e` came from. -/
def Came (m : MG) (s s' : MSubs) (e : Subport) : Prop :=
  (m.multi e.1 = false ∧ s'.hi ≤ s'.lo) ∨
  (m.multi e.1 = true ∧ s'.current = some e.1 ∧ s'.lo = e.2 + 1 ∧
    (e.2 = 0 ∨ s.current = some e.1 ∧ s.lo < s.hi ∧ s.lo = e.2))

theorem newMulti_fst {p k : Nat} {e : Subport} (h : newMulti p k = some e) : e = (p, k) := by
  unfold newMulti at h
  split at h <;> simp_all

theorem msubs_next (f : Nat) {s : MSubs} {l} (h : MSR m s l) (hf : s.ports.length < f) :
    ∃ s', s.next m f = some (l.head?, s') ∧ MSR m s' l.tail ∧ s'.ports.length ≤ s.ports.length ∧
      (∀ e, l.head? = some e → Came m s s' e) := by
  induction f generalizing s l with
  | zero => omega
  | succ f ih =>
    obtain ⟨a, bs, h1, h2, rfl, h3⟩ := h
    by_cases hr : s.lo < s.hi
    · obtain ⟨p, c, hp, hm, hc⟩ := h3 hr
      rw [show s.hi - s.lo = (s.hi - (s.lo + 1)) + 1 by omega, List.range'_succ] at h1
      obtain ⟨e, a, h4, h5, rfl⟩ := mapM_cons_some.1 h1
      rw [hp] at h4
      simp only [Option.bind_some] at h4
      have he := newMulti_fst h4
      refine ⟨{ s with lo := s.lo + 1 }, ?_, ⟨a, bs, h5, h2, rfl, fun _ => ⟨p, c, hp, hm, hc⟩⟩, Nat.le_refl _, ?_⟩
      · simp [MSubs.next, hr, hp, h4]
      · rintro e' ⟨⟩
        rw [he]
        exact .inr ⟨hm, hp, rfl, .inr ⟨hp, hr, rfl⟩⟩
    · rw [show s.hi - s.lo = 0 by omega] at h1
      cases h1
      cases hp : s.ports with
      | nil =>
        rw [hp] at h2
        cases h2
        refine ⟨s, by simp [MSubs.next, hr, hp], ⟨[], [], ?_, by rw [hp]; rfl, rfl, h3⟩, by simp [hp], by simp⟩
        rw [show s.hi - s.lo = 0 by omega]; rfl
      | cons p ps =>
        rw [hp] at h2
        obtain ⟨b, bs, h4, h5, rfl⟩ := mapM_cons_some.1 h2
        by_cases hm : m.multi p = true
        · unfold MG.subportsAt? at h4
          rw [if_pos hm] at h4
          split at h4
          · next d c hd hc =>
            have hb : ((List.range' 0 (m.graph.numPorts c d - 0)).mapM fun k => (some p).bind fun p => newMulti p k) = some b := by
              rw [← h4, List.range_eq_range']; rfl
            obtain ⟨s', h6, h7, h8, h9⟩ := ih (s := ⟨ps, some p, 0, m.graph.numPorts c d⟩) (l := b ++ bs.flatten)
              ⟨b, bs, hb, h5, rfl, fun _ => ⟨p, c, rfl, hm, hc⟩⟩ (by simp [hp] at hf ⊢; omega)
            refine ⟨s', ?_, ?_, by simp at h8 ⊢; omega, ?_⟩
            · simp only [MSubs.next, if_neg hr, hp, hm, if_true, hd, hc, h6]
              simp
            · simpa using h7
            · intro e he
              have := h9 e (by simpa using he)
              rcases this with h | ⟨x1, x2, x3, x4⟩
              · exact .inl h
              · refine .inr ⟨x1, x2, x3, ?_⟩
                rcases x4 with x4 | ⟨-, -, x4⟩
                · exact .inl x4
                · exact .inl x4.symm
          · cases h4
        · unfold MG.subportsAt? at h4
          rw [if_neg hm] at h4
          cases h4
          refine ⟨{ s with ports := ps, current := some p }, ?_, ⟨[], bs, ?_, h5, by simp, fun h => absurd h hr⟩,
            by simp, ?_⟩
          · simp [MSubs.next, hr, hp, hm]
          · simp only [show s.hi - s.lo = 0 by omega]; rfl
          · intro e he
            simp at he
            subst he
            exact .inl ⟨by simpa using hm, by simp only; omega⟩

/-! ### Neighbours -/

theorem neighTarget_eq {cache : Option Nat} {e : Subport} {o : Option Nat}
    (hc : m.multi e.1 = true → e.2 ≠ 0 → ∃ c, cache = some c ∧ m.copyNode e.1 = some (some c))
    (h : m.subportTarget? e = some o) : ∃ cache', neighTarget m cache e = some (o, cache') ∧
      (m.multi e.1 = true → ∃ c, cache' = some c ∧ m.copyNode e.1 = some (some c)) := by
  unfold MG.subportTarget? at h
  unfold neighTarget
  cases hm : m.multi e.1 with
  | false =>
    rw [hm] at h
    simp only [Bool.not_false, if_true] at h ⊢
    exact ⟨cache, by rw [h]; rfl, by simp⟩
  | true =>
    rw [hm] at h
    simp only [Bool.not_true, Bool.false_eq_true, if_false] at h ⊢
    split at h
    · next c d hcn hd =>
      have : (if e.2 = 0 then m.copyNode e.1 else some cache) = some (some c) := by
        split
        · exact hcn
        · next h0 =>
          obtain ⟨c', h1, h2⟩ := hc hm h0
          rw [hcn] at h2
          rw [h1, h2]
      rw [this, hd]
      simp only
      refine ⟨some c, ?_, fun _ => ⟨c, rfl, hcn⟩⟩
      split at h
      · cases h
      · next i hi => rw [hi]; simp only; rw [h]; rfl
    · cases h

def MNR (m : MG) (fuel f : Nat) (s : MNeigh) (r : List Nat) : Prop :=
  ∃ S os, MSR m s.subs S ∧ s.subs.ports.length < fuel ∧ S.length < f ∧
    (s.subs.lo < s.subs.hi → 0 < s.subs.lo → ∃ p c, s.subs.current = some p ∧ s.copy = some c ∧ m.copyNode p = some (some c)) ∧
    S.mapM (m.neighbourAt? s.node s.ignore) = some os ∧ r = os.filterMap id

theorem neigh_next {fuel F : Nat} (f : Nat) (s : MNeigh) (r) (h : MNR m fuel f s r) (hF : f ≤ F) :
    ∃ s', s.next m fuel f = some (r.head?, s') ∧ MNR m fuel F s' r.tail := by
  induction f generalizing s r with
  | zero => obtain ⟨S, os, -, -, h, -⟩ := h; omega
  | succ f ih =>
    obtain ⟨S, os, h1, h2, h3, h4, h5, rfl⟩ := h
    obtain ⟨t, h6, h7, h8, h9⟩ := msubs_next fuel h1 h2
    cases S with
    | nil =>
      cases h5
      simp only [List.head?_nil] at h6
      simp only [List.tail_nil] at h7
      refine ⟨{ s with subs := t }, by simp [MNeigh.next, h6], [], [], h7, by simp only; omega, by simp at h3 ⊢; omega, ?_, rfl, rfl⟩
      intro hlt
      obtain ⟨a, bs, ha, -, hab, -⟩ := h7
      rw [show t.hi - t.lo = (t.hi - (t.lo + 1)) + 1 by simp only at hlt; omega, List.range'_succ] at ha
      obtain ⟨b, bs', -, -, rfl⟩ := mapM_cons_some.1 ha
      simp at hab
    | cons e S =>
      obtain ⟨o, os, h10, h11, rfl⟩ := mapM_cons_some.1 h5
      simp only [List.head?_cons] at h6
      simp only [List.tail_cons] at h7
      have came := h9 e rfl
      have hcache : m.multi e.1 = true → e.2 ≠ 0 → ∃ c, s.copy = some c ∧ m.copyNode e.1 = some (some c) := by
        intro hm h0
        rcases came with ⟨hm', -⟩ | ⟨-, -, -, hx | ⟨x1, x2, x3⟩⟩
        · rw [hm] at hm'; cases hm'
        · exact absurd hx h0
        · obtain ⟨p, c, y1, y2, y3⟩ := h4 x2 (by omega)
          rw [x1] at y1; cases y1
          exact ⟨c, y2, y3⟩
      have hnew : ∀ cache', (m.multi e.1 = true → ∃ c, cache' = some c ∧ m.copyNode e.1 = some (some c)) →
          t.lo < t.hi → 0 < t.lo → ∃ p c, t.current = some p ∧ cache' = some c ∧ m.copyNode p = some (some c) := by
        intro cache' hc hlt _
        rcases came with ⟨-, hle⟩ | ⟨hm, x1, -, -⟩
        · omega
        · obtain ⟨c, y1, y2⟩ := hc hm
          exact ⟨e.1, c, x1, y1, y2⟩
      unfold MG.neighbourAt? at h10
      cases hst : m.subportTarget? e with
      | none => rw [hst] at h10; cases h10
      | some tg =>
        rw [hst] at h10
        obtain ⟨cache', h12, h13⟩ := neighTarget_eq hcache hst
        have hcont : ∀ (r' : List Nat), r' = os.filterMap id →
            ∃ s', MNeigh.next m fuel f { s with subs := t, copy := cache' } = some (r'.head?, s') ∧ MNR m fuel F s' r'.tail := by
          rintro r' rfl
          exact ih { s with subs := t, copy := cache' } _ ⟨S, os, h7, by simp only; omega, by simp at h3; omega,
            hnew cache' h13, h11, rfl⟩ (by omega)
        have hstop : MNR m fuel F { s with subs := t, copy := cache' } (os.filterMap id) :=
          ⟨S, os, h7, by simp only; omega, by simp at h3; omega, hnew cache' h13, h11, rfl⟩
        cases tg with
        | none =>
          cases h10
          obtain ⟨s', h14, h15⟩ := hcont _ rfl
          exact ⟨s', by simp only [MNeigh.next, h6, h12, h14]; simp, by simpa using h15⟩
        | some l =>
          simp only at h10
          cases hfi : m.fromIndex l with
          | none => rw [hfi] at h10; cases h10
          | some g =>
            cases g with
            | none => rw [hfi] at h10; cases h10
            | some g =>
              rw [hfi] at h10
              simp only at h10
              cases hn : m.graph.portNode g.1 with
              | none => rw [hn] at h10; cases h10
              | some k =>
                cases hd : m.graph.portDirection g.1 with
                | none => rw [hn, hd] at h10; cases h10
                | some d =>
                  rw [hn, hd] at h10
                  simp only at h10
                  by_cases hig : (s.ignore && k == s.node) = true
                  · cases d with
                    | outgoing =>
                      rw [if_pos (by rw [hig]; rfl)] at h10
                      cases h10
                      obtain ⟨s', h14, h15⟩ := hcont _ rfl
                      refine ⟨s', ?_, by simpa using h15⟩
                      simp only [MNeigh.next, h6, h12, hfi, hn, if_pos hig, hd, h14]; simp
                    | incoming =>
                      rw [if_neg (by rw [hig]; decide)] at h10
                      cases h10
                      refine ⟨_, ?_, by simpa using hstop⟩
                      simp only [MNeigh.next, h6, h12, hfi, hn, if_pos hig, hd]; simp
                  · rw [if_neg (by simp only [Bool.not_eq_true] at hig; simp [hig])] at h10
                    cases h10
                    refine ⟨_, ?_, by simpa using hstop⟩
                    simp only [MNeigh.next, h6, h12, hfi, hn, if_neg hig]; simp

end Verif.Multi
