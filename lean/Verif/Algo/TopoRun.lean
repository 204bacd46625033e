import Verif.Algo.TopoLemmas
import Verif.Algo.Order
import Mathlib.Data.List.Perm.Subperm

/-! Histories of calls on a topological sort, for any well formed view with at most one link at each entry. -/

namespace Verif.Algo

open Verif (Direction)

namespace Topo

/-- The calls on a `TopoSort`. -/
inductive Call where
  | next
  | addSources (ns : List Nat)
deriving DecidableEq, Repr

/-- Run a sequence of calls; the list holds the nodes yielded. -/
def run (G : View) (F : Filter) (d : Direction) : List Call → Topo → Option (List Nat × Topo)
  | [], s => some ([], s)
  | .addSources ns :: cs, s => run G F d cs (addSources G F d s ns)
  | .next :: cs, s =>
    match next G F d s with
    | none => none
    | some (none, s) => run G F d cs s
    | some (some n, s) =>
      match run G F d cs s with
      | none => none
      | some (l, s) => some (n :: l, s)

/-- The nodes given to `add_sources`. -/
def added : List Call → List Nat
  | [] => []
  | .next :: cs => added cs
  | .addSources ns :: cs => ns ++ added cs

theorem addSources_ok {G : View} (hG : G.WF) {F d} (ns : List Nat) :
    ∀ {S done s}, NInv G F d S done s →
    ∃ l, (∀ x ∈ l, x ∈ ns) ∧ NInv G F d (S ++ l) done (addSources G F d s ns) ∧
      (∃ l', (addSources G F d s ns).cand = s.cand ++ l') ∧
      ∀ n ∈ ns, F.node n = true → (∃ d', G.ports n d' ≠ []) → n ∈ done ++ (addSources G F d s ns).cand := by
  induction ns with
  | nil => intro S done s h; exact ⟨[], by simp, by simpa [addSources] using h, ⟨[], by simp [addSources]⟩, by simp⟩
  | cons n ns ih =>
    intro S done s h
    obtain ⟨l1, a1, a2, a3, a4⟩ := addSource_ok hG h n
    obtain ⟨l2, b1, b2, ⟨l3, b3⟩, b4⟩ := ih a2
    refine ⟨l1 ++ l2, ?_, ?_, ⟨l1 ++ l3, ?_⟩, ?_⟩
    · intro x hx
      rw [List.mem_append] at hx
      rcases hx with hx | hx
      · simp [a1 x hx]
      · simp [b1 x hx]
    · rw [← List.append_assoc]; exact b2
    · show (addSources G F d (addSource G F d s n) ns).cand = _
      rw [b3, a3]; simp
    · intro m hm hF hp
      rw [List.mem_cons] at hm
      rcases hm with rfl | hm
      · have := a4 hF hp
        show m ∈ done ++ (addSources G F d (addSource G F d s m) ns).cand
        rw [b3, ← List.append_assoc, List.mem_append]
        exact .inl this
      · exact b4 m hm hF hp

theorem run_ok {G : View} (hG : G.WF) {F d} (h1 : G.SingleIn d) (cs : List Call) :
    ∀ {S done s}, NInv G F d S done s →
    ∃ l s' A, run G F d cs s = some (l, s') ∧ NInv G F d (S ++ A) (done ++ l) s' ∧ (∀ x ∈ A, x ∈ added cs) := by
  induction cs with
  | nil => intro S done s h; exact ⟨[], s, [], rfl, by simpa using h, by simp⟩
  | cons c cs ih =>
    intro S done s h
    cases c with
    | addSources ns =>
      obtain ⟨l1, a1, a2, -, -⟩ := addSources_ok hG ns h
      obtain ⟨l, s', A, b1, b2, b3⟩ := ih a2
      refine ⟨l, s', l1 ++ A, by simp [run, b1], by rw [← List.append_assoc]; exact b2, ?_⟩
      intro x hx
      rw [List.mem_append] at hx
      simp only [added, List.mem_append]
      rcases hx with hx | hx
      · exact .inl (a1 x hx)
      · exact .inr (b3 x hx)
    | next =>
      rcases next_ok hG h1 h with ⟨_, e⟩ | ⟨x, s1, _, e, h2, _⟩
      · obtain ⟨l, s', A, b1, b2, b3⟩ := ih h
        exact ⟨l, s', A, by simp [run, e, b1], b2, b3⟩
      · obtain ⟨l, s', A, b1, b2, b3⟩ := ih h2
        refine ⟨x :: l, s', A, by simp [run, e, b1], ?_, b3⟩
        simpa using b2

/-- The nodes seen so far are bounded. -/
theorem NInv.bound {G : View} (hG : G.WF) {F d S done s} {B : List Nat} (hB : ∀ x ∈ S, x ∈ B) (h : NInv G F d S done s) :
    (done ++ s.cand).length ≤ B.length + G.nodes.length := by
  have hsub : ∀ n ∈ done ++ s.cand, n ∈ B ++ G.nodes := by
    intro n hn
    rw [List.mem_append]
    by_cases hS : n ∈ S
    · exact .inl (hB n hS)
    · obtain ⟨q, hq, _⟩ := h.core.enter n hn hS
      exact .inr (hG.ports_node _ _ _ hq).2.1
  have := (List.Nodup.subperm h.core.nodup hsub).length_le
  simpa using this

theorem collect_ok {G : View} (hG : G.WF) {F d S} (h1 : G.SingleIn d) {B : List Nat} (hB : ∀ x ∈ S, x ∈ B) (fuel : Nat) :
    ∀ {done s}, NInv G F d S done s → B.length + G.nodes.length < fuel + done.length →
    ∃ l s', collect G F d fuel s = some (l, s') ∧ NInv G F d S (done ++ l) s' ∧ s'.cand = [] ∧
      s.cand.length ≤ l.length := by
  induction fuel with
  | zero =>
    intro done s h hf
    have := h.bound hG hB
    rw [List.length_append] at this
    omega
  | succ fuel ih =>
    intro done s h hf
    rcases next_ok hG h1 h with ⟨e0, e⟩ | ⟨x, s1, _, e, h2, l0, hl0⟩
    · exact ⟨[], s, by simp [collect, e], by simpa using h, e0, by simp [e0]⟩
    · obtain ⟨l, s', b1, b2, b3, b4⟩ := ih h2 (by simp; omega)
      refine ⟨x :: l, s', by simp [collect, e, b1], by simpa using b2, b3, ?_⟩
      have := congrArg List.length hl0
      simp at this ⊢
      omega

theorem linkLoop_prefix {G : View} {F d} (qs : List Nat) : ∀ {s s' : Topo}, linkLoop G F d s qs = some s' → ∃ l, s'.cand = s.cand ++ l := by
  induction qs with
  | nil => intro s s' h; simp [linkLoop] at h; exact ⟨[], by simp [h]⟩
  | cons q qs ih =>
    intro s s' h
    unfold linkLoop at h
    split at h
    · simp at h
    · obtain ⟨l, hl⟩ := ih h
      simp only at hl
      split at hl
      · exact ⟨_, by rw [hl, List.append_assoc]⟩
      · exact ⟨l, hl⟩

theorem portLoop_prefix {G : View} {F d x} (ps : List Nat) : ∀ {s s' : Topo}, portLoop G F d x s ps = some s' → ∃ l, s'.cand = s.cand ++ l := by
  induction ps with
  | nil => intro s s' h; simp [portLoop] at h; exact ⟨[], by simp [h]⟩
  | cons p ps ih =>
    intro s s' h
    unfold portLoop at h
    simp only at h
    split at h
    · obtain ⟨l, e⟩ := ih h; exact ⟨l, e⟩
    · split at h
      · simp at h
      · next s1 h1 =>
        obtain ⟨l1, e1⟩ := linkLoop_prefix _ h1
        obtain ⟨l2, e2⟩ := ih h
        exact ⟨l1 ++ l2, by rw [e2, e1]; simp⟩

/-- The queued nodes are yielded first. -/
theorem collect_prefix {G : View} {F d} {fuel : Nat} : ∀ {s s' : Topo} {l}, collect G F d fuel s = some (l, s') → ∃ l', l = s.cand ++ l' := by
  induction fuel with
  | zero => intro s s' l h; simp [collect] at h
  | succ fuel ih =>
    intro s s' l h
    unfold collect at h
    cases hc : s.cand with
    | nil => exact ⟨l, rfl⟩
    | cons x cand =>
      simp only [next, hc] at h
      cases hp : portLoop G F d x { s with cand := cand } (G.ports x d) with
      | none => simp [hp] at h
      | some s1 =>
        obtain ⟨l1, e1⟩ := portLoop_prefix _ hp
        simp only [hp] at h
        cases hr : collect G F d fuel { s1 with seen := s1.seen + 1 } with
        | none => simp [hr] at h
        | some r =>
          obtain ⟨l2, s2⟩ := r
          obtain ⟨l3, e3⟩ := ih hr
          simp only [hr, Option.some.injEq, Prod.mk.injEq] at h
          refine ⟨l1 ++ l3, ?_⟩
          rw [← h.1, e3]
          simp only at e1 ⊢
          rw [e1]; simp

/-- What is known when the sort is exhausted. -/
structure Final (G : View) (F : Filter) (d : Direction) (S l : List Nat) (s : Topo) : Prop where
  nodup : l.Nodup
  sources : ∀ n ∈ S, n ∈ l
  filt : ∀ n ∈ l, F.node n = true
  order : ∀ n ∈ l, n ∉ S → ∀ q ∈ G.ports n d.reverse, F.port n q = true → ∀ p ∈ G.links q,
    ∃ m, p ∈ G.ports m d ∧ F.port m p = true ∧ Before l m n
  enter : ∀ n ∈ l, n ∉ S → ∃ q ∈ G.ports n d.reverse, ∃ p ∈ G.links q, ∃ m ∈ l, p ∈ G.ports m d ∧ F.port m p = true
  complete : ∀ n, F.node n = true →
    (∃ q ∈ G.ports n d.reverse, ∃ p ∈ G.links q, ∃ m ∈ l, p ∈ G.ports m d ∧ F.port m p = true) →
    (∀ q ∈ G.ports n d.reverse, F.port n q = true → ∀ p ∈ G.links q, ∃ m ∈ l, p ∈ G.ports m d ∧ F.port m p = true) →
    n ∈ l
  remaining : ∀ n d', n ∈ l → ∀ p ∈ G.ports n d', s.visited p = true
  remaining' : ∀ n, n ∉ l → F.node n = true → (∃ d', G.ports n d' ≠ []) → ∃ d', ∃ p ∈ G.ports n d', s.visited p = false

theorem NInv.final {G : View} (hG : G.WF) {F d S l s} (h1 : G.SingleIn d) (h : NInv G F d S l s) (hc : s.cand = []) :
    Final G F d S l s := by
  have hcore := h.core
  rw [hc, List.append_nil] at hcore
  refine { nodup := hcore.nodup, sources := hcore.srcSub, filt := hcore.filt, order := ?_, enter := ?_, complete := ?_, remaining := ?_, remaining' := ?_ }
  · intro n hn hnS q hq hacc p hp
    obtain ⟨a, b, hab⟩ := List.append_of_mem hn
    obtain ⟨m, hm, h2, h3⟩ := hcore.order a n b hab hnS q hq hacc p hp
    exact ⟨m, h2, h3, a, b, hab, hm⟩
  · intro n hn hnS
    obtain ⟨q, hq, p, hp, m, hm, h2, h3⟩ := hcore.enter n hn hnS
    exact ⟨q, hq, p, hp, m, hm, h2, h3⟩
  · rintro n hF ⟨q, hq, p, hp, m, hm, h2, h3⟩ hall
    by_contra hn
    have hvq : s.visited q = true := hcore.firedV q ⟨p, hp, m, hm, h2, h3⟩
    obtain ⟨q2, hq2, hv2, hl2, ha2⟩ := hcore.pend n hn hF ⟨q, hq, hvq⟩
    obtain ⟨p2, hp2⟩ := List.exists_mem_of_ne_nil _ hl2
    obtain ⟨m2, hm2, h4, h5⟩ := hall q2 hq2 ha2 p2 hp2
    rw [hcore.firedV q2 ⟨p2, hp2, m2, hm2, h4, h5⟩] at hv2
    simp at hv2
  · intro n d' hn p hp
    by_cases e : d' = d
    · subst e; exact (h.outV n p hp).2 hn
    · have : d' = d.reverse := by cases d <;> cases d' <;> simp [Direction.reverse] at e ⊢
      subst this; exact hcore.inV n hn p hp
  · rintro n hn hF ⟨d', hd'⟩
    obtain ⟨p, hp⟩ := List.exists_mem_of_ne_nil _ hd'
    by_cases e : d' = d
    · subst e
      refine ⟨d', p, hp, ?_⟩
      rw [Bool.eq_false_iff]
      intro hc; exact hn ((h.outV n p hp).1 hc)
    · have : d' = d.reverse := by cases d <;> cases d' <;> simp [Direction.reverse] at e ⊢
      subst this
      by_cases hv : s.visited p = true
      · obtain ⟨q2, hq2, hv2, _⟩ := hcore.pend n hn hF ⟨p, hp, hv⟩
        exact ⟨_, q2, hq2, hv2⟩
      · exact ⟨_, p, hp, by simpa using hv⟩

end Topo

theorem toposort_ok {G : View} (hG : G.WF) (F : Filter) {d : Direction} (h1 : G.SingleIn d) (dflt : Bool) {S : List Nat}
    (hS : S.Nodup) :
    ∃ l s, toposort G F d dflt S = some (l, s) ∧ Topo.Final G F d (S.filter F.node) l s := by
  have h := Topo.new_ok (F := F) (d := d) (dflt := dflt) hG hS
  obtain ⟨l, s, e1, e2, e3, _⟩ := Topo.collect_ok (B := S) hG h1 (fun x hx => (List.mem_filter.1 hx).1) (S.length + G.nodes.length + 1) h (by
    simp)
  rw [List.nil_append] at e2
  exact ⟨l, s, e1, e2.final hG h1 e3⟩

/-- Without filters. -/
theorem toposort_all {G : View} (hG : G.WF) {d : Direction} (h1 : G.SingleIn d) (dflt : Bool) {S : List Nat} (hS : S.Nodup) :
    ∃ l s, toposort G .all d dflt S = some (l, s) ∧ l.Nodup ∧ (∀ n ∈ S, n ∈ l) ∧
      (∀ n ∈ l, n ∉ S → (∃ m, VArc G d m n) ∧ ∀ m, VArc G d m n → Before l m n) ∧
      (∀ n, (∃ m, VArc G d m n) → (∀ m, VArc G d m n → m ∈ l) → n ∈ l) ∧
      (∀ n ∈ G.nodes, (n ∈ l ∨ ∀ d', G.ports n d' = []) ↔ ∀ d', ∀ p ∈ G.ports n d', p ∉ Topo.portsRemaining G s) := by
  obtain ⟨l, s, e, hf⟩ := toposort_ok hG .all h1 dflt hS
  have hS' : S.filter Filter.all.node = S := List.filter_eq_self.2 (fun _ _ => rfl)
  rw [hS'] at hf
  refine ⟨l, s, e, hf.nodup, hf.sources, ?_, ?_, ?_⟩
  · intro n hn hnS
    constructor
    · obtain ⟨q, hq, p, hp, m, hm, h2, _⟩ := hf.enter n hn hnS
      exact ⟨m, p, h2, q, hG.link_sym _ _ hp, hq⟩
    · rintro m ⟨p, hp, q, hq, hqn⟩
      obtain ⟨m', h2, _, h3⟩ := hf.order n hn hnS q hqn rfl p (hG.link_sym _ _ hq)
      have := Topo.owner_unique hG hp h2
      subst this
      exact h3
  · rintro n ⟨m, p, hp, q, hq, hqn⟩ hall
    refine hf.complete n rfl ⟨q, hqn, p, hG.link_sym _ _ hq, m, hall m ⟨p, hp, q, hq, hqn⟩, hp, rfl⟩ ?_
    intro q' hq' _ p' hp'
    obtain ⟨m', hm'⟩ := hG.link_dir _ _ _ _ hq' hp'
    have : d.reverse.reverse = d := by cases d <;> rfl
    rw [this] at hm'
    exact ⟨m', hall m' ⟨p', hm', q', hG.link_sym _ _ hp', hq'⟩, hm', rfl⟩
  · intro n _
    constructor
    · rintro (hn | hn) d' p hp hc
      · have := hf.remaining n d' hn p hp
        simp [Topo.portsRemaining, this] at hc
      · rw [hn d'] at hp; simp at hp
    · intro hall
      by_contra hc
      rw [not_or] at hc
      have hp : ∃ d', G.ports n d' ≠ [] := by
        by_contra h2
        exact hc.2 (fun d' => by by_contra h3; exact h2 ⟨d', h3⟩)
      obtain ⟨d', p, hp, hv⟩ := hf.remaining' n hc.1 rfl hp
      apply hall d' p hp
      simp [Topo.portsRemaining, hv, (hG.ports_node _ _ _ hp).2.2]

/-- On an acyclic graph with all sources given, every node is yielded. -/
theorem toposort_acyclic {G : View} (hG : G.WF) {d : Direction} (h1 : G.SingleIn d) (dflt : Bool) {S : List Nat} (hS : S.Nodup)
    (hac : Acyclic (VArc G d)) (hlive : ∀ n ∈ S, n ∈ G.nodes)
    (hsrc : ∀ n ∈ G.nodes, (∀ m, ¬ VArc G d m n) → n ∈ S) :
    ∃ l s, toposort G .all d dflt S = some (l, s) ∧ l.Nodup ∧ (∀ n, n ∈ l ↔ n ∈ G.nodes) ∧
      (∀ n, n ∉ S → ∀ m, VArc G d m n → Before l m n) ∧ Topo.portsRemaining G s = [] := by
  obtain ⟨l, s, e, hn, h2, h3, h4, h5⟩ := toposort_all hG h1 dflt hS
  have hmem : ∀ n, n ∈ l ↔ n ∈ G.nodes := by
    intro n
    constructor
    · intro hnl
      by_cases hnS : n ∈ S
      · exact hlive n hnS
      · obtain ⟨m, hm⟩ := (h3 n hnl hnS).1
        exact (varc_nodes hG hm).2
    · intro hnn
      by_contra hc
      refine no_descent hac G.nodes (fun n => n ∈ G.nodes ∧ n ∉ l) ?_ n ⟨hnn, hc⟩
      rintro x ⟨hx, hxl⟩
      refine ⟨hx, ?_⟩
      have hxS : x ∉ S := fun h => hxl (h2 x h)
      have hex : ∃ m, VArc G d m x := by
        by_contra hc; exact hxS (hsrc x hx (fun m hm => hc ⟨m, hm⟩))
      have : ¬ ∀ m, VArc G d m x → m ∈ l := fun hall => hxl (h4 x hex hall)
      simp only [Classical.not_forall] at this
      obtain ⟨m, hm, hml⟩ := this
      exact ⟨m, hm, (varc_nodes hG hm).1, hml⟩
  refine ⟨l, s, e, hn, hmem, ?_, ?_⟩
  · intro n hnS m hm
    exact (h3 n ((hmem n).2 (varc_nodes hG hm).2) hnS).2 m hm
  · rw [List.eq_nil_iff_forall_not_mem]
    intro p hp
    have hp' : p ∈ G.portsIter := (List.mem_filter.1 hp).1
    obtain ⟨n, d', hpd⟩ := hG.iter_port p hp'
    have hn := (hG.ports_node _ _ _ hpd).2.1
    exact (h5 n hn).1 (.inl ((hmem n).2 hn)) d' p hpd hp

end Verif.Algo
