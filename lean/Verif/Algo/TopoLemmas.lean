import Verif.Algo.TopoModel

/-! The invariant of the topological sort and its preservation. -/

namespace Verif.Algo

open Verif (Direction)

theorem setBit_get (v : Nat → Bool) (p b q) : setBit v p b q = if q = p then b else v q := rfl

namespace Topo

theorem setAll_get (v : Nat → Bool) (ps : List Nat) (b : Bool) (q : Nat) :
    setAll v ps b q = if q ∈ ps then b else v q := by
  unfold setAll
  induction ps generalizing v with
  | nil => simp
  | cons p ps ih =>
    rw [List.foldl_cons, ih]
    simp only [setBit_get, List.mem_cons]
    grind

theorem addLoop_spec (v : Nat → Bool) (new : Bool) (ps : List Nat) (hn : ps.Nodup) :
    (addLoop v new ps).1 = (new || ps.any fun p => !v p) ∧
    ∀ q, (addLoop v new ps).2 q = if q ∈ ps then true else v q := by
  induction ps generalizing v new with
  | nil => simp [addLoop]
  | cons p ps ih =>
    rw [List.nodup_cons] at hn
    obtain ⟨h1, h2⟩ := ih (setBit v p true) (new || !v p) hn.2
    constructor
    · simp only [addLoop]
      rw [h1, List.any_cons, ← Bool.or_assoc]
      congr 1
      rw [Bool.eq_iff_iff]
      simp only [List.any_eq_true, setBit_get]
      constructor
      · rintro ⟨x, hx, h⟩; exact ⟨x, hx, by grind⟩
      · rintro ⟨x, hx, h⟩; exact ⟨x, hx, by grind⟩
    · intro q
      simp only [addLoop]
      rw [h2, setBit_get]
      grind

theorem readyLoop_spec (G : View) (F : Filter) (n f : Nat) (ps : List Nat) (v : Nat → Bool) :
    (∀ q, v q = true → (readyLoop G F n f ps v).2 q = true) ∧
    (∀ q, (readyLoop G F n f ps v).2 q = true → v q = true ∨
      (q ∈ ps ∧ q ≠ f ∧ (G.links q = [] ∨ F.port n q = false))) ∧
    ((readyLoop G F n f ps v).1 = true ↔ (f ∈ ps → v f = false) ∧
      ∀ q ∈ ps, q ≠ f → v q = true ∨ G.links q = [] ∨ F.port n q = false) ∧
    ((readyLoop G F n f ps v).1 = true → ∀ q ∈ ps, q ≠ f → (readyLoop G F n f ps v).2 q = true) := by
  induction ps generalizing v with
  | nil => simp [readyLoop]
  | cons p ps ih =>
    unfold readyLoop
    by_cases h1 : p = f
    · rw [if_pos h1]
      by_cases h2 : v p = true
      · simp only [h2, if_true]
        grind
      · rw [if_neg h2]
        obtain ⟨a, b, c, e⟩ := ih v
        grind
    · rw [if_neg h1]
      by_cases h2 : v p = true
      · simp only [h2, if_true]
        obtain ⟨a, b, c, e⟩ := ih v
        grind
      · rw [if_neg h2]
        by_cases h3 : ((G.links p).head?.isNone || !F.port n p) = true
        · rw [if_pos h3]
          obtain ⟨a, b, c, e⟩ := ih (setBit v p true)
          simp only [setBit_get] at a b c e
          simp only [Bool.or_eq_true, Option.isNone_iff_eq_none, List.head?_eq_none_iff, Bool.not_eq_true'] at h3
          refine ⟨by grind, by grind, ?_, by grind⟩
          rw [c]
          grind
        · rw [if_neg h3]
          simp only [Bool.or_eq_true, Option.isNone_iff_eq_none, List.head?_eq_none_iff, Bool.not_eq_true'] at h3
          grind

/-- The state of the sort between two links: `all` lists the nodes yielded or queued, in order,
`done` those popped, `S` the source nodes among `all`, and `fired` holds for the ports reached by a link that
was followed. -/
structure TInv (G : View) (F : Filter) (d : Direction) (S done all : List Nat) (fired : Nat → Prop)
    (v : Nat → Bool) : Prop where
  nodup : all.Nodup
  doneSub : ∀ n ∈ done, n ∈ all
  srcSub : ∀ n ∈ S, n ∈ all
  inV : ∀ n ∈ all, ∀ q ∈ G.ports n d.reverse, v q = true
  filt : ∀ n ∈ all, F.node n = true
  reason : ∀ n, n ∉ all → ∀ q ∈ G.ports n d.reverse, v q = true →
    G.links q = [] ∨ F.port n q = false ∨ fired q
  firedV : ∀ q, fired q → v q = true
  firedDone : ∀ q, fired q → ∃ p ∈ G.links q, ∃ m ∈ done, p ∈ G.ports m d ∧ F.port m p = true
  pend : ∀ n, n ∉ all → F.node n = true → (∃ q ∈ G.ports n d.reverse, v q = true) →
    ∃ q ∈ G.ports n d.reverse, v q = false ∧ G.links q ≠ [] ∧ F.port n q = true
  order : ∀ a n b, all = a ++ n :: b → n ∉ S → ∀ q ∈ G.ports n d.reverse, F.port n q = true →
    ∀ p ∈ G.links q, ∃ m ∈ a, p ∈ G.ports m d ∧ F.port m p = true
  enter : ∀ n ∈ all, n ∉ S → ∃ q ∈ G.ports n d.reverse, fired q

theorem single_eq {G : View} {d} (h1 : G.SingleIn d) {n p q} (hp : p ∈ G.ports n d.reverse) (h : q ∈ G.links p) :
    G.links p = [q] := by
  have := h1 n p hp
  match hl : G.links p with
  | [] => simp [hl] at h
  | [x] => rw [hl] at h; simp at h; rw [h]
  | _ :: _ :: _ => simp [hl] at this

/-- Setting an out-port visited does not disturb the invariant. -/
theorem TInv.setOut {G : View} (hG : G.WF) {F d S done all fired v} (h : TInv G F d S done all fired v)
    {x p} (hp : p ∈ G.ports x d) : TInv G F d S done all fired (setBit v p true) := by
  have hne : ∀ n q, q ∈ G.ports n d.reverse → q ≠ p := by
    rintro n q hq rfl
    have := hG.ports_dir _ _ _ _ _ hq hp
    cases d <;> simp [Direction.reverse] at this
  have hv : ∀ n q, q ∈ G.ports n d.reverse → setBit v p true q = v q := fun n q hq => by
    rw [setBit_get, if_neg (hne n q hq)]
  refine { h with inV := ?_, reason := ?_, firedV := ?_, pend := ?_ }
  · intro n hn q hq; rw [hv n q hq]; exact h.inV n hn q hq
  · intro n hn q hq hvq; rw [hv n q hq] at hvq; exact h.reason n hn q hq hvq
  · intro q hf
    have := h.firedV q hf
    rw [setBit_get]; split <;> simp [this]
  · intro n hn hF ⟨q, hq, hvq⟩
    rw [hv n q hq] at hvq
    obtain ⟨q', hq', h1⟩ := h.pend n hn hF ⟨q, hq, hvq⟩
    exact ⟨q', hq', by rw [hv n q' hq']; exact h1⟩

/-- Following one link. -/
theorem TInv.link {G : View} (hG : G.WF) {F d S done all fired v} (h1 : G.SingleIn d)
    (h : TInv G F d S done all fired v) {x p q n} (hx : x ∈ done) (hp : p ∈ G.ports x d)
    (hacc : F.port x p = true) (hq : q ∈ G.links p) (hn : q ∈ G.ports n d.reverse) :
    TInv G F d S done (if (becomesReady G F d v n q).1 then all ++ [n] else all)
      (fun r => r = q ∨ fired r) (setBit (becomesReady G F d v n q).2 q true) := by
  have hqp : p ∈ G.links q := hG.link_sym _ _ hq
  have hnode : ∀ m r, r ∈ G.ports n d.reverse → r ∈ G.ports m d.reverse → m = n := by
    intro m r h h'
    have a := (hG.ports_node _ _ _ h).1
    have b := (hG.ports_node _ _ _ h').1
    rw [a] at b; simpa using b.symm
  have hFD : ∀ r, (r = q ∨ fired r) → ∃ p ∈ G.links r, ∃ m ∈ done, p ∈ G.ports m d ∧ F.port m p = true := by
    rintro r (rfl | hr)
    · exact ⟨p, hqp, x, hx, hp, hacc⟩
    · exact h.firedDone r hr
  -- what the call to `becomes_ready` did to the map
  obtain ⟨mono, upd, rdy, rdyV⟩ : (∀ r, v r = true → (becomesReady G F d v n q).2 r = true) ∧
      (∀ r, (becomesReady G F d v n q).2 r = true → v r = true ∨
        (r ∈ G.ports n d.reverse ∧ r ≠ q ∧ (G.links r = [] ∨ F.port n r = false))) ∧
      ((becomesReady G F d v n q).1 = true ↔ F.node n = true ∧ v q = false ∧
        ∀ r ∈ G.ports n d.reverse, r ≠ q → v r = true ∨ G.links r = [] ∨ F.port n r = false) ∧
      ((becomesReady G F d v n q).1 = true → ∀ r ∈ G.ports n d.reverse, r ≠ q →
        (becomesReady G F d v n q).2 r = true) := by
    unfold becomesReady
    cases hF : F.node n with
    | false => simp +contextual
    | true =>
      simp only [Bool.not_true, Bool.false_eq_true, if_false, true_and]
      obtain ⟨a, b, c, e⟩ := readyLoop_spec G F n q (G.ports n d.reverse) v
      refine ⟨a, b, ?_, e⟩
      rw [c]; simp [hn]
  generalize becomesReady G F d v n q = br at *
  obtain ⟨r, w⟩ := br
  simp only at *
  have firedV' : ∀ q', (q' = q ∨ fired q') → setBit w q true q' = true := by
    rintro q' (rfl | hf)
    · rw [setBit_get, if_pos rfl]
    · rw [setBit_get]; split
      · rfl
      · exact mono _ (h.firedV q' hf)
  have inV' : ∀ m ∈ all, ∀ q' ∈ G.ports m d.reverse, setBit w q true q' = true := by
    intro m hm q' hq'
    rw [setBit_get]; split
    · rfl
    · exact mono _ (h.inV m hm q' hq')
  have reason' : ∀ m, m ∉ all → ∀ q' ∈ G.ports m d.reverse, setBit w q true q' = true →
      G.links q' = [] ∨ F.port m q' = false ∨ (q' = q ∨ fired q') := by
    intro m hm q' hq' hv
    rw [setBit_get] at hv
    split at hv
    · next e => exact .inr (.inr (.inl e))
    · rcases upd q' hv with hv | ⟨hq'', _, hv⟩
      · rcases h.reason m hm q' hq' hv with a | a | a
        · exact .inl a
        · exact .inr (.inl a)
        · exact .inr (.inr (.inr a))
      · have := hnode m q' hq'' hq'
        subst this
        rcases hv with hv | hv
        · exact .inl hv
        · exact .inr (.inl hv)
  cases hr : r with
  | true =>
    subst hr
    simp only [if_true]
    obtain ⟨hF, hvq, hall⟩ := rdy.1 rfl
    have hnall : n ∉ all := fun hc => by rw [h.inV n hc q hn] at hvq; simp at hvq
    have hvn : ∀ q' ∈ G.ports n d.reverse, setBit w q true q' = true := by
      intro q' hq'
      rw [setBit_get]; split
      · rfl
      · next e => exact rdyV rfl q' hq' e
    refine { nodup := ?_, doneSub := ?_, srcSub := ?_, inV := ?_, filt := ?_, reason := ?_, firedV := firedV', firedDone := hFD, pend := ?_, order := ?_, enter := ?_ }
    · rw [List.nodup_append]; exact ⟨h.nodup, by simp, by rintro a ha b hb rfl; simp at hb; exact hnall (hb ▸ ha)⟩
    · intro m hm; simp [h.doneSub m hm]
    · intro m hm; simp [h.srcSub m hm]
    · intro m hm q' hq'
      rw [List.mem_append, List.mem_singleton] at hm
      rcases hm with hm | rfl
      · exact inV' m hm q' hq'
      · exact hvn q' hq'
    · intro m hm
      rw [List.mem_append, List.mem_singleton] at hm
      rcases hm with hm | rfl
      · exact h.filt m hm
      · exact hF
    · intro m hm; exact reason' m (fun hc => hm (by simp [hc]))
    · intro m hm hFm ⟨q', hq', hv'⟩
      rw [List.mem_append, List.mem_singleton, not_or] at hm
      have hold : v q' = true := by
        rw [setBit_get] at hv'
        split at hv'
        · next e => subst e; exact absurd (hnode m q' hn hq') hm.2
        · rcases upd q' hv' with hv | ⟨hq'', _, _⟩
          · exact hv
          · exact absurd (hnode m q' hq'' hq') hm.2
      obtain ⟨q2, hq2, h2, h3⟩ := h.pend m hm.1 hFm ⟨q', hq', hold⟩
      refine ⟨q2, hq2, ?_, h3⟩
      rw [setBit_get, if_neg (by rintro rfl; exact hm.2 (hnode m q2 hn hq2))]
      cases hw : w q2 with
      | false => rfl
      | true =>
        rcases upd q2 hw with hv | ⟨hq'', _, _⟩
        · rw [h2] at hv; simp at hv
        · exact absurd (hnode m q2 hq'' hq2) hm.2
    · intro a m b hab hmS q' hq' hacc' p' hp'
      rcases List.eq_nil_or_concat b with rfl | ⟨b', y, rfl⟩
      · have hab' : all = a ∧ n = m := by
          have := List.append_inj' (s₁ := all) (t₁ := [n]) (s₂ := a) (t₂ := [m]) hab rfl
          simpa using this
        obtain ⟨rfl, rfl⟩ := hab'
        have : q' = q ∨ fired q' := by
          rcases reason' n hnall q' hq' (hvn q' hq') with a | a | a
          · rw [a] at hp'; simp at hp'
          · rw [hacc'] at a; simp at a
          · exact a
        obtain ⟨p'', hp'', m, hm, h2, h3⟩ := hFD _ this
        have : p'' = p' := by
          have := single_eq h1 hq' hp'; rw [this] at hp''; simpa using hp''
        subst this
        exact ⟨m, h.doneSub m hm, h2, h3⟩
      · have hab' : all = a ++ m :: b' := by
          have h' : all ++ [n] = (a ++ m :: b') ++ [y] := by rw [hab]; simp
          exact (List.append_inj' h' rfl).1
        exact h.order a m b' hab' hmS q' hq' hacc' p' hp'
    · intro m hm hmS
      rw [List.mem_append, List.mem_singleton] at hm
      rcases hm with hm | rfl
      · obtain ⟨q', a, c⟩ := h.enter m hm hmS
        exact ⟨q', a, .inr c⟩
      · exact ⟨q, hn, .inl rfl⟩
  | false =>
    subst hr
    simp only [Bool.false_eq_true, if_false]
    refine { h with inV := inV', reason := reason', firedV := firedV', firedDone := hFD, pend := ?_, enter := ?_ }
    · intro m hm hFm ⟨q', hq', hv'⟩
      by_cases hmn : m = n
      · subst hmn
        have fin : ∀ q2 ∈ G.ports m d.reverse, q2 ≠ q → v q2 = false → G.links q2 ≠ [] → F.port m q2 = true →
            ∃ q' ∈ G.ports m d.reverse, setBit w q true q' = false ∧ G.links q' ≠ [] ∧ F.port m q' = true := by
          intro q2 hq2 hne hv2 hl2 ha2
          refine ⟨q2, hq2, ?_, hl2, ha2⟩
          rw [setBit_get, if_neg hne]
          cases hw : w q2 with
          | false => rfl
          | true =>
            rcases upd q2 hw with hv | ⟨_, _, h5 | h5⟩
            · rw [hv2] at hv; simp at hv
            · exact absurd h5 hl2
            · rw [ha2] at h5; simp at h5
        cases hvq : v q with
        | true =>
          obtain ⟨q2, hq2, h2, h3, h4⟩ := h.pend m hm hFm ⟨q, hn, hvq⟩
          exact fin q2 hq2 (by rintro rfl; rw [hvq] at h2; simp at h2) h2 h3 h4
        | false =>
          have : ¬ ∀ r ∈ G.ports m d.reverse, r ≠ q → v r = true ∨ G.links r = [] ∨ F.port m r = false := by
            intro hc
            have := rdy.2 ⟨hFm, hvq, hc⟩
            simp at this
          simp only [Classical.not_forall, not_or] at this
          obtain ⟨q2, hq2, hne, h2, h3, h4⟩ := this
          exact fin q2 hq2 hne (by simpa using h2) h3 (by simpa using h4)
      · have hold : v q' = true := by
          rw [setBit_get] at hv'
          split at hv'
          · next e => subst e; exact absurd (hnode m q' hn hq') hmn
          · rcases upd q' hv' with hv | ⟨hq'', _, _⟩
            · exact hv
            · exact absurd (hnode m q' hq'' hq') hmn
        obtain ⟨q2, hq2, h2, h3⟩ := h.pend m hm hFm ⟨q', hq', hold⟩
        refine ⟨q2, hq2, ?_, h3⟩
        rw [setBit_get, if_neg (by rintro rfl; exact hmn (hnode m q2 hn hq2))]
        cases hw : w q2 with
        | false => rfl
        | true =>
          rcases upd q2 hw with hv | ⟨hq'', _, _⟩
          · rw [h2] at hv; simp at hv
          · exact absurd (hnode m q2 hq'' hq2) hmn
    · intro m hm hmS
      obtain ⟨q', a, c⟩ := h.enter m hm hmS
      exact ⟨q', a, .inr c⟩

/-- A port of direction `d` is not touched by `becomes_ready`. -/
theorem becomesReady_out {G : View} (hG : G.WF) {F d v n q m r} (hr : r ∈ G.ports m d) :
    (becomesReady G F d v n q).2 r = v r := by
  unfold becomesReady
  split
  · rfl
  · obtain ⟨a, b, _, _⟩ := readyLoop_spec G F n q (G.ports n d.reverse) v
    rw [Bool.eq_iff_iff]
    constructor
    · intro h
      rcases b r h with h | ⟨h, _, _⟩
      · exact h
      · have := hG.ports_dir _ _ _ _ _ h hr
        cases d <;> simp [Direction.reverse] at this
    · exact a r

/-- Following the links of one port. -/
theorem linkLoop_ok {G : View} (hG : G.WF) {F d S done x p} (h1 : G.SingleIn d) (hx : x ∈ done) (hp : p ∈ G.ports x d)
    (hacc : F.port x p = true) (qs : List Nat) :
    ∀ {fired : Nat → Prop} {s : Topo}, TInv G F d S done (done ++ s.cand) fired s.visited → (∀ q ∈ qs, q ∈ G.links p) →
    ∃ s' l, linkLoop G F d s qs = some s' ∧ s'.seen = s.seen ∧ s'.cand = s.cand ++ l ∧
      TInv G F d S done (done ++ s'.cand) (fun q => fired q ∨ q ∈ qs) s'.visited ∧
      ∀ m r, r ∈ G.ports m d → s'.visited r = s.visited r := by
  induction qs with
  | nil =>
    intro fired s h _
    exact ⟨s, [], rfl, rfl, by simp, by simpa using h, by simp⟩
  | cons q qs ih =>
    intro fired s h hqs
    have hq := hqs q (by simp)
    obtain ⟨n, hn⟩ := hG.link_dir _ _ _ _ hp hq
    have hqn := (hG.ports_node _ _ _ hn).1
    simp only [linkLoop, hqn]
    have h2 := h.link hG h1 hx hp hacc hq hn
    generalize hbr : becomesReady G F d s.visited n q = br at h2
    have hout : ∀ m r, r ∈ G.ports m d → br.2 r = s.visited r := by
      intro m r hr; rw [← hbr]; exact becomesReady_out hG hr
    obtain ⟨r, w⟩ := br
    simp only at h2 hout ⊢
    have h3 : TInv G F d S done (done ++ if r then s.cand ++ [n] else s.cand) (fun r => r = q ∨ fired r) (setBit w q true) := by
      have : (done ++ if r then s.cand ++ [n] else s.cand) = if r then done ++ s.cand ++ [n] else done ++ s.cand := by
        cases r <;> simp
      rw [this]; exact h2
    obtain ⟨s', l, e1, e2, e3, e4, e5⟩ := ih (s := { s with visited := setBit w q true, cand := if r then s.cand ++ [n] else s.cand }) h3
      (fun q' hq' => hqs q' (by simp [hq']))
    refine ⟨s', (if r then [n] else []) ++ l, e1, e2, ?_, ?_, ?_⟩
    · rw [e3]; cases r <;> simp
    · have : (fun r => fired r ∨ r ∈ q :: qs) = fun r => (r = q ∨ fired r) ∨ r ∈ qs := by
        funext r; grind
      rw [this]; exact e4
    · intro m r hr
      rw [e5 m r hr]
      have hne : r ≠ q := by
        rintro rfl
        have := hG.ports_dir _ _ _ _ _ hn hr
        cases d <;> simp [Direction.reverse] at this
      simp only [setBit_get, if_neg hne]
      rw [hout m r hr]

theorem portLoop_ok {G : View} (hG : G.WF) {F d S done x} (h1 : G.SingleIn d) (hx : x ∈ done) (ps : List Nat) :
    ∀ {fired : Nat → Prop} {s : Topo}, TInv G F d S done (done ++ s.cand) fired s.visited →
    (∀ p ∈ ps, p ∈ G.ports x d) →
    ∃ s' l, portLoop G F d x s ps = some s' ∧ s'.seen = s.seen ∧ s'.cand = s.cand ++ l ∧
      TInv G F d S done (done ++ s'.cand) (fun q => fired q ∨ ∃ p ∈ ps, F.port x p = true ∧ q ∈ G.links p) s'.visited ∧
      ∀ m r, r ∈ G.ports m d → (s'.visited r = true ↔ s.visited r = true ∨ r ∈ ps) := by
  induction ps with
  | nil =>
    intro fired s h _
    refine ⟨s, [], rfl, rfl, by simp, ?_, by simp⟩
    simpa using h
  | cons p ps ih =>
    intro fired s h hps
    have hp := hps p (by simp)
    have hset := h.setOut hG hp
    unfold portLoop
    cases hacc : F.port x p with
    | false =>
      simp only [Bool.not_false, if_true]
      obtain ⟨s', l, e1, e2, e3, e4, e5⟩ := ih (s := { s with visited := setBit s.visited p true }) (fired := fired) hset (fun p' hp' => hps p' (by simp [hp']))
      refine ⟨s', l, e1, e2, e3, ?_, ?_⟩
      · have : (fun q => fired q ∨ ∃ r ∈ p :: ps, F.port x r = true ∧ q ∈ G.links r) =
            fun q => fired q ∨ ∃ r ∈ ps, F.port x r = true ∧ q ∈ G.links r := by
          funext r; grind
        rw [this]; exact e4
      · intro m r hr
        rw [e5 m r hr]; simp only [setBit_get]; grind
    | true =>
      simp only [Bool.not_true, Bool.false_eq_true, if_false]
      obtain ⟨s1, l1, a1, a2, a3, a4, a5⟩ := linkLoop_ok hG h1 hx hp hacc (G.links p)
        (s := { s with visited := setBit s.visited p true }) hset (fun _ h => h)
      rw [a1]
      obtain ⟨s', l, e1, e2, e3, e4, e5⟩ := ih a4 (fun p' hp' => hps p' (by simp [hp']))
      refine ⟨s', l1 ++ l, e1, by rw [e2, a2], ?_, ?_, ?_⟩
      · rw [e3, a3, List.append_assoc]
      · have : (fun q => fired q ∨ ∃ r ∈ p :: ps, F.port x r = true ∧ q ∈ G.links r) =
            fun q => (fired q ∨ q ∈ G.links p) ∨ ∃ r ∈ ps, F.port x r = true ∧ q ∈ G.links r := by
          funext r; grind
        rw [this]; exact e4
      · intro m r hr
        rw [e5 m r hr, a5 m r hr]; simp only [setBit_get]; grind

/-- The state of the sort between two calls. -/
structure NInv (G : View) (F : Filter) (d : Direction) (S done : List Nat) (s : Topo) : Prop where
  core : TInv G F d S done (done ++ s.cand) (fun q => ∃ p ∈ G.links q, ∃ m ∈ done, p ∈ G.ports m d ∧ F.port m p = true) s.visited
  outV : ∀ m p, p ∈ G.ports m d → (s.visited p = true ↔ m ∈ done)
  seen : s.seen = done.length

theorem owner_unique {G : View} (hG : G.WF) {m m' d p} (h : p ∈ G.ports m d) (h' : p ∈ G.ports m' d) : m = m' := by
  have a := (hG.ports_node _ _ _ h).1
  have b := (hG.ports_node _ _ _ h').1
  rw [a] at b; simpa using b

/-- A call to `next` does not panic; it yields the first candidate. -/
theorem next_ok {G : View} (hG : G.WF) {F d S done s} (h1 : G.SingleIn d) (h : NInv G F d S done s) :
    (s.cand = [] ∧ next G F d s = some (none, s)) ∨
    ∃ x s', s.cand.head? = some x ∧ next G F d s = some (some x, s') ∧ NInv G F d S (done ++ [x]) s' ∧
      ∃ l, s.cand ++ l = x :: s'.cand := by
  cases hc : s.cand with
  | nil => exact .inl ⟨rfl, by simp [next, hc]⟩
  | cons x cand =>
    right
    have hxd : x ∉ done := by
      have := h.core.nodup
      rw [hc, List.nodup_append] at this
      intro hx
      exact this.2.2 x hx x (by simp) rfl
    have hcore : TInv G F d S (done ++ [x]) ((done ++ [x]) ++ cand) (fun q => ∃ p ∈ G.links q, ∃ m ∈ done, p ∈ G.ports m d ∧ F.port m p = true) s.visited := by
      have e : (done ++ [x]) ++ cand = done ++ s.cand := by rw [hc]; simp
      rw [e]
      refine { h.core with doneSub := ?_, firedDone := ?_ }
      · intro m hm
        rw [List.mem_append, List.mem_singleton] at hm
        rcases hm with hm | rfl
        · simp [hm]
        · simp [hc]
      · rintro q ⟨p, hp, m, hm, a⟩
        exact ⟨p, hp, m, by simp [hm], a⟩
    obtain ⟨s', l, e1, e2, e3, e4, e5⟩ := portLoop_ok hG h1 (x := x) (by simp) (G.ports x d) (s := { s with cand := cand })
      hcore (fun _ hp => hp)
    refine ⟨x, { s' with seen := s'.seen + 1 }, rfl, by simp [next, hc, e1], ⟨?_, ?_, ?_⟩, l, ?_⟩
    · have : (fun q => ∃ p ∈ G.links q, ∃ m ∈ done ++ [x], p ∈ G.ports m d ∧ F.port m p = true) =
          fun q => (∃ p ∈ G.links q, ∃ m ∈ done, p ∈ G.ports m d ∧ F.port m p = true) ∨
            ∃ p ∈ G.ports x d, F.port x p = true ∧ q ∈ G.links p := by
        funext q
        simp only [List.mem_append, List.mem_singleton, eq_iff_iff]
        constructor
        · rintro ⟨p, hp, m, hm | rfl, h2, h3⟩
          · exact .inl ⟨p, hp, m, hm, h2, h3⟩
          · exact .inr ⟨p, h2, h3, hG.link_sym _ _ hp⟩
        · rintro (⟨p, hp, m, hm, h2, h3⟩ | ⟨p, h2, h3, hp⟩)
          · exact ⟨p, hp, m, .inl hm, h2, h3⟩
          · exact ⟨p, hG.link_sym _ _ hp, x, .inr rfl, h2, h3⟩
      rw [this]; exact e4
    · intro m p hp
      simp only
      rw [e5 m p hp]
      simp only [List.mem_append, List.mem_singleton]
      rw [h.outV m p hp]
      constructor
      · rintro (a | a)
        · exact .inl a
        · exact .inr (owner_unique hG hp a)
      · rintro (a | rfl)
        · exact .inl a
        · exact .inr hp
    · simp [e2, h.seen]
    · simp [e3]

theorem foldl_setAll (G : View) (d : Direction) (l : List Nat) (v : Nat → Bool) (q : Nat) :
    (l.foldl (fun v n => setAll v (G.ports n d.reverse) true) v) q = true ↔
      v q = true ∨ ∃ n ∈ l, q ∈ G.ports n d.reverse := by
  induction l generalizing v with
  | nil => simp
  | cons n l ih =>
    rw [List.foldl_cons, ih, setAll_get]
    simp only [List.mem_cons]
    grind

theorem new_ok {G : View} (hG : G.WF) {F d dflt S} (hS : S.Nodup) :
    NInv G F d (S.filter F.node) [] (new G F d dflt S) := by
  have hv : ∀ n d' q, q ∈ G.ports n d' → ((new G F d dflt S).visited q = true ↔ ∃ n ∈ S.filter F.node, q ∈ G.ports n d.reverse) := by
    intro n d' q hq
    simp only [new]
    rw [foldl_setAll]
    have : (if dflt = true then setAll (fun _ => dflt) G.portsIter false else fun _ => dflt) q = false := by
      cases dflt
      · simp
      · simp [setAll_get, (hG.ports_node _ _ _ hq).2.2]
    simp [this]
  have hcand : (new G F d dflt S).cand = S.filter F.node := rfl
  refine ⟨?_, ?_, rfl⟩
  · rw [hcand, List.nil_append]
    refine { nodup := List.Nodup.filter _ hS, doneSub := by simp, srcSub := fun _ h => h, inV := ?_, filt := ?_, reason := ?_, firedV := by simp, firedDone := by simp, pend := ?_, order := ?_, enter := ?_ }
    · intro n hn q hq; exact (hv n _ q hq).2 ⟨n, hn, hq⟩
    · intro n hn; exact (List.mem_filter.1 hn).2
    · intro n hn q hq h
      obtain ⟨m, hm, hq'⟩ := (hv n _ q hq).1 h
      exact absurd (owner_unique hG hq' hq ▸ hm) hn
    · rintro n hn hF ⟨q, hq, h⟩
      obtain ⟨m, hm, hq'⟩ := (hv n _ q hq).1 h
      exact absurd (owner_unique hG hq' hq ▸ hm) hn
    · intro a n b hab hn
      exact absurd (by rw [hab]; simp) hn
    · intro n hn hn'; exact absurd hn hn'
  · intro m p hp
    rw [hv m _ p hp]
    constructor
    · rintro ⟨n, _, h⟩
      have := hG.ports_dir _ _ _ _ _ h hp
      cases d <;> simp [Direction.reverse] at this
    · simp

/-- `add_sources` with one node. -/
theorem addSource_ok {G : View} (hG : G.WF) {F d S done s} (h : NInv G F d S done s) (n : Nat) :
    ∃ l, (∀ x ∈ l, x = n) ∧ NInv G F d (S ++ l) done (addSource G F d s n) ∧ (addSource G F d s n).cand = s.cand ++ l ∧
      (F.node n = true → (∃ d', G.ports n d' ≠ []) → n ∈ done ++ (addSource G F d s n).cand) := by
  cases hF : F.node n with
  | false => exact ⟨[], by simp, by simpa [addSource, hF] using h, by simp [addSource, hF], by simp⟩
  | true =>
  obtain ⟨a1, a2⟩ := addLoop_spec s.visited false (G.ports n d.reverse) (hG.ports_nodup n d.reverse)
  have hv' : (addSource G F d s n).visited = (addLoop s.visited false (G.ports n d.reverse)).2 := by
    simp [addSource, hF]
  have hseen : (addSource G F d s n).seen = s.seen := by simp [addSource, hF]
  have hcand : (addSource G F d s n).cand = if (if (G.ports n d.reverse).length = 0 then
        !s.cand.contains n && (G.ports n d).any (fun p => !(addLoop s.visited false (G.ports n d.reverse)).2 p)
      else (addLoop s.visited false (G.ports n d.reverse)).1) = true then s.cand ++ [n] else s.cand := by
    simp [addSource, hF]
  rw [a1] at hcand
  generalize (addLoop s.visited false (G.ports n d.reverse)).2 = w at *
  simp only [Bool.false_or] at hcand
  have hnode : ∀ m r, r ∈ G.ports n d.reverse → r ∈ G.ports m d.reverse → m = n := by
    intro m r h h'; exact owner_unique hG h' h
  have hne : ∀ m r, r ∈ G.ports m d → r ∉ G.ports n d.reverse := by
    intro m r hr hc
    have := hG.ports_dir _ _ _ _ _ hc hr
    cases d <;> simp [Direction.reverse] at this
  have houtV : ∀ m p, p ∈ G.ports m d → (w p = true ↔ m ∈ done) := by
    intro m p hp
    rw [a2, if_neg (hne m p hp)]; exact h.outV m p hp
  by_cases hmem : n ∈ done ++ s.cand
  · -- nothing new
    have hin := h.core.inV n hmem
    have hw : w = s.visited := by
      funext q; rw [a2]; split
      · next hq => rw [hin q hq]
      · rfl
    have hc : (addSource G F d s n).cand = s.cand := by
      rw [hcand]
      rw [if_neg]
      split
      · intro hc
        simp only [Bool.and_eq_true, Bool.not_eq_true', List.any_eq_true] at hc
        obtain ⟨hc1, p, hp, hc2⟩ := hc
        have hd : n ∈ done := by
          rw [List.mem_append] at hmem
          rcases hmem with hm | hm
          · exact hm
          · simp [hm] at hc1
        rw [(houtV n p hp).2 hd] at hc2; simp at hc2
      · intro hc
        simp only [List.any_eq_true] at hc
        obtain ⟨p, hp, hc⟩ := hc
        rw [hin p hp] at hc; simp at hc
    refine ⟨[], by simp, ?_, by simp [hc], fun _ _ => by rw [hc]; exact hmem⟩
    refine ⟨?_, ?_, by rw [hseen]; exact h.seen⟩
    · rw [hc, hv', hw]; simpa using h.core
    · rw [hv']; exact houtV
  · by_cases hnew : (if (G.ports n d.reverse).length = 0 then
        !s.cand.contains n && (G.ports n d).any (fun p => !w p)
      else (G.ports n d.reverse).any fun p => !s.visited p) = true
    · rw [if_pos hnew] at hcand
      refine ⟨[n], by simp, ?_, hcand, fun _ _ => by rw [hcand]; simp⟩
      have hmono : ∀ q, s.visited q = true → w q = true := by
        intro q hq; rw [a2]; split <;> simp [hq]
      have hkeep : ∀ m q, m ≠ n → q ∈ G.ports m d.reverse → w q = s.visited q := by
        intro m q hm hq
        rw [a2, if_neg (fun hc => hm (hnode m q hc hq))]
      refine ⟨?_, by rw [hv']; exact houtV, by rw [hseen]; exact h.seen⟩
      rw [hcand, hv', ← List.append_assoc]
      have hc := h.core
      refine { nodup := ?_, doneSub := ?_, srcSub := ?_, inV := ?_, filt := ?_, reason := ?_, firedV := ?_, firedDone := ?_, pend := ?_, order := ?_, enter := ?_ }
      · rw [List.nodup_append]; exact ⟨hc.nodup, by simp, by rintro a ha b hb rfl; simp at hb; exact hmem (hb ▸ ha)⟩
      · intro m hm; simp [hm]
      · intro m hm
        rw [List.mem_append] at hm ⊢
        rcases hm with hm | hm
        · exact .inl (hc.srcSub m hm)
        · exact .inr hm
      · intro m hm q hq
        by_cases e : m = n
        · subst e; rw [a2, if_pos hq]
        · rw [List.mem_append, List.mem_singleton] at hm
          exact hmono _ (hc.inV m (hm.resolve_right e) q hq)
      · intro m hm
        rw [List.mem_append, List.mem_singleton] at hm
        rcases hm with hm | rfl
        · exact hc.filt m hm
        · exact hF
      · intro m hm q hq hv
        rw [List.mem_append, List.mem_singleton, not_or] at hm
        rw [hkeep m q hm.2 hq] at hv
        exact hc.reason m hm.1 q hq hv
      · intro q hf; exact hmono _ (hc.firedV q hf)
      · exact hc.firedDone
      · rintro m hm hFm ⟨q, hq, hv⟩
        rw [List.mem_append, List.mem_singleton, not_or] at hm
        rw [hkeep m q hm.2 hq] at hv
        obtain ⟨q2, hq2, h2⟩ := hc.pend m hm.1 hFm ⟨q, hq, hv⟩
        exact ⟨q2, hq2, by rw [hkeep m q2 hm.2 hq2]; exact h2⟩
      · intro a m b hab hmS
        rw [List.mem_append, List.mem_singleton, not_or] at hmS
        rcases List.eq_nil_or_concat b with rfl | ⟨b', y, rfl⟩
        · have := List.append_inj' (s₁ := done ++ s.cand) (t₁ := [n]) (s₂ := a) (t₂ := [m]) hab rfl
          simp at this
          exact absurd this.2.symm hmS.2
        · have h' : (done ++ s.cand) ++ [n] = (a ++ m :: b') ++ [y] := by rw [hab]; simp
          exact hc.order a m b' (List.append_inj' h' rfl).1 hmS.1
      · intro m hm hmS
        rw [List.mem_append, List.mem_singleton, not_or] at hmS
        rw [List.mem_append, List.mem_singleton] at hm
        exact hc.enter m (hm.resolve_right hmS.2) hmS.1
    · -- only a node without ports is refused
      have hin : G.ports n d.reverse = [] := by
        by_contra hne0
        rw [if_neg (by simpa using hne0)] at hnew
        have hall : ∀ q ∈ G.ports n d.reverse, s.visited q = true := by
          intro q hq
          by_contra hq'
          exact hnew (List.any_eq_true.2 ⟨q, hq, by simpa using hq'⟩)
        obtain ⟨q, hq⟩ := List.exists_mem_of_ne_nil _ hne0
        obtain ⟨q2, hq2, h2, _⟩ := h.core.pend n hmem hF ⟨q, hq, hall q hq⟩
        rw [hall q2 hq2] at h2; simp at h2
      rw [if_neg hnew] at hcand
      have hw : w = s.visited := by
        funext q; rw [a2]; simp [hin]
      refine ⟨[], by simp, ?_, by simpa using hcand, ?_⟩
      · refine ⟨?_, by rw [hv']; exact houtV, by rw [hseen]; exact h.seen⟩
        rw [hcand, hv', hw]; simpa using h.core
      · rintro _ ⟨d', hd'⟩
        exfalso
        have : d' = d := by
          cases d <;> cases d' <;> first | rfl | exact absurd hin hd'
        subst this
        rw [hin] at hnew
        obtain ⟨p, hp⟩ := List.exists_mem_of_ne_nil _ hd'
        apply hnew
        rw [List.mem_append, not_or] at hmem
        simp only [List.length_nil, if_true, Bool.and_eq_true, Bool.not_eq_true', List.any_eq_true]
        refine ⟨by simpa using hmem.2, p, hp, ?_⟩
        rw [Bool.eq_false_iff]
        intro hc
        exact hmem.1 ((houtV n p hp).1 hc)

end Topo

end Verif.Algo
