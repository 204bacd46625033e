import Verif.Algo.DomModel

/-!
# Traversals of a renamed copy

`Embeds G G' ρ π N P`: within the nodes `N` and the ports `P` of `G`, the view `G'` answers as
`G` does, with nodes renamed by `ρ` and ports by `π`. `Filters` relates the filters of the two
traversals in the same way. Then the traversals of the two views, started from corresponding
sources, go through corresponding states.
-/

namespace Verif.Algo

open Verif (Direction)

/-- `G'` answers as `G` on the nodes `N` and ports `P`, up to the names. -/
structure Embeds (G G' : View) (ρ π : Nat → Nat) (N P : Nat → Prop) : Prop where
  injN : ∀ a b, N a → N b → ρ a = ρ b → a = b
  injP : ∀ a b, P a → P b → π a = π b → a = b
  ports : ∀ n d, N n → G'.ports (ρ n) d = (G.ports n d).map π
  portsMem : ∀ n d, N n → ∀ p ∈ G.ports n d, P p ∧ G.portNode p = some n
  iter : ∀ p, P p → p ∈ G.portsIter ∧ π p ∈ G'.portsIter
  node : ∀ p, P p → ∃ n, N n ∧ G.portNode p = some n ∧ G'.portNode (π p) = some (ρ n)
  links : ∀ p, P p → G'.links (π p) = (G.links p).map π
  linksMem : ∀ p, P p → ∀ q ∈ G.links p, P q

/-- The filters answer alike on corresponding nodes and ports. -/
structure Filters (G : View) (F F' : Filter) (ρ π : Nat → Nat) (N P : Nat → Prop) : Prop where
  node : ∀ n, N n → F'.node (ρ n) = F.node n
  port : ∀ n p, N n → P p → G.portNode p = some n → F'.port (ρ n) (π p) = F.port n p

variable {G G' : View} {ρ π : Nat → Nat} {N P : Nat → Prop} {F F' : Filter}

/-- Two bit maps agree on corresponding indices. -/
def Agree (f : Nat → Nat) (Q : Nat → Prop) (v v' : Nat → Bool) : Prop := ∀ p, Q p → v' (f p) = v p

theorem Agree.set {f : Nat → Nat} {Q : Nat → Prop} (inj : ∀ a b, Q a → Q b → f a = f b → a = b) {v v' : Nat → Bool}
    (h : Agree f Q v v') {p : Nat} (hp : Q p) (b : Bool) : Agree f Q (setBit v p b) (setBit v' (f p) b) := by
  intro q hq
  unfold setBit
  by_cases e : q = p
  · subst e; simp
  · have : ¬ f q = f p := fun h' => e (inj q p hq hp h')
    simp [e, this, h q hq]

theorem filter_map {ρ : Nat → Nat} {f f' : Nat → Bool} {l : List Nat} (h : ∀ n ∈ l, f' (ρ n) = f n) :
    (l.map ρ).filter f' = (l.filter f).map ρ := by
  induction l with
  | nil => rfl
  | cons a l ih =>
    simp only [List.map_cons, List.filter_cons, h a List.mem_cons_self, ih (fun n hn => h n (List.mem_cons_of_mem _ hn))]
    split <;> rfl

namespace Topo

theorem setAll_agree (E : Embeds G G' ρ π N P) {ps : List Nat} (hps : ∀ p ∈ ps, P p) {v v' : Nat → Bool} (h : Agree π P v v')
    (b : Bool) : Agree π P (setAll v ps b) (setAll v' (ps.map π) b) := by
  induction ps generalizing v v' with
  | nil => exact h
  | cons p ps ih =>
    exact ih (fun q hq => hps q (List.mem_cons_of_mem _ hq)) (h.set E.injP (hps p List.mem_cons_self) b)

theorem setAll_apply (ps : List Nat) (v : Nat → Bool) (b : Bool) (q : Nat) :
    setAll v ps b q = if q ∈ ps then b else v q := by
  induction ps generalizing v with
  | nil => simp [setAll]
  | cons p ps ih =>
    show setAll (setBit v p b) ps b q = _
    rw [ih]
    by_cases h1 : q ∈ ps <;> by_cases h2 : q = p <;> simp [h1, h2, setBit]

/-- Corresponding states. -/
structure Rel (ρ π : Nat → Nat) (N P : Nat → Prop) (s s' : Topo) : Prop where
  visited : Agree π P s.visited s'.visited
  cand : s'.cand = s.cand.map ρ
  candMem : ∀ n ∈ s.cand, N n
  seen : s'.seen = s.seen

theorem new_rel (E : Embeds G G' ρ π N P) (hF : Filters G F F' ρ π N P) (d : Direction) (dflt : Bool) {S : List Nat}
    (hS : ∀ n ∈ S, N n) : Rel ρ π N P (new G F d dflt S) (new G' F' d dflt (S.map ρ)) := by
  have hc : (S.map ρ).filter F'.node = (S.filter F.node).map ρ := filter_map fun n hn => hF.node n (hS n hn)
  have hm : ∀ n ∈ S.filter F.node, N n := fun n hn => hS n (List.mem_filter.1 hn).1
  refine ⟨?_, hc, hm, rfl⟩
  simp only [new, hc]
  have h0 : Agree π P (if dflt then setAll (fun _ => dflt) G.portsIter false else fun _ => dflt)
      (if dflt then setAll (fun _ => dflt) G'.portsIter false else fun _ => dflt) := by
    intro p hp
    cases dflt with
    | false => rfl
    | true => simp [setAll_apply, E.iter p hp]
  generalize (if dflt then setAll (fun _ => dflt) G.portsIter false else fun _ => dflt) = v at h0 ⊢
  generalize (if dflt then setAll (fun _ => dflt) G'.portsIter false else fun _ => dflt) = v' at h0 ⊢
  generalize S.filter F.node = l at hm ⊢
  induction l generalizing v v' with
  | nil => exact h0
  | cons n l ih =>
    simp only [List.map_cons, List.foldl_cons]
    have hn := hm n List.mem_cons_self
    refine ih _ _ ?_ (fun m hm' => hm m (List.mem_cons_of_mem _ hm'))
    rw [E.ports n _ hn]
    exact setAll_agree E (fun p hp => (E.portsMem n _ hn p hp).1) h0 true

theorem readyLoop_rel (E : Embeds G G' ρ π N P) (hF : Filters G F F' ρ π N P) {n q : Nat} (hn : N n) (hq : P q) {ps : List Nat}
    (hps : ∀ p ∈ ps, P p ∧ G.portNode p = some n) {v v' : Nat → Bool} (h : Agree π P v v') :
    (readyLoop G' F' (ρ n) (π q) (ps.map π) v').1 = (readyLoop G F n q ps v).1 ∧
      Agree π P (readyLoop G F n q ps v).2 (readyLoop G' F' (ρ n) (π q) (ps.map π) v').2 := by
  induction ps generalizing v v' with
  | nil => exact ⟨rfl, h⟩
  | cons p ps ih =>
    obtain ⟨hp, hpn⟩ := hps p List.mem_cons_self
    have ih := fun {v v'} => ih (v := v) (v' := v') fun x hx => hps x (List.mem_cons_of_mem _ hx)
    have e1 : π p = π q ↔ p = q := ⟨E.injP p q hp hq, fun h => by rw [h]⟩
    have e2 : ((G'.links (π p)).head?.isNone || !F'.port (ρ n) (π p)) = ((G.links p).head?.isNone || !F.port n p) := by
      rw [E.links p hp, hF.port n p hn hp hpn]
      cases G.links p <;> rfl
    simp only [List.map_cons, readyLoop, e1, h p hp, e2]
    split
    · split
      · exact ⟨rfl, h⟩
      · exact ih h
    · split
      · exact ih h
      · split
        · exact ih (h.set E.injP hp true)
        · exact ⟨rfl, h⟩

theorem becomesReady_rel (E : Embeds G G' ρ π N P) (hF : Filters G F F' ρ π N P) (d : Direction) {n q : Nat} (hn : N n) (hq : P q)
    {v v' : Nat → Bool} (h : Agree π P v v') :
    (becomesReady G' F' d v' (ρ n) (π q)).1 = (becomesReady G F d v n q).1 ∧
      Agree π P (becomesReady G F d v n q).2 (becomesReady G' F' d v' (ρ n) (π q)).2 := by
  simp only [becomesReady, hF.node n hn, E.ports n _ hn]
  split
  · exact ⟨rfl, h⟩
  · exact readyLoop_rel E hF hn hq (E.portsMem n _ hn) h

/-- Both fail, or both return corresponding states. -/
def ORel (R : α → α → Prop) (a b : Option α) : Prop :=
  (a = none ∧ b = none) ∨ ∃ x y, a = some x ∧ b = some y ∧ R x y

theorem linkLoop_rel (E : Embeds G G' ρ π N P) (hF : Filters G F F' ρ π N P) (d : Direction) {qs : List Nat}
    (hqs : ∀ q ∈ qs, P q) {s s' : Topo} (h : Rel ρ π N P s s') :
    ORel (Rel ρ π N P) (linkLoop G F d s qs) (linkLoop G' F' d s' (qs.map π)) := by
  induction qs generalizing s s' with
  | nil => exact .inr ⟨s, s', rfl, rfl, h⟩
  | cons q qs ih =>
    have hq := hqs q List.mem_cons_self
    obtain ⟨n, hn, e1, e2⟩ := E.node q hq
    obtain ⟨r1, r2⟩ := becomesReady_rel E hF d hn hq h.visited
    simp only [List.map_cons, linkLoop, e1, e2]
    refine ih (fun x hx => hqs x (List.mem_cons_of_mem _ hx)) ⟨r2.set E.injP hq true, ?_, ?_, h.seen⟩
    · simp only [r1, h.cand]
      split <;> simp
    · simp only
      split
      · intro x hx
        rcases List.mem_append.1 hx with hx | hx
        · exact h.candMem x hx
        · rw [List.mem_singleton.1 hx]; exact hn
      · exact h.candMem

theorem portLoop_rel (E : Embeds G G' ρ π N P) (hF : Filters G F F' ρ π N P) (d : Direction) {n : Nat} (hn : N n) {ps : List Nat}
    (hps : ∀ p ∈ ps, P p ∧ G.portNode p = some n) {s s' : Topo} (h : Rel ρ π N P s s') :
    ORel (Rel ρ π N P) (portLoop G F d n s ps) (portLoop G' F' d (ρ n) s' (ps.map π)) := by
  induction ps generalizing s s' with
  | nil => exact .inr ⟨s, s', rfl, rfl, h⟩
  | cons p ps ih =>
    obtain ⟨hp, hpn⟩ := hps p List.mem_cons_self
    have ih := fun {s s'} => ih (s := s) (s' := s') fun x hx => hps x (List.mem_cons_of_mem _ hx)
    have h' : Rel ρ π N P { s with visited := setBit s.visited p true } { s' with visited := setBit s'.visited (π p) true } :=
      ⟨h.visited.set E.injP hp true, h.cand, h.candMem, h.seen⟩
    simp only [List.map_cons, portLoop, hF.port n p hn hp hpn, E.links p hp]
    split
    · exact ih h'
    · rcases linkLoop_rel E hF d (E.linksMem p hp) h' with ⟨e1, e2⟩ | ⟨x, y, e1, e2, hxy⟩
      · rw [e1, e2]; exact .inl ⟨rfl, rfl⟩
      · rw [e1, e2]; exact ih hxy

theorem next_rel (E : Embeds G G' ρ π N P) (hF : Filters G F F' ρ π N P) (d : Direction) {s s' : Topo} (h : Rel ρ π N P s s') :
    ORel (fun x y => y.1 = x.1.map ρ ∧ Rel ρ π N P x.2 y.2) (next G F d s) (next G' F' d s') := by
  obtain ⟨v, cand, seen⟩ := s
  obtain ⟨v', cand', seen'⟩ := s'
  have hc := h.cand
  simp only at hc
  subst hc
  cases cand with
  | nil => exact .inr ⟨_, _, rfl, rfl, rfl, h⟩
  | cons n cand =>
    have hn := h.candMem n List.mem_cons_self
    simp only [next, List.map_cons, E.ports n d hn]
    rcases portLoop_rel E hF d hn (E.portsMem n d hn) (s := ⟨v, cand, seen⟩) (s' := ⟨v', cand.map ρ, seen'⟩)
      ⟨h.visited, rfl, fun x hx => h.candMem x (List.mem_cons_of_mem _ hx), h.seen⟩ with ⟨e1, e2⟩ | ⟨x, y, e1, e2, hxy⟩
    · rw [e1, e2]; exact .inl ⟨rfl, rfl⟩
    · rw [e1, e2]
      exact .inr ⟨_, _, rfl, rfl, rfl, hxy.visited, hxy.cand, hxy.candMem, by simp [hxy.seen]⟩

theorem collect_rel (E : Embeds G G' ρ π N P) (hF : Filters G F F' ρ π N P) (d : Direction) (k k' : Nat) {s s' : Topo}
    (h : Rel ρ π N P s s') {l l' : List Nat} {t t' : Topo} (h1 : collect G F d k s = some (l, t))
    (h2 : collect G' F' d k' s' = some (l', t')) : l' = l.map ρ ∧ Rel ρ π N P t t' := by
  induction k generalizing k' s s' l l' with
  | zero => cases h1
  | succ k ih =>
    cases k' with
    | zero => cases h2
    | succ k' =>
      simp only [collect] at h1 h2
      rcases next_rel E hF d h with ⟨e1, e2⟩ | ⟨⟨o, x⟩, ⟨o', y⟩, e1, e2, ho, hxy⟩
      · rw [e1] at h1; cases h1
      · rw [e1] at h1; rw [e2] at h2
        simp only at ho
        subst ho
        cases o with
        | none =>
          simp only [Option.map_none, Option.some.injEq, Prod.mk.injEq] at h1 h2
          rw [← h1.1, ← h1.2, ← h2.1, ← h2.2]
          exact ⟨rfl, hxy⟩
        | some n =>
          simp only [Option.map_some] at h1 h2
          cases c1 : collect G F d k x with
          | none => rw [c1] at h1; cases h1
          | some r =>
            cases c2 : collect G' F' d k' y with
            | none => rw [c2] at h2; cases h2
            | some r' =>
              obtain ⟨a, b⟩ := r
              obtain ⟨a', b'⟩ := r'
              rw [c1] at h1; rw [c2] at h2
              simp only [Option.some.injEq, Prod.mk.injEq] at h1 h2
              rw [h1.2] at c1; rw [h2.2] at c2
              obtain ⟨i1, i2⟩ := ih (s := x) (s' := y) k' hxy c1 c2
              rw [← h1.1, ← h2.1, i1]
              exact ⟨rfl, i2⟩

end Topo

/-- The two topological sorts list corresponding nodes, and mark corresponding ports. -/
theorem toposort_rel (E : Embeds G G' ρ π N P) (hF : Filters G F F' ρ π N P) (d : Direction) (dflt dflt' : Bool) {S : List Nat}
    (hS : ∀ n ∈ S, N n) (hd : dflt = dflt') {l l' : List Nat} {t t' : Topo} (h1 : toposort G F d dflt S = some (l, t))
    (h2 : toposort G' F' d dflt' (S.map ρ) = some (l', t')) : l' = l.map ρ ∧ Topo.Rel ρ π N P t t' := by
  subst hd
  exact Topo.collect_rel E hF d _ _ (Topo.new_rel E hF d dflt hS) h1 h2

namespace Post

/-- Corresponding states. -/
structure Rel (ρ : Nat → Nat) (N : Nat → Prop) (s s' : Post) : Prop where
  visited : Agree ρ N s.visited s'.visited
  finished : Agree ρ N s.finished s'.finished
  stack : s'.stack = s.stack.map ρ
  stackMem : ∀ n ∈ s.stack, N n
  seen : s'.seen = s.seen

theorem pushLoop_rel (E : Embeds G G' ρ π N P) (hF : Filters G F F' ρ π N P) {cap cap' : Nat}
    (hcap : ∀ n, N n → n < cap ∧ ρ n < cap') {n : Nat} (hn : N n) {v v' : Nat → Bool} (hv : Agree ρ N v v') {ps : List Nat}
    (hps : ∀ p ∈ ps, P p ∧ G.portNode p = some n) {st : List Nat} (hst : ∀ x ∈ st, N x) :
    ∃ r, pushLoop G F cap n v ps st = some r ∧ pushLoop G' F' cap' (ρ n) v' (ps.map π) (st.map ρ) = some (r.map ρ) ∧ ∀ x ∈ r, N x := by
  induction ps generalizing st with
  | nil => exact ⟨st, rfl, rfl, hst⟩
  | cons p ps ih =>
    obtain ⟨hp, hpn⟩ := hps p List.mem_cons_self
    have ih := fun {st} => ih (st := st) fun x hx => hps x (List.mem_cons_of_mem _ hx)
    simp only [List.map_cons, pushLoop, hF.port n p hn hp hpn, E.links p hp, List.head?_map]
    split
    · exact ih hst
    · cases hq : (G.links p).head? with
      | none => exact ih hst
      | some q =>
        have hqP := E.linksMem p hp q (List.mem_of_head? hq)
        obtain ⟨m, hm, e1, e2⟩ := E.node q hqP
        have c1 := (hcap m hm).1
        have c2 := (hcap m hm).2
        simp only [Option.map_some, e1, e2, hF.node m hm, hF.port m q hm hqP e1, hv m hm, Nat.not_le.2 c1, Nat.not_le.2 c2, if_false]
        split
        · exact ih hst
        · split
          · exact ih hst
          · exact ih (st := m :: st) (by
              intro x hx
              rcases List.mem_cons.1 hx with rfl | hx
              · exact hm
              · exact hst x hx)

theorem next_rel (E : Embeds G G' ρ π N P) (hF : Filters G F F' ρ π N P) (d : Direction) {cap cap' : Nat}
    (hcap : ∀ n, N n → n < cap ∧ ρ n < cap') (k k' : Nat) {s s' : Post} (h : Rel ρ N s s')
    {x y : Option Nat × Post} (h1 : next G F d cap k s = some x) (h2 : next G' F' d cap' k' s' = some y) :
    y.1 = x.1.map ρ ∧ Rel ρ N x.2 y.2 ∧ ∀ n, x.1 = some n → N n := by
  induction k generalizing k' s s' with
  | zero => cases h1
  | succ k ih =>
    cases k' with
    | zero => cases h2
    | succ k' =>
      obtain ⟨st, v, f, seen⟩ := s
      obtain ⟨st', v', f', seen'⟩ := s'
      have hc := h.stack
      simp only at hc
      subst hc
      cases st with
      | nil =>
        simp only [next, List.map_nil, Option.some.injEq] at h1 h2
        subst h1; subst h2
        exact ⟨rfl, h, fun _ e => by cases e⟩
      | cons n st =>
        have hn := h.stackMem n List.mem_cons_self
        have hst : ∀ x ∈ st, N x := fun x hx => h.stackMem x (List.mem_cons_of_mem _ hx)
        have c1 := (hcap n hn).1
        have c2 := (hcap n hn).2
        have ev := h.visited n hn
        have ef := h.finished n hn
        simp only at ev ef
        simp only [next, List.map_cons, Nat.not_le.2 c1, Nat.not_le.2 c2, if_false, ev, ef, E.ports n d hn, ← List.map_reverse] at h1 h2
        cases hvn : v n with
        | false =>
          simp only [hvn, Bool.not_false, if_true] at h1 h2
          have hv' : Agree ρ N (setBit v n true) (setBit v' (ρ n) true) := Agree.set E.injN h.visited hn true
          obtain ⟨r, r1, r2, r3⟩ := pushLoop_rel E hF hcap hn hv' (ps := (G.ports n d).reverse)
            (fun p hp => E.portsMem n d hn p (List.mem_reverse.1 hp)) h.stackMem
          simp only [List.map_cons] at r2
          rw [r1] at h1; rw [r2] at h2
          exact ih (s := ⟨r, setBit v n true, f, seen⟩) (s' := ⟨r.map ρ, setBit v' (ρ n) true, f', seen'⟩) k'
            ⟨hv', h.finished, rfl, r3, h.seen⟩ h1 h2
        | true =>
          simp only [hvn, Bool.not_true, Bool.false_eq_true, if_false] at h1 h2
          cases hfn : f n with
          | false =>
            simp only [hfn, Bool.not_false, if_true, Option.some.injEq] at h1 h2
            subst h1; subst h2
            exact ⟨rfl, ⟨h.visited, Agree.set E.injN h.finished hn true, rfl, hst, by have := h.seen; simp only at this; simp [this]⟩,
              fun _ e => by cases e; exact hn⟩
          | true =>
            simp only [hfn, Bool.not_true, Bool.false_eq_true, if_false] at h1 h2
            exact ih (s := ⟨st, v, f, seen⟩) (s' := ⟨st.map ρ, v', f', seen'⟩) k' ⟨h.visited, h.finished, rfl, hst, h.seen⟩ h1 h2

theorem collect_rel (E : Embeds G G' ρ π N P) (hF : Filters G F F' ρ π N P) (d : Direction) {cap cap' : Nat}
    (hcap : ∀ n, N n → n < cap ∧ ρ n < cap') (f f' k k' : Nat) {s s' : Post} (h : Rel ρ N s s')
    {l l' : List Nat} {t t' : Post} (h1 : collect G F d cap f k s = some (l, t))
    (h2 : collect G' F' d cap' f' k' s' = some (l', t')) : l' = l.map ρ ∧ Rel ρ N t t' ∧ ∀ n ∈ l, N n := by
  induction k generalizing k' s s' l l' with
  | zero => cases h1
  | succ k ih =>
    cases k' with
    | zero => cases h2
    | succ k' =>
      simp only [collect] at h1 h2
      cases e1 : next G F d cap f s with
      | none => rw [e1] at h1; cases h1
      | some x =>
        cases e2 : next G' F' d cap' f' s' with
        | none => rw [e2] at h2; cases h2
        | some y =>
          obtain ⟨ho, hxy, hm⟩ := next_rel E hF d hcap f f' h e1 e2
          obtain ⟨o, x⟩ := x
          obtain ⟨o', y⟩ := y
          simp only at ho hm
          subst ho
          rw [e1] at h1; rw [e2] at h2
          cases o with
          | none =>
            simp only [Option.map_none, Option.some.injEq, Prod.mk.injEq] at h1 h2
            rw [← h1.1, ← h1.2, ← h2.1, ← h2.2]
            exact ⟨rfl, hxy, fun _ hn => by cases hn⟩
          | some n =>
            simp only [Option.map_some] at h1 h2
            cases c1 : collect G F d cap f k x with
            | none => rw [c1] at h1; cases h1
            | some r =>
              cases c2 : collect G' F' d cap' f' k' y with
              | none => rw [c2] at h2; cases h2
              | some r' =>
                obtain ⟨a, b⟩ := r
                obtain ⟨a', b'⟩ := r'
                rw [c1] at h1; rw [c2] at h2
                simp only [Option.some.injEq, Prod.mk.injEq] at h1 h2
                rw [h1.2] at c1; rw [h2.2] at c2
                obtain ⟨i1, i2, i3⟩ := ih (s := x) (s' := y) k' hxy c1 c2
                rw [← h1.1, ← h2.1, i1]
                refine ⟨rfl, i2, fun z hz => ?_⟩
                rcases List.mem_cons.1 hz with rfl | hz
                · exact hm _ rfl
                · exact i3 z hz

end Post

/-- The two post-order traversals list corresponding nodes. -/
theorem postorder_rel (E : Embeds G G' ρ π N P) (hF : Filters G F F' ρ π N P) (d : Direction) {cap cap' : Nat}
    (hcap : ∀ n, N n → n < cap ∧ ρ n < cap') {S : List Nat} (hS : ∀ n ∈ S, N n) {l l' : List Nat} {t t' : Post}
    (h1 : postorder G F d cap S = some (l, t)) (h2 : postorder G' F' d cap' (S.map ρ) = some (l', t')) :
    l' = l.map ρ ∧ ∀ n ∈ l, N n := by
  obtain ⟨a, -, b⟩ := Post.collect_rel E hF d hcap _ _ _ _ (s := Post.new F S) (s' := Post.new F' (S.map ρ))
    ⟨fun _ _ => rfl, fun _ _ => rfl, filter_map fun n hn => hF.node n (hS n hn),
      fun n hn => hS n (List.mem_filter.1 hn).1, rfl⟩ h1 h2
  exact ⟨a, b⟩

namespace Dom

theorem predLoop_rel (E : Embeds G G' ρ π N P) (hF : Filters G F F' ρ π N P) {idx idx' : Nat → Nat} (hidx : ∀ n, N n → idx' (ρ n) = idx n)
    (D : List (Option Nat)) {n : Nat} (hn : N n) {ps : List Nat} (hps : ∀ p ∈ ps, P p ∧ G.portNode p = some n) :
    predLoop G' F' idx' D (ρ n) (ps.map π) = predLoop G F idx D n ps := by
  induction ps with
  | nil => rfl
  | cons p ps ih =>
    obtain ⟨hp, hpn⟩ := hps p List.mem_cons_self
    have ih := ih fun x hx => hps x (List.mem_cons_of_mem _ hx)
    simp only [List.map_cons, predLoop, hF.port n p hn hp hpn, E.links p hp, List.head?_map, ih]
    cases hq : (G.links p).head? with
    | none => rfl
    | some q =>
      have hqP := E.linksMem p hp q (List.mem_of_head? hq)
      obtain ⟨m, hm, e1, e2⟩ := E.node q hqP
      simp only [Option.map_some, e1, e2, hF.node m hm, hF.port m q hm hqP e1, hidx m hm]

theorem newDom_rel (E : Embeds G G' ρ π N P) (hF : Filters G F F' ρ π N P) (d : Direction) {idx idx' : Nat → Nat}
    (hidx : ∀ n, N n → idx' (ρ n) = idx n) (D : List (Option Nat)) {n : Nat} (hn : N n) :
    newDom G' F' d idx' D (ρ n) = newDom G F d idx D n := by
  simp only [newDom, E.ports n _ hn, predLoop_rel E hF hidx D hn (E.portsMem n d.reverse hn)]

theorem pass_rel (E : Embeds G G' ρ π N P) (hF : Filters G F F' ρ π N P) (d : Direction) {idx idx' : Nat → Nat}
    (hidx : ∀ n, N n → idx' (ρ n) = idx n) {order : List Nat} (ho : ∀ n ∈ order, N n) (k : Nat) (D : List (Option Nat)) (ch : Bool) :
    pass G' F' d idx' (order.map ρ) k D ch = pass G F d idx order k D ch := by
  induction k generalizing D ch with
  | zero => rfl
  | succ k ih =>
    simp only [pass, List.getElem?_map]
    cases h : order[k]? with
    | none => rfl
    | some n => simp only [Option.map_some, newDom_rel E hF d hidx D (ho n (List.mem_of_getElem? h)), ih]

theorem iterate_rel (E : Embeds G G' ρ π N P) (hF : Filters G F F' ρ π N P) (d : Direction) {idx idx' : Nat → Nat}
    (hidx : ∀ n, N n → idx' (ρ n) = idx n) {order : List Nat} (ho : ∀ n ∈ order, N n) (k : Nat) (D : List (Option Nat)) :
    iterate G' F' d idx' (order.map ρ) k D = iterate G F d idx order k D := by
  induction k generalizing D with
  | zero => rfl
  | succ k ih => simp only [iterate, List.length_map, pass_rel E hF d hidx ho, ih]

theorem fill_rel (injN : ∀ a b, N a → N b → ρ a = ρ b → a = b) {order : List Nat} (ho : ∀ n ∈ order, N n) (D : List (Option Nat)) (i : Nat)
    {m m' : Nat → Option Nat} (hm : ∀ x, N x → m' (ρ x) = (m x).map ρ) :
    Topo.ORel (fun a b => ∀ x, N x → b (ρ x) = (a x).map ρ) (fill order D i m) (fill (order.map ρ) D i m') := by
  induction D generalizing i m m' with
  | nil => exact .inr ⟨m, m', rfl, rfl, hm⟩
  | cons o D ih =>
    have e : (o.bind fun j => (order.map ρ)[j]?) = (o.bind fun j => order[j]?).map ρ := by
      cases o <;> simp
    simp only [fill, e]
    rw [List.getElem?_map]
    cases h1 : order[i]? with
    | none => exact .inl ⟨rfl, rfl⟩
    | some n =>
      cases h2 : o.bind fun j => order[j]? with
      | none => exact .inl ⟨rfl, rfl⟩
      | some c =>
        simp only [Option.map_some]
        refine ih (i + 1) fun x hx => ?_
        have hn := ho n (List.mem_of_getElem? h1)
        by_cases e : x = n
        · subst e; simp
        · have : ¬ ρ x = ρ n := fun h' => e (injN x n hx hn h')
          simp [e, this, hm x hx]

end Dom

theorem idxOf_map {l : List Nat} (injN : ∀ a b, N a → N b → ρ a = ρ b → a = b) (hl : ∀ n ∈ l, N n) {n : Nat} (hn : N n) :
    (if ρ n ∈ l.map ρ then (l.map ρ).idxOf (ρ n) else 0) = if n ∈ l then l.idxOf n else 0 := by
  have hmem : ρ n ∈ l.map ρ ↔ n ∈ l := by
    rw [List.mem_map]
    constructor
    · rintro ⟨a, ha, e⟩; rw [← injN a n (hl a ha) hn e]; exact ha
    · exact fun h => ⟨n, h, rfl⟩
  have : (l.map ρ).idxOf (ρ n) = l.idxOf n := by
    clear hmem
    induction l with
    | nil => rfl
    | cons a l ih =>
      have ha := hl a List.mem_cons_self
      simp only [List.map_cons, List.idxOf_cons, ih (fun x hx => hl x (List.mem_cons_of_mem _ hx))]
      by_cases e : a = n
      · subst e; simp only [beq_self_eq_true, cond_true]
      · have : ¬ ρ a = ρ n := fun h' => e (injN a n ha hn h')
        simp only [beq_eq_false_iff_ne.2 e, beq_eq_false_iff_ne.2 this]
  simp only [hmem, this]

/-- The two dominator trees correspond. -/
theorem dominators_rel (E : Embeds G G' ρ π N P) (hF : Filters G F F' ρ π N P) (d : Direction) {cap cap' : Nat}
    (hcap : ∀ n, N n → n < cap ∧ ρ n < cap') {entry : Nat} (he : N entry)
    (h1 : (postorder G F d cap [entry]).isSome = true) (h2 : (postorder G' F' d cap' [ρ entry]).isSome = true) :
    Topo.ORel (fun T T' : Dom.Tree => T'.root = ρ T.root ∧ ∀ x, N x → T'.idom (ρ x) = (T.idom x).map ρ)
      (Dom.dominators G F d cap entry) (Dom.dominators G' F' d cap' (ρ entry)) := by
  obtain ⟨⟨order, t⟩, e1⟩ := Option.isSome_iff_exists.1 h1
  obtain ⟨⟨order', t'⟩, e2⟩ := Option.isSome_iff_exists.1 h2
  obtain ⟨rfl, ho⟩ := postorder_rel E hF d hcap (S := [entry]) (by simpa using he) e1 e2
  simp only [Dom.dominators, e1, e2, List.length_map]
  by_cases h0 : order.length = 0
  · simp only [h0, if_true]; exact .inl ⟨rfl, rfl⟩
  · simp only [h0, if_false]
    rw [Dom.iterate_rel E hF d (idx := fun n => if n ∈ order then order.idxOf n else 0) (fun n hn => idxOf_map E.injN ho hn) ho]
    generalize Dom.iterate G F d _ order _ _ = r
    cases r with
    | none => exact .inl ⟨rfl, rfl⟩
    | some D =>
      rcases Dom.fill_rel E.injN ho (D.take (order.length - 1)) 0 (m := fun _ => none) (m' := fun _ => none) (fun _ _ => rfl) with
        ⟨a, b⟩ | ⟨x, y, a, b, hxy⟩
      · simp only [a, b]; exact .inl ⟨rfl, rfl⟩
      · simp only [a, b]; exact .inr ⟨_, _, rfl, rfl, rfl, hxy⟩

end Verif.Algo
