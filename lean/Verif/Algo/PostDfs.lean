import Verif.Algo.PostLemmas

/-! The traversal is a recursive depth first search. -/

namespace Verif.Algo

open Verif (Direction)

/-- Recursive depth first search in post-order, as a specification: with the nodes `vis` already
visited, going through the list in order yields `out`. -/
inductive Dfs (succ : Nat → List Nat) : (vis todo out : List Nat) → Prop where
  | nil {vis} : Dfs succ vis [] []
  | seen {vis n ns o} : n ∈ vis → Dfs succ vis ns o → Dfs succ vis (n :: ns) o
  | new {vis n ns o o'} : n ∉ vis → Dfs succ (n :: vis) (succ n) o → Dfs succ (n :: o ++ vis) ns o' →
      Dfs succ vis (n :: ns) (o ++ n :: o')

variable {succ : Nat → List Nat}

theorem Dfs.disjoint {vis ns o : List Nat} (h : Dfs succ vis ns o) : ∀ x ∈ o, x ∉ vis := by
  induction h with
  | nil => simp
  | seen _ _ ih => exact ih
  | new hn _ _ ih1 ih2 =>
    intro x hx hv
    rw [List.mem_append, List.mem_cons] at hx
    rcases hx with hx | rfl | hx
    · exact ih1 x hx (by simp [hv])
    · exact hn hv
    · exact ih2 x hx (by simp [hv])

theorem Dfs.unfilter {vis ns o : List Nat} {P : Nat → Bool} (h : Dfs succ vis (ns.filter P) o)
    (hP : ∀ x, P x = false → x ∈ vis) : Dfs succ vis ns o := by
  induction ns generalizing vis o with
  | nil => simpa using h
  | cons n ns ih =>
    rw [List.filter_cons] at h
    split at h
    · cases h with
      | seen h1 h2 => exact .seen h1 (ih h2 hP)
      | new h1 h2 h3 => exact .new h1 h2 (ih h3 fun x hx => by simp [hP x hx])
    · next hn => exact .seen (hP n (by simpa using hn)) (ih h hP)

/-- The search is deterministic. -/
theorem Dfs.unique {vis ns o o' : List Nat} (h : Dfs succ vis ns o) (h' : Dfs succ vis ns o') : o = o' := by
  induction h generalizing o' with
  | nil => cases h'; rfl
  | seen hn _ ih =>
    cases h' with
    | seen _ h => exact ih h
    | new h _ _ => exact absurd hn h
  | new hn _ _ ih1 ih2 =>
    cases h' with
    | seen h _ => exact absurd h hn
    | new _ h1 h2 =>
      have := ih1 h1
      subst this
      rw [ih2 h2]

/-- Every node found below the start nodes has a predecessor which comes later. -/
theorem Dfs.parent {vis ns o : List Nat} (h : Dfs succ vis ns o) : ∀ x ∈ o, x ∉ ns → ∃ y ∈ o, x ∈ succ y ∧ Before o x y := by
  induction h with
  | nil => simp
  | seen _ _ ih =>
    intro x hx hn
    exact ih x hx (fun h => hn (by simp [h]))
  | @new vis n ns o o' hn h1 h2 ih1 ih2 =>
    intro x hx hxn
    rw [List.mem_cons, not_or] at hxn
    rw [List.mem_append, List.mem_cons] at hx
    rcases hx with hx | hx | hx
    · by_cases hs : x ∈ succ n
      · exact ⟨n, by simp, hs, o, o', rfl, hx⟩
      · obtain ⟨y, hy, hxy, a, b, e, hm⟩ := ih1 x hx hs
        exact ⟨y, by simp [hy], hxy, a, b ++ n :: o', by simp [e], hm⟩
    · exact absurd hx hxn.1
    · obtain ⟨y, hy, hxy, a, b, e, hm⟩ := ih2 x hx hxn.2
      exact ⟨y, by simp [hy], hxy, o ++ n :: a, b, by simp [e], by simp [hm]⟩

theorem Dfs.single {vis : List Nat} {e : Nat} {o : List Nat} (h : Dfs succ vis [e] o) (he : e ∉ vis) :
    ∃ o', o = o' ++ [e] := by
  cases h with
  | seen h _ => exact absurd h he
  | new _ _ h => cases h; exact ⟨_, rfl⟩

namespace Post

/-- The rounds of the traversal, counted. -/
inductive Steps (G : View) (F : Filter) (d : Direction) (cap : Nat) : Nat → Post → List Nat → Post → Prop where
  | done {s} : s.stack = [] → Steps G F d cap 0 s [] s
  | visit {k s n st st' l s'} : s.stack = n :: st → s.visited n = false →
      pushLoop G F cap n (setBit s.visited n true) (G.ports n d).reverse s.stack = some st' →
      Steps G F d cap k { s with visited := setBit s.visited n true, stack := st' } l s' → Steps G F d cap (k + 1) s l s'
  | yield {k s n st l s'} : s.stack = n :: st → s.visited n = true → s.finished n = false →
      Steps G F d cap k { s with finished := setBit s.finished n true, stack := st, seen := s.seen + 1 } l s' →
      Steps G F d cap (k + 1) s (n :: l) s'
  | skip {k s n st l s'} : s.stack = n :: st → s.visited n = true → s.finished n = true →
      Steps G F d cap k { s with stack := st } l s' → Steps G F d cap (k + 1) s l s'

theorem collect_steps {G : View} {F d cap fuel} (k : Nat) : ∀ {s l s'}, collect G F d cap fuel k s = some (l, s') →
    ∃ j, Steps G F d cap j s l s' := by
  induction k with
  | zero => intro s l s' h; cases h
  | succ k ih =>
    intro s l s' h
    unfold collect at h
    -- the rounds of one call
    have key : ∀ (f : Nat) (s : Post) (x : Option Nat) (t : Post), next G F d cap f s = some (x, t) →
        (x = none ∧ ∃ j, Steps G F d cap j s [] t) ∨
        ∃ n, x = some n ∧ ∀ l s' j, Steps G F d cap j t l s' → ∃ j', Steps G F d cap j' s (n :: l) s' := by
      intro f
      induction f with
      | zero => intro s x t h; cases h
      | succ f ihf =>
        intro s x t h
        unfold next at h
        split at h
        · next hst => cases h; exact .inl ⟨rfl, 0, .done hst⟩
        · next n st hst =>
          split at h
          · cases h
          · split at h
            · next hv =>
              have hv : s.visited n = false := by simpa using hv
              simp only at h
              split at h
              · cases h
              · next st' hp =>
                rcases ihf _ _ _ h with ⟨hx, j, hj⟩ | ⟨m, hx, hj⟩
                · exact .inl ⟨hx, j + 1, .visit hst hv hp hj⟩
                · refine .inr ⟨m, hx, fun l s' j h => ?_⟩
                  obtain ⟨j', h'⟩ := hj l s' j h
                  exact ⟨j' + 1, .visit hst hv hp h'⟩
            · next hv =>
              have hv : s.visited n = true := by simpa using hv
              split at h
              · next hf =>
                cases h
                exact .inr ⟨n, rfl, fun l s' j h => ⟨j + 1, .yield hst hv (by simpa using hf) h⟩⟩
              · next hf =>
                have hf : s.finished n = true := by simpa using hf
                rcases ihf _ _ _ h with ⟨hx, j, hj⟩ | ⟨m, hx, hj⟩
                · exact .inl ⟨hx, j + 1, .skip hst hv hf hj⟩
                · refine .inr ⟨m, hx, fun l s' j h => ?_⟩
                  obtain ⟨j', h'⟩ := hj l s' j h
                  exact ⟨j' + 1, .skip hst hv hf h'⟩
    cases hn : next G F d cap fuel s with
    | none => rw [hn] at h; cases h
    | some y =>
      obtain ⟨x, t⟩ := y
      rw [hn] at h
      rcases key fuel s x t hn with ⟨hx, hj⟩ | ⟨n, hx, hj⟩
      · subst hx
        cases h
        exact hj
      · subst hx
        simp only at h
        cases hc : collect G F d cap fuel k t with
        | none => rw [hc] at h; cases h
        | some z =>
          obtain ⟨l', s''⟩ := z
          rw [hc] at h
          cases h
          obtain ⟨j, hj'⟩ := ih hc
          exact hj _ _ _ hj'

theorem steps_dfs {G : View} {F d cap}
    (hport : ∀ p q, (G.links p).head? = some q → ∃ m, G.portNode q = some m ∧ m < cap) (k : Nat) :
    ∀ {s l s' ns st vis}, Steps G F d cap k s l s' → s.stack = ns ++ st → (∀ x, s.visited x = true ↔ x ∈ vis) →
    (∀ x, s.finished x = true → s.visited x = true) → (∀ x ∈ ns, s.visited x = true → s.finished x = true) →
    ∃ o l1 s1 k1, k1 ≤ k ∧ Dfs (succs G F d) vis ns o ∧ l = o ++ l1 ∧ Steps G F d cap k1 s1 l1 s' ∧ s1.stack = st ∧
      (∀ x, s1.visited x = true ↔ x ∈ o ∨ x ∈ vis) ∧ (∀ x, s1.finished x = true ↔ x ∈ o ∨ s.finished x = true) := by
  induction k using Nat.strongRecOn with
  | ind k ih =>
    intro s l s' ns st vis hs hst hvis hfv hns
    cases ns with
    | nil => exact ⟨[], l, s, k, Nat.le_refl _, .nil, rfl, hs, hst, by simpa using hvis, by simp⟩
    | cons n ns =>
      cases hs with
      | done h => rw [h] at hst; cases hst
      | @yield k _ n' st' l _ h hv hf hs =>
        rw [h] at hst; cases hst
        rw [hns n (by simp) hv] at hf; cases hf
      | @skip k _ n' st' _ _ h hv hf hs =>
        rw [h] at hst; cases hst
        obtain ⟨o, l1, s1, k1, a1, a2, a3, a4, a5, a6, a7⟩ := ih k (by omega) hs rfl hvis hfv (fun x hx => hns x (by simp [hx]))
        exact ⟨o, l1, s1, k1, by omega, .seen ((hvis n).1 hv) a2, a3, a4, a5, a6, a7⟩
      | @visit k _ n' st' st'' _ _ h hv hp hs =>
        rw [h] at hst; cases hst
        rw [pushLoop_eq _ _ _ _ _ hport, h] at hp
        simp only [Option.some.injEq] at hp
        have hset : ∀ x, setBit s.visited n true x = true ↔ x ∈ n :: vis := by
          intro x
          rw [List.mem_cons, ← hvis]
          by_cases hx : x = n <;> simp [setBit, hx]
        have hch : ((((G.ports n d).reverse.filterMap (target G F n)).filter fun m => !setBit s.visited n true m).reverse) =
            (succs G F d n).filter fun m => !setBit s.visited n true m := by
          rw [← List.filter_reverse, ← List.filterMap_reverse, List.reverse_reverse]; rfl
        rw [hch] at hp
        have hnf : s.finished n = false := by
          cases hf : s.finished n with
          | false => rfl
          | true => rw [hfv n hf] at hv; cases hv
        obtain ⟨o, l1, s1, k1, a1, a2, a3, a4, a5, a6, a7⟩ := ih k (by omega) hs hp.symm hset (by
            intro x hx
            exact (hset x).2 (by simp [(hvis x).1 (hfv x hx)])) (by
            intro x hx hx'
            rw [List.mem_filter] at hx
            rw [show setBit s.visited n true x = true from hx'] at hx
            simp at hx)
        have a2' := a2.unfilter (by
          intro x hx
          exact (hset x).1 (by simpa using hx))
        have hno : n ∉ o := fun h => a2.disjoint n h (by simp)
        have hv1 : s1.visited n = true := (a6 n).2 (by simp)
        have hf1 : s1.finished n = false := by
          cases hf : s1.finished n with
          | false => rfl
          | true =>
            rcases (a7 n).1 hf with h | h
            · exact absurd h hno
            · rw [show s.finished n = true from h] at hnf; cases hnf
        cases a4 with
        | done h => rw [h] at a5; cases a5
        | visit h hv' _ _ => rw [h] at a5; cases a5; rw [hv1] at hv'; cases hv'
        | skip h _ hf' _ => rw [h] at a5; cases a5; rw [hf1] at hf'; cases hf'
        | @yield k1 _ n' st' l1 _ h _ _ hs1 =>
          rw [h] at a5; cases a5
          have hfset : ∀ x, setBit s1.finished n true x = true ↔ x = n ∨ s1.finished x = true := by
            intro x; by_cases hx : x = n <;> simp [setBit, hx]
          obtain ⟨o2, l2, s2, k2, b1, b2, b3, b4, b5, b6, b7⟩ := ih k1 (by omega) hs1 rfl (vis := n :: o ++ vis) (by
              intro x
              rw [show ({ s1 with finished := setBit s1.finished n true, stack := ns ++ st, seen := s1.seen + 1 } : Post).visited x = s1.visited x from rfl, a6 x]
              simp only [List.mem_append, List.mem_cons]; grind) (by
              intro x hx
              show s1.visited x = true
              rcases (hfset x).1 hx with rfl | hx
              · exact hv1
              · rcases (a7 x).1 hx with hx | hx
                · exact (a6 x).2 (.inl hx)
                · exact (a6 x).2 (.inr (by simp [(hvis x).1 (hfv x hx)]))) (by
              intro x hx hxv
              show setBit s1.finished n true x = true
              rw [hfset]
              rcases (a6 x).1 hxv with hx' | hx'
              · exact .inr ((a7 x).2 (.inl hx'))
              · rcases List.mem_cons.1 hx' with rfl | hx'
                · exact .inl rfl
                · exact .inr ((a7 x).2 (.inr (hns x (by simp [hx]) ((hvis x).2 hx')))))
          refine ⟨o ++ n :: o2, l2, s2, k2, by omega, .new (fun hc => ?_) a2' b2, ?_, b4, b5, ?_, ?_⟩
          · rw [(hvis n).2 hc] at hv; cases hv
          · rw [a3, b3]; simp
          · intro x; rw [b6]; simp only [List.mem_append, List.mem_cons]; grind
          · intro x
            rw [b7]
            show x ∈ o2 ∨ setBit s1.finished n true x = true ↔ _
            rw [hfset, a7]
            show x ∈ o2 ∨ x = n ∨ x ∈ o ∨ s.finished x = true ↔ _
            simp only [List.mem_append, List.mem_cons]; grind

end Post

/-- The traversal yields what the recursive search yields. -/
theorem postorder_dfs {G : View} {F : Filter} {d cap}
    (hport : ∀ p q, (G.links p).head? = some q → ∃ m, G.portNode q = some m ∧ m < cap)
    {S l : List Nat} {s : Post} (h : postorder G F d cap S = some (l, s)) : Dfs (Post.succs G F d) [] (S.filter F.node) l := by
  obtain ⟨k, hk⟩ := Post.collect_steps _ h
  obtain ⟨o, l1, s1, k1, _, a2, a3, a4, a5, _⟩ := Post.steps_dfs hport k hk (ns := S.filter F.node) (st := []) (vis := [])
    (by simp [Post.new]) (by simp [Post.new]) (by simp [Post.new]) (by simp [Post.new])
  cases a4 with
  | done _ => simp at a3; rw [a3]; exact a2
  | visit h _ _ _ => rw [h] at a5; cases a5
  | yield h _ _ _ => rw [h] at a5; cases a5
  | skip h _ _ _ => rw [h] at a5; cases a5

end Verif.Algo
