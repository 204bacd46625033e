import Verif.Dyn.Lemmas

/-!
# Insertion of an arc into a dynamic topological order
-/

namespace Verif.Dyn

open Verif (Direction)
open Verif.PG
open Verif.Algo
open Verif.Convex

variable {D : TSort} {V : Nat → Prop} {R : Nat → Nat → Prop} {G : View} {a b : Nat}

theorem sum_filter_le {U : List Nat} {next : Nat → List Nat} {P : Nat → Bool} :
    (U.map fun n => ((next n).filter P).length).sum ≤ (U.map fun n => (next n).length).sum := by
  induction U with
  | nil => simp
  | cons x U ih =>
    simp only [List.map_cons, List.sum_cons]
    have := List.length_filter_le P (next x)
    omega

/-- A search along links with a filter. -/
theorem bfs_start (hG : G.WF) (P stop skip : Nat → Bool) (s : Nat) :
    ∃ r, TSort.bfs (fun n => (neighbours G n .outgoing).filter P) stop skip (TSort.fuel G) [s] [] = some r ∧
      (r = true ↔ ∃ x, Relation.ReflTransGen
        (Step (fun n => (neighbours G n .outgoing).filter P) stop skip) s x ∧ stop x = true) := by
  obtain ⟨r, h1, h2⟩ := bfs_ok (next := fun n => (neighbours G n .outgoing).filter P) (stop := stop) (skip := skip)
    (U := G.nodes) hG.nodes_nodup (by
      intro n hn
      have : neighbours G n .outgoing = [] := by
        rw [List.eq_nil_iff_forall_not_mem]
        intro x hx
        exact hn (varc_nodes hG ((mem_neighbours hG).1 hx)).1
      simp [this]) (f := TSort.fuel G) (queue := [s]) (vis := []) (by simp) (by
      have : rest (fun n => (neighbours G n .outgoing).filter P) G.nodes [] =
          (G.nodes.map fun n => ((neighbours G n .outgoing).filter P).length).sum := by
        unfold rest; simp
      rw [this]
      have := sum_filter_le (U := G.nodes) (next := fun n => neighbours G n .outgoing) (P := P)
      unfold TSort.fuel
      simp only [List.length_singleton]; omega)
  refine ⟨r, h1, h2.trans ?_⟩
  simp

theorem leMax_some {i j : Nat} : TSort.leMax (some i) (some j) = decide (i ≤ j) := rfl

theorem cycle_ok (h : Valid D V R) (hs : Shows G R a b) (ha : V a) :
    ∃ r, D.wouldCreateCycle G a b = some r ∧ (r = true ↔ Relation.ReflTransGen R b a) := by
  obtain ⟨pa, hpa⟩ := h.tracked.1 ha
  obtain ⟨r, h1, h2⟩ := bfs_start hs.wf (fun x => TSort.leMax (D.pos x) (D.pos a)) (fun n => n == a) (fun _ => false) b
  refine ⟨r, h1, h2.trans ?_⟩
  constructor
  · rintro ⟨x, hx, e⟩
    simp only [beq_iff_eq] at e
    subst e
    refine Relation.ReflTransGen.mono ?_ _ _ hx
    intro y z hyz
    obtain ⟨hz, hne, _⟩ := hyz
    simp only [beq_eq_false_iff_ne, ne_eq] at hne
    have := hs.new y z ((mem_neighbours hs.wf).1 (List.mem_filter.1 hz).1)
    rcases this with h | h
    · exact h
    · exact absurd h.1 hne
  · intro hba
    refine ⟨a, ?_, by simp⟩
    clear h1 h2
    have hs' : ∀ x y, R x y → VArc G .outgoing x y := hs.old
    have hwf := hs.wf
    clear hs
    induction hba using Relation.ReflTransGen.head_induction_on with
    | refl => exact .refl
    | @head y z hyz hza ih =>
      by_cases hya : y = a
      · subst hya; exact .refl
      · refine .head ⟨?_, by simpa using hya, rfl⟩ ih
        simp only
        rw [List.mem_filter]
        refine ⟨(mem_neighbours hwf).2 (hs' y z hyz), ?_⟩
        obtain ⟨pz, hpz⟩ := h.tracked.1 (h.live hyz).2
        have := h.le hza hpz hpa
        rw [hpz, hpa, leMax_some]; simpa using this

/-! ## Cones -/

/-- Within the bound. -/
def inb (D : TSort) (dir : Direction) (bound x : Nat) : Prop :=
  ∃ p, D.pos x = some p ∧ match dir with
    | .outgoing => p < bound
    | .incoming => bound < p

/-- Links within the bound. -/
def Inside (D : TSort) (G : View) (dir : Direction) (bound : Nat) (x y : Nat) : Prop :=
  y ∈ neighbours G x dir ∧ inb D dir bound y

theorem count_lt {order cone : List Nat} {n : Nat} (hn : n ∈ order) (hc : n ∉ cone) :
    (order.filter fun x => !(cone ++ [n]).contains x).length < (order.filter fun x => !cone.contains x).length := by
  have hsub : (order.filter fun x => !(cone ++ [n]).contains x) =
      (order.filter fun x => !cone.contains x).filter fun x => x != n := by
    rw [List.filter_filter]
    apply List.filter_congr
    intro x _
    by_cases hx : x = n <;> by_cases hxc : x ∈ cone <;> simp [hx, hxc]
  rw [hsub]
  have hmem : n ∈ order.filter fun x => !cone.contains x := by simp [hn, hc]
  rcases Nat.lt_or_ge ((order.filter fun x => !cone.contains x).filter fun x => x != n).length
    (order.filter fun x => !cone.contains x).length with h | h
  · exact h
  · have := List.filter_eq_self.1 ((List.filter_sublist).eq_of_length_le h) n hmem
    simp at this

theorem count_le {order cone cone' : List Nat} (h : ∀ x ∈ cone, x ∈ cone') :
    (order.filter fun x => !cone'.contains x).length ≤ (order.filter fun x => !cone.contains x).length := by
  refine List.Sublist.length_le ?_
  refine List.monotone_filter_right order ?_
  intro x hx
  simp only [Bool.not_eq_true', List.contains_eq_mem, decide_eq_false_iff_not] at hx ⊢
  exact fun hc => hx (h x hc)

/-- What a call of `dfs` does to the cone. -/
structure Grown (D : TSort) (G : View) (dir : Direction) (bound n : Nat) (cone cone' : List Nat) : Prop where
  pre : cone <+: cone'
  nodup : cone'.Nodup
  reach : ∀ x ∈ cone', x ∈ cone ∨ (inb D dir bound n ∧ inb D dir bound x ∧ Relation.ReflTransGen (Inside D G dir bound) n x)
  closed : ∀ x ∈ cone', x ∉ cone → ∀ y ∈ neighbours G x dir, inb D dir bound y → y ∈ cone'

theorem dfs_ok (h : Valid D V R) (dir : Direction) (bound : Nat) (hV : ∀ x, V x → ∀ y ∈ neighbours G x dir, V y) {f : Nat}
    {n : Nat} {cone : List Nat} (hn : V n) (hnd : cone.Nodup)
    (hf : (D.order.filter fun x => !cone.contains x).length < f) :
    ∃ cone', D.dfs G dir bound f n cone = some cone' ∧ Grown D G dir bound n cone cone' ∧
      (inb D dir bound n → n ∈ cone' ∧ (n ∉ cone → cone ++ [n] <+: cone')) := by
  induction f generalizing n cone with
  | zero => omega
  | succ f ih =>
    obtain ⟨p, hp⟩ := h.tracked.1 hn
    simp only [TSort.dfs, hp]
    generalize hout : (match dir with
      | .outgoing => decide (bound ≤ p)
      | .incoming => decide (p ≤ bound)) = out
    have hinb : inb D dir bound n ↔ out = false := by
      subst hout
      unfold inb
      rw [hp]
      cases dir <;> simp
    by_cases hc : (cone.contains n || out) = true
    · refine ⟨cone, ?_, ⟨List.prefix_rfl, hnd, fun x hx => .inl hx, fun x hx hx' => absurd hx hx'⟩, ?_⟩
      · subst hout
        exact if_pos hc
      · intro hi
        rw [hinb.1 hi] at hc
        have : n ∈ cone := by simpa using hc
        exact ⟨this, fun hc => absurd this hc⟩
    · have hnc : n ∉ cone := by
        intro h'; apply hc; simp [h']
      have hno : out = false := by
        cases out with
        | false => rfl
        | true => simp at hc
      have hni := hinb.2 hno
      -- the loop over the neighbours
      have loop : ∀ (ys : List Nat), (∀ y ∈ ys, y ∈ neighbours G n dir) → ∀ (c : List Nat), cone ++ [n] <+: c → c.Nodup →
          (∀ x ∈ c, x ∈ cone ∨ (inb D dir bound x ∧ Relation.ReflTransGen (Inside D G dir bound) n x)) →
          (∀ x ∈ c, x ∉ cone ++ [n] → ∀ y ∈ neighbours G x dir, inb D dir bound y → y ∈ c) →
          ∃ c', ys.foldlM (fun cone m => D.dfs G dir bound f m cone) c = some c' ∧ c <+: c' ∧ c'.Nodup ∧
            (∀ x ∈ c', x ∈ cone ∨ (inb D dir bound x ∧ Relation.ReflTransGen (Inside D G dir bound) n x)) ∧
            (∀ x ∈ c', x ∉ cone ++ [n] → ∀ y ∈ neighbours G x dir, inb D dir bound y → y ∈ c') ∧
            ∀ y ∈ ys, inb D dir bound y → y ∈ c' := by
        intro ys
        induction ys with
        | nil =>
          intro _ c h1 h2 h3 h4
          exact ⟨c, rfl, List.prefix_rfl, h2, h3, h4, by simp⟩
        | cons y ys ihy =>
          intro hys c h1 h2 h3 h4
          have hyn := hys y (by simp)
          have hlt : (D.order.filter fun x => !c.contains x).length < f := by
            have e1 := count_lt ((h.mem n).2 hn) hnc
            have e2 := count_le (order := D.order) (cone := cone ++ [n]) (cone' := c) (fun x hx => h1.subset hx)
            omega
          obtain ⟨c1, g1, g2, g3⟩ := ih (n := y) (cone := c) (hV n hn y hyn) h2 hlt
          obtain ⟨c2, k1, k2, k3, k4, k5, k6⟩ := ihy (fun z hz => hys z (by simp [hz])) c1 (h1.trans g2.pre) g2.nodup (by
            intro x hx
            rcases g2.reach x hx with hx | ⟨hx1, hx2, hx3⟩
            · exact h3 x hx
            · exact .inr ⟨hx2, .head ⟨hyn, hx1⟩ hx3⟩) (by
            intro x hx hxn z hz hzi
            by_cases hxc : x ∈ c
            · exact g2.pre.subset (h4 x hxc hxn z hz hzi)
            · exact g2.closed x hx hxc z hz hzi)
          refine ⟨c2, ?_, g2.pre.trans k2, k3, k4, k5, ?_⟩
          · rw [List.foldlM_cons, g1]; exact k1
          · intro z hz hzi
            rcases List.mem_cons.1 hz with rfl | hz
            · exact k2.subset (g3 hzi).1
            · exact k6 z hz hzi
      obtain ⟨c', e1, e2, e3, e4, e5, e6⟩ := loop _ (fun _ hy => hy) (cone ++ [n]) List.prefix_rfl (by
        rw [List.nodup_append]
        exact ⟨hnd, by simp, by
          intro x hx y hy e
          simp at hy; subst hy; exact hnc (e ▸ hx)⟩) (by
        intro x hx
        rcases List.mem_append.1 hx with hx | hx
        · exact .inl hx
        · simp at hx; subst hx; exact .inr ⟨hni, .refl⟩) (by
        intro x hx hx'
        exact absurd hx hx')
      have hpre : cone ++ [n] <+: c' := e2
      refine ⟨c', ?_, ⟨(List.prefix_append _ _).trans hpre, e3,
        fun x hx => (e4 x hx).imp_right fun h => ⟨hni, h⟩, ?_⟩, ?_⟩
      · subst hout
        exact (if_neg hc).trans e1
      · intro x hx hxc y hy hyi
        by_cases hxn : x = n
        · subst hxn; exact e6 y hy hyi
        · exact e5 x hx (by simp [hxc, hxn]) y hy hyi
      · intro _
        exact ⟨hpre.subset (by simp), fun _ => hpre⟩

end Verif.Dyn
