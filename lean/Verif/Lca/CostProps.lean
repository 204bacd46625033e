import Verif.Lca.Cost
import Verif.Lca.Props

/-!
# The cost of lowest common ancestor queries (C78)

The fuel of a loop of the model is the number of its rounds (tests of the loop condition), so that
an answer with fuel `k` is an answer after at most `k` rounds. Depths are measured with `level` of
`Verif/Hierarchy`: `a` is fewer than `2^k` levels below any node if `a ∈ level K r d` only for
`d < 2^k`.
-/

namespace Verif.Lca

open Verif.Hier

/-- `a` is fewer than `D` levels below every node above it. -/
def Shallow (h : Hierarchy) (D a : Nat) : Prop := ∀ r d, a ∈ level h.kids r d → d < D

theorem level_of_up {h : Hierarchy} (hr : Reach h) : ∀ k x y, up h.parent k x = some y → x ∈ level h.kids y k := by
  intro k
  induction k with
  | zero => intro x y h; simp [up] at h; simp [level, h]
  | succ k ih =>
    intro x y hu
    simp only [up] at hu
    cases hp : h.parent x with
    | none => rw [hp] at hu; cases hu
    | some p =>
      rw [hp] at hu
      exact List.mem_flatMap.2 ⟨p, ih p y hu, hr.inv.1.repr.parent_iff.1 hp⟩

theorem Shallow.up {h : Hierarchy} (hr : Reach h) {D a : Nat} (ha : Shallow h D a) : up h.parent D a = none := by
  cases hu : Lca.up h.parent D a with
  | none => rfl
  | some y => exact absurd (ha y D (level_of_up hr _ _ _ hu)) (Nat.lt_irrefl _)

/-- No node is deeper than the vector of the hierarchy is long. -/
theorem shallow_of_fuel {h : Hierarchy} (hr : Reach h) {D : Nat} (hD : h.fuel ≤ D) (x : Nat) : Shallow h D x := by
  have T := tree_of_reach hr
  intro r d hd
  have : up h.parent d x = some r := by
    induction d generalizing x with
    | zero => simp [level] at hd; simp [up, hd]
    | succ d ihd =>
      obtain ⟨p, hp, hm⟩ := List.mem_flatMap.1 hd
      simp [up, (T.par_iff _ _).2 hm, ihd p hp]
  have := T.up_lt this
  omega

/-- **C78** `LCA::new` pushes at most `k` entries to the table of every node if all nodes are fewer
than `2^k` levels deep, and takes at most two rounds per node: with these limits it computes the
same tables. -/
theorem C78_new {h : Hierarchy} (hr : Reach h) {nodes : List Nat} (hnd : nodes.Nodup) {k N : Nat}
    (hk : ∀ x, Shallow h (2 ^ k) x)
    (hN : ∀ r (L : List Nat), L.Nodup → (∀ x ∈ L, Anc h.kids r x) → L.length ≤ N) :
    ∃ t, roots h.kids h.isRoot k (2 * N + 1) nodes ⟨fun _ => 0, fun _ => 0, fun _ => []⟩ 0 =
      (new nodes h).map fun s => (s, t) := by
  have T := tree_of_reach hr
  have T' : Tree h.kids h.parent (2 ^ k) := ⟨T.forest, T.par_iff, fun x => (hk x).up hr, Nat.two_pow_pos _⟩
  have hroot : ∀ n, h.isRoot n = true ↔ h.parent n = none := by
    intro n; simp [Hierarchy.isRoot, Hierarchy.parent, Option.isNone_iff_eq_none]
  obtain ⟨L, s, t, h1, -, -⟩ := roots_ok T' (Nat.le_refl _) hN hroot ⟨fun _ => 0, fun _ => 0, fun _ => []⟩ (fun _ => rfl)
    nodes [] (by simpa using hnd) [] _ 0 (Done.nil _ _ _ _) (by simp)
  obtain ⟨L', s', t', h1', -, -⟩ := roots_ok T (Nat.le_of_lt (lt_two_pow _)) (tree_size hr) hroot
    ⟨fun _ => 0, fun _ => 0, fun _ => []⟩ (fun _ => rfl) nodes [] (by simpa using hnd) [] _ 0 (Done.nil _ _ _ _) (by simp)
  have e1 := roots_mono (Nat.le_max_left k h.fuel) (Nat.le_max_left (2 * N + 1) (2 * h.fuel + 1)) h1
  have e2 := roots_mono (Nat.le_max_right k h.fuel) (Nat.le_max_right (2 * N + 1) (2 * h.fuel + 1)) h1'
  rw [e1] at e2
  cases e2
  exact ⟨t, by rw [h1, new, h1']; rfl⟩

/-- **C78** `root` takes at most `k + 1` rounds if the node is fewer than `2^k` levels deep. -/
theorem C78_root {h : Hierarchy} (hr : Reach h) {nodes : List Nat} (hnd : nodes.Nodup) {s : LCA}
    (hs : new nodes h = some s) {a k : Nat} (ha : Covered nodes h a) (hk : Shallow h (2 ^ k) a) :
    ∃ r, s.root (k + 1) a = some r ∧ h.isRoot r = true ∧ Anc h.kids r a := by
  obtain ⟨s', h1, G⟩ := new_ok hr hnd
  rw [hs] at h1; cases h1
  obtain ⟨r, a1, a2, a3⟩ := root_fast (tree_of_reach hr) G k a ha (hk.up hr)
  exact ⟨r, a1, by simpa [Hierarchy.isRoot, Option.isNone_iff_eq_none] using a2, a3⟩

/-- **C78** `lca` of two nodes fewer than `2^k` levels deep takes at most `k + 1` rounds in `root` and
in the loop of lines 144–148, and at most `k (k + 1) / 2` rounds in the loop of lines 155–167.
Missing: this is not logarithmic, but the square of a logarithm. -/
theorem C78_lca_partial {h : Hierarchy} (hr : Reach h) {nodes : List Nat} (hnd : nodes.Nodup) {s : LCA}
    (hs : new nodes h = some s) {a b k : Nat} (ha : Covered nodes h a) (hb : Covered nodes h b)
    (hka : Shallow h (2 ^ k) a) (hkb : Shallow h (2 ^ k) b) :
    s.lcaWith (k + 1) (k + 1) (k * (k + 1) / 2) a b = s.lca h.fuel a b ∧ s.lca h.fuel a b ≠ none := by
  obtain ⟨s', h1, G⟩ := new_ok hr hnd
  rw [hs] at h1; cases h1
  have T := tree_of_reach hr
  obtain ⟨o, ho, -⟩ := lca_ok T G ha hb
  exact ⟨lca_fast T G ha hb (hka.up hr) (hkb.up hr), by rw [ho]; simp⟩

example : ∃ t, roots lcaH.kids lcaH.isRoot 4 (2 * lcaH.fuel + 1) (List.range 10) ⟨fun _ => 0, fun _ => 0, fun _ => []⟩ 0 =
    (new (List.range 10) lcaH).map fun s => (s, t) :=
  C78_new lcaH_reach (by decide) (shallow_of_fuel lcaH_reach (by decide)) (tree_size lcaH_reach)

/-- Node 5 is 5 levels deep: 4 rounds, here 3 (steps 4 and 1, and the test that fails) are enough. -/
example : lcaS.root 3 5 = some 0 ∧ lcaS.root 2 5 = none ∧ Shallow lcaH (2 ^ 4) 5 ∧
    lcaS.lcaWith 3 1 3 5 6 = some (some 2) ∧ lcaS.lcaWith 3 1 2 5 6 = none :=
  ⟨by decide +kernel, by decide +kernel, shallow_of_fuel lcaH_reach (by decide) 5, by decide +kernel, by decide +kernel⟩

/-! ## The bound is reached -/

/-- The chain of the nodes `0, …, n`. -/
def chainK (n : Nat) : Kids := fun p => if p < n then [p + 1] else []

theorem chainK_anc {n x y : Nat} (h : Anc (chainK n) x y) : x = y ∨ (x < y ∧ y ≤ n) := by
  induction h with
  | refl => exact .inl rfl
  | step _ hm ih =>
    simp only [chainK] at hm
    split at hm
    · simp only [List.mem_singleton] at hm; omega
    · simp at hm

theorem chain_reach (n : Nat) (hn : n < 2 ^ 31) : ∃ h, Reach h ∧ h.kids = chainK n := by
  induction n with
  | zero =>
    refine ⟨.new, .new, ?_⟩
    rw [kids_eq inv_new.repr]
    funext p; simp [chainK]
  | succ n ih =>
    obtain ⟨h, hr, hk⟩ := ih (by omega)
    have hop : (Op.pushChild (n + 1) n).ok := ⟨hn, by omega, by omega⟩
    have h1 : ¬ Anc h.kids (n + 1) n := by
      rw [hk]; intro hc; have := chainK_anc hc; omega
    have h2 : ¬ Attached h.kids (n + 1) := by
      rw [hk]
      rintro ⟨p, hp⟩
      simp only [chainK] at hp
      split at hp
      · simp only [List.mem_singleton] at hp; omega
      · simp at hp
    obtain ⟨h', e1, e2⟩ := (C24_calls_partial hr hop).2 (.ok none) (h.kids.set n (h.kids n ++ [n + 1])) (by
      simp only [spec, if_neg h1, if_neg h2])
    refine ⟨h', .step hr hop e1, ?_⟩
    rw [e2, hk]
    funext p
    simp only [Kids.set, chainK]
    by_cases hp : p = n
    · subst hp; simp
    · rw [if_neg hp]
      by_cases hpn : p < n
      · rw [if_pos hpn, if_pos (by omega)]
      · rw [if_neg hpn, if_neg (by omega)]

/-- The chain of the nodes `0, …, n` with `n + 1` as second child of `c`. -/
def forkK (n c : Nat) : Kids := fun p => chainK n p ++ if p = c then [n + 1] else []

theorem fork_reach (n c : Nat) (hn : n + 1 < 2 ^ 31) (hc : c ≤ n) : ∃ h, Reach h ∧ h.kids = forkK n c := by
  obtain ⟨h, hr, hk⟩ := chain_reach n (by omega)
  have hop : (Op.pushChild (n + 1) c).ok := ⟨hn, by omega, by omega⟩
  have h1 : ¬ Anc h.kids (n + 1) c := by
    rw [hk]; intro hc; have := chainK_anc hc; omega
  have h2 : ¬ Attached h.kids (n + 1) := by
    rw [hk]
    rintro ⟨p, hp⟩
    simp only [chainK] at hp
    split at hp
    · simp only [List.mem_singleton] at hp; omega
    · simp at hp
  obtain ⟨h', e1, e2⟩ := (C24_calls_partial hr hop).2 (.ok none) (h.kids.set c (h.kids c ++ [n + 1])) (by
    simp only [spec, if_neg h1, if_neg h2])
  refine ⟨h', .step hr hop e1, ?_⟩
  rw [e2, hk]
  funext p
  simp only [Kids.set, forkK]
  split
  · next e => rw [e]
  · simp

/-- **C78** The bound is reached: for every `k` up to 29 there are a hierarchy of `2^(k+1) + 1` nodes
and two of its nodes for which the loop of lines 155–167 takes more rounds than the
`(k + 1) (k + 2) / 2 - 1` allowed here, whatever the limits of the other loops; the documented
`O(log n)` would be a multiple of `k`. -/
theorem C78_witness_square (k : Nat) (hk : k ≤ 29) : ∃ h s a b, Reach h ∧ new (List.range (2 ^ (k + 1) + 1)) h = some s ∧
    (∀ x ≥ 2 ^ (k + 1) + 1, h.isRoot x = true ∧ h.kids x = []) ∧
    (∀ x, Shallow h (2 ^ (k + 1)) x) ∧
    Covered (List.range (2 ^ (k + 1) + 1)) h a ∧ Covered (List.range (2 ^ (k + 1) + 1)) h b ∧
    s.lca h.fuel a b = some (some (2 ^ k - 1)) ∧
    ∀ R A, s.lcaWith R A ((k + 1) * (k + 2) / 2 - 1) a b = none := by
  have hpos := Nat.two_pow_pos k
  have hdbl : 2 ^ (k + 1) = 2 ^ k + 2 ^ k := by rw [Nat.pow_succ, Nat.mul_two]
  have hk31 : 2 ^ k ≤ 2 ^ 29 := Nat.pow_le_pow_right (by omega) hk
  obtain ⟨h, hr, hK⟩ := fork_reach (2 ^ (k + 1) - 1) (2 ^ k - 1) (by omega) (by omega)
  have T := tree_of_reach hr
  have hpar : ∀ n p, h.parent n = some p ↔ n ∈ h.kids p := fun n p => hr.inv.1.repr.parent_iff
  have hmem : ∀ n p, n ∈ h.kids p ↔ (n = p + 1 ∧ n < 2 ^ (k + 1)) ∨ (n = 2 ^ (k + 1) ∧ p = 2 ^ k - 1) := by
    intro n p
    rw [hK]
    simp only [forkK, chainK, List.mem_append]
    constructor
    · rintro (h | h)
      · split at h
        · simp only [List.mem_singleton] at h; left; omega
        · simp at h
      · split at h
        · simp only [List.mem_singleton] at h; right; omega
        · simp at h
    · rintro (⟨h1, h2⟩ | ⟨h1, h2⟩)
      · left; rw [if_pos (by omega)]; simp [h1]
      · right; rw [if_pos h2]; simp only [List.mem_singleton]; omega
  have hpar0 : ∀ n, 2 ^ (k + 1) < n ∨ n = 0 → h.parent n = none := by
    intro n hn
    cases hp : h.parent n with
    | none => rfl
    | some p => have := (hmem n p).1 ((hpar n p).1 hp); omega
  have hup : ∀ x j, x < 2 ^ (k + 1) → up h.parent j x = if j ≤ x then some (x - j) else none := by
    intro x j
    induction j generalizing x with
    | zero => intro _; simp [up]
    | succ j ih =>
      intro hx
      simp only [up]
      cases x with
      | zero => rw [hpar0 0 (.inr rfl)]; simp
      | succ x =>
        rw [(hpar (x + 1) x).2 ((hmem _ _).2 (.inl ⟨rfl, hx⟩)), Option.bind_some, ih x (by omega)]
        by_cases hj : j ≤ x
        · rw [if_pos hj, if_pos (by omega)]; congr 1; omega
        · rw [if_neg hj, if_neg (by omega)]
  have hpb : h.parent (2 ^ (k + 1)) = some (2 ^ k - 1) := (hpar _ _).2 ((hmem _ _).2 (.inr ⟨rfl, rfl⟩))
  have hupb : ∀ j, up h.parent (j + 1) (2 ^ (k + 1)) = if j ≤ 2 ^ k - 1 then some (2 ^ k - 1 - j) else none := by
    intro j
    simp only [up, hpb, Option.bind_some]
    exact hup _ _ (by omega)
  have hanc : ∀ y, y < 2 ^ (k + 1) → (Anc h.kids y (2 ^ (k + 1)) ↔ y < 2 ^ k) := by
    intro y hy
    rw [T.anc_iff]
    constructor
    · rintro ⟨j, hj⟩
      cases j with
      | zero => simp [up] at hj; omega
      | succ j =>
        rw [hupb] at hj
        split at hj
        · cases hj; omega
        · cases hj
    · intro hy'
      refine ⟨(2 ^ k - 1 - y) + 1, ?_⟩
      rw [hupb, if_pos (by omega)]
      congr 1; omega
  have hroot0 : h.isRoot 0 = true := by
    have := hpar0 0 (.inr rfl)
    simpa [Hierarchy.isRoot, Hierarchy.parent, Option.isNone_iff_eq_none] using this
  have hcov : ∀ x, x ≤ 2 ^ (k + 1) → Covered (List.range (2 ^ (k + 1) + 1)) h x := by
    intro x hx
    refine ⟨0, by simp, hroot0, ?_⟩
    rcases Nat.lt_or_ge x (2 ^ (k + 1)) with hlt | hge
    · exact T.anc_iff.2 ⟨x, by rw [hup x x hlt]; simp⟩
    · obtain rfl : x = 2 ^ (k + 1) := by omega
      exact (hanc 0 (by omega)).2 hpos
  obtain ⟨s, hs, G⟩ := new_ok hr (nodes := List.range (2 ^ (k + 1) + 1)) List.nodup_range
  have hca := hcov (2 ^ (k + 1) - 1) (by omega)
  have hcb := hcov (2 ^ (k + 1)) (by omega)
  refine ⟨h, s, 2 ^ (k + 1) - 1, 2 ^ (k + 1), hr, hs, ?_, ?_, hca, hcb, ?_, ?_⟩
  · intro x hx
    constructor
    · have := hpar0 x (.inl (by omega))
      simpa [Hierarchy.isRoot, Hierarchy.parent, Option.isNone_iff_eq_none] using this
    · rw [List.eq_nil_iff_forall_not_mem]
      intro n hn
      have := (hmem n x).1 hn
      omega
  · intro x r d hd
    have : up h.parent d x = some r := by
      clear hup hupb hanc hcov hca hcb
      induction d generalizing x with
      | zero => simp [level] at hd; simp [up, hd]
      | succ d ihd =>
        obtain ⟨p, hp, hm⟩ := List.mem_flatMap.1 hd
        simp [up, (hpar _ _).2 hm, ihd p hp]
    rcases Nat.lt_trichotomy x (2 ^ (k + 1)) with hlt | heq | hgt
    · rw [hup x d hlt] at this
      split at this
      · omega
      · cases this
    · subst heq
      cases d with
      | zero => omega
      | succ d =>
        rw [hupb] at this
        split at this
        · omega
        · cases this
    · cases d with
      | zero => omega
      | succ d =>
        simp only [up, hpar0 x (.inl hgt)] at this
        cases this
  · obtain ⟨o, ho, h1, h2⟩ := lca_ok T G hca hcb
    have hc : Anc h.kids (2 ^ k - 1) (2 ^ (k + 1) - 1) :=
      T.anc_iff.2 ⟨2 ^ k, by rw [hup _ _ (by omega), if_pos (by omega)]; congr 1; omega⟩
    have hc' : Anc h.kids (2 ^ k - 1) (2 ^ (k + 1)) := (hanc _ (by omega)).2 (by omega)
    cases o with
    | none => exact absurd ⟨hc, hc'⟩ (h2 rfl _)
    | some c =>
      obtain ⟨h3, h4, h5⟩ := h1 c rfl
      have h6 := h5 _ hc hc'
      rw [ho]
      obtain ⟨i, hi⟩ := T.anc_iff.1 h3
      rw [hup _ _ (by omega)] at hi
      split at hi
      · have hci : c < 2 ^ (k + 1) := by cases hi; omega
        have h7 := (hanc c hci).1 h4
        obtain ⟨i, hi⟩ := T.anc_iff.1 h6
        rw [hup _ _ (by omega)] at hi
        split at hi
        · have hi := Option.some.inj hi
          congr 2; omega
        · cases hi
      · cases hi
  · intro R A
    have hnab : ¬ s.isAncestor (2 ^ (k + 1) - 1) (2 ^ (k + 1)) = true := by
      rw [G.anc _ _ hca hcb, hanc _ (by omega)]; omega
    have hnba : ¬ s.isAncestor (2 ^ (k + 1)) (2 ^ (k + 1) - 1) = true := by
      rw [G.anc _ _ hcb hca]
      intro hc
      obtain ⟨i, hi⟩ := T.anc_iff.1 hc
      rw [hup _ _ (by omega)] at hi
      split at hi
      · have hi := Option.some.inj hi
        omega
      · cases hi
    have hlen : (s.climb (2 ^ (k + 1) - 1)).length = k + 1 := by
      have a1 := G.climb _ hca k
      have a2 := G.climb _ hca (k + 1)
      rw [hup _ _ (by omega), if_pos (by omega)] at a1
      rw [hup _ _ (by omega), if_neg (by omega), List.getElem?_eq_none_iff] at a2
      obtain ⟨a3, _⟩ := List.getElem?_eq_some_iff.1 a1
      omega
    have hlast : (s.climb (2 ^ (k + 1) - 1)).getLast? = some (2 ^ k - 1) := by
      rw [List.getLast?_eq_getElem?, hlen, Nat.add_sub_cancel, G.climb _ hca, hup _ _ (by omega), if_pos (by omega)]
      congr 1; omega
    have hslow := search_slow T G (b := 2 ^ (k + 1)) (fun x hx => hcov x (by omega)) hcb hup hanc
      ((k + 1) * (k + 2) / 2 - 1) k k (Nat.le_refl _) (Nat.le_refl _) (by
        rw [Nat.sub_self, Nat.zero_add, sweeps_all]
        have : 0 < (k + 1) * (k + 2) / 2 := by rw [← sweeps_all]; omega
        omega)
    rw [show 2 ^ k - 1 + 2 ^ k = 2 ^ (k + 1) - 1 by omega] at hslow
    simp only [LCA.lcaWith, if_neg hnab, if_neg hnba]
    cases hra : s.root R (2 ^ (k + 1) - 1) with
    | none => rfl
    | some ra =>
      cases hrb : s.root R (2 ^ (k + 1)) with
      | none => rfl
      | some rb =>
        have e : ra = rb := by
          obtain ⟨r1, a1, a2, a3⟩ := root_ok T G h.fuel _ hca (T.depth _)
          obtain ⟨r2, b1, b2, b3⟩ := root_ok T G h.fuel _ hcb (T.depth _)
          have e1 := root_mono (Nat.le_max_left R h.fuel) hra
          rw [root_mono (Nat.le_max_right R h.fuel) a1] at e1
          have e2 := root_mono (Nat.le_max_left R h.fuel) hrb
          rw [root_mono (Nat.le_max_right R h.fuel) b1] at e2
          cases e1; cases e2
          have h0 := hpar0 0 (.inr rfl)
          have c1 : Anc h.kids 0 (2 ^ (k + 1) - 1) := T.anc_iff.2 ⟨_, by rw [hup _ (2 ^ (k + 1) - 1) (by omega)]; simp⟩
          have c2 : Anc h.kids 0 (2 ^ (k + 1)) := (hanc 0 (by omega)).2 hpos
          exact (T.root_unique a2 h0 a3 c1).trans (T.root_unique h0 b2 c2 b3)
        simp only [e, ne_eq, not_true_eq_false, if_false]
        cases A with
        | zero => rfl
        | succ A =>
          have : s.ascend (2 ^ (k + 1)) (A + 1) (2 ^ (k + 1) - 1) = some (2 ^ (k + 1) - 1) := by
            simp only [LCA.ascend, hlast]
            rw [if_pos ((G.anc _ _ (hcov _ (by omega)) hcb).2 ((hanc _ (by omega)).2 (by omega)))]
          rw [this]
          simp only [hlen, Nat.add_sub_cancel]
          rw [if_neg (by omega), hslow]

/-- The limits 21 (from above) and 20 (from below) for the nodes 63 and 64 of a chain of 64 nodes with
one node beside it, that is for `k = 5`. -/
example : (5 + 1) * (5 + 2) / 2 = 21 ∧ ∃ h s a b, Reach h ∧ new (List.range 65) h = some s ∧
    s.lca h.fuel a b = some (some 31) ∧ s.lcaWith 7 7 21 a b = some (some 31) ∧ s.lcaWith 7 7 20 a b = none := by
  obtain ⟨h, s, a, b, h1, h2, -, h3, h4, h5, h6, h7⟩ := C78_witness_square 5 (by omega)
  refine ⟨rfl, h, s, a, b, h1, h2, h6, ?_, h7 7 7⟩
  rw [(C78_lca_partial h1 List.nodup_range h2 h4 h5 (h3 a) (h3 b)).1]
  exact h6

example := C78_root (s := lcaS) lcaH_reach (nodes := List.range 10) List.nodup_range
  (by
    have h : (new (List.range 10) lcaH).isSome = true := by decide +kernel
    obtain ⟨x, hx⟩ := Option.isSome_iff_exists.1 h
    simp only [lcaS, hx, Option.getD_some]) (a := 6) (k := 4)
  ⟨0, by decide, by decide +kernel, .step (p := 2) (.step (p := 1) (.step (p := 0) (.refl _) (by decide +kernel)) (by decide +kernel)) (by decide +kernel)⟩
  (shallow_of_fuel lcaH_reach (by decide) 6)

end Verif.Lca

#print axioms Verif.Lca.C78_new
#print axioms Verif.Lca.C78_root
#print axioms Verif.Lca.C78_lca_partial
#print axioms Verif.Lca.C78_witness_square
