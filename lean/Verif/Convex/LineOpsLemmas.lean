import Verif.Convex.LineOps
import Verif.Convex.LineBuild

/-!
# Operations on line intervals
-/

namespace Verif.Convex

open Verif (Direction)
open Verif.Algo

namespace Line

variable {c : Line} {R : Nat → Nat → Prop} {V : Nat → Prop}

theorem nodesFrom_ok (h : Part c R V) {guess : Guess} (hg : guess.OK) {l : Nat} {line : List Nat} (hl : c.lines[l]? = some line)
    {i n : Nat} (hi : line[i]? = some n) : c.nodesFrom guess (c.getPos n) l = some (line.drop i) := by
  unfold nodesFrom
  rw [findIndex_ok hg hl (h.inc hl) hi, hl]
  rfl

/-- The next position on a line is that of a given node when there is no node in between. -/
theorem next_iff (h : Part c R V) {l : Nat} {line : List Nat} (hl : c.lines[l]? = some line) {i a b : Nat}
    (hi : line[i]? = some a) (hb : b ∈ line) (hab : c.getPos a < c.getPos b) :
    ((line.drop i).map c.getPos)[1]? = some (c.getPos b) ↔
      ∀ x ∈ line, ¬ (c.getPos a < c.getPos x ∧ c.getPos x < c.getPos b) := by
  have hinc := h.inc hl
  obtain ⟨j, hj⟩ := List.mem_iff_getElem?.1 hb
  have hij := (inc_lt hinc hi hj).1.1 hab
  have hjl : j < line.length := (List.getElem?_eq_some_iff.1 hj).1
  have hn : line[i + 1]? = some line[i + 1] := List.getElem?_eq_getElem (by omega)
  rw [List.getElem?_map, List.getElem?_drop, hn]
  simp only [Option.map_some, Option.some.injEq]
  constructor
  · intro he x hx ⟨h1, h2⟩
    obtain ⟨k, hk⟩ := List.mem_iff_getElem?.1 hx
    have := (inc_lt hinc hi hk).1.1 h1
    have := (inc_lt hinc hk hn).1.1 (by omega)
    omega
  · intro hc
    have h1 := (inc_lt hinc hi hn).1.2 (by omega)
    have h2 := hc _ (List.getElem_mem (by omega : i + 1 < line.length))
    have h3 : ¬ c.getPos b < c.getPos line[i + 1] := by
      intro hlt
      have := (inc_lt hinc hj hn).1.1 hlt
      omega
    omega

theorem modify_keys {f : Interval → Interval} (hf : ∀ x, (f x).line = x.line) (l : Nat) (I : List Interval) :
    (modify f l I).map (·.line) = I.map (·.line) := by
  induction I with
  | nil => rfl
  | cons x I ih =>
    unfold modify
    split
    · simp [hf]
    · simp [ih]

theorem mem_modify {f : Interval → Interval} {l : Nat} {I : List Interval} (hk : (I.map (·.line)).Nodup)
    {y : Interval} (hy : y ∈ modify f l I) : (y ∈ I ∧ y.line ≠ l) ∨ ∃ x ∈ I, x.line = l ∧ y = f x := by
  induction I with
  | nil => simp [modify] at hy
  | cons x I ih =>
    rw [List.map_cons, List.nodup_cons] at hk
    unfold modify at hy
    split at hy
    · rename_i hx
      rcases List.mem_cons.1 hy with hy | hy
      · exact .inr ⟨x, by simp, hx, hy⟩
      · refine .inl ⟨by simp [hy], fun e => hk.1 ?_⟩
        rw [hx, ← e]; exact List.mem_map.2 ⟨y, hy, rfl⟩
    · rename_i hx
      rcases List.mem_cons.1 hy with hy | hy
      · subst hy; exact .inl ⟨by simp, hx⟩
      · rcases ih hk.2 hy with ⟨h1, h2⟩ | ⟨z, h1, h2⟩
        · exact .inl ⟨by simp [h1], h2⟩
        · exact .inr ⟨z, by simp [h1], h2⟩

/-- The set on a line when the lines of `done` were extended by the node. -/
def part (S : List Nat) (n : Nat) (done : List Nat) (l : Nat) : List Nat := if l ∈ done then n :: S else S

/-- The state of the loop after the lines of `done`. -/
structure XInv (c : Line) (S : List Nat) (n : Nat) (done : List Nat) (I : List Interval) : Prop where
  keys : (I.map (·.line)).Nodup
  min_mem : ∀ x ∈ I, ∃ m ∈ part S n done x.line, x.line ∈ c.getLines m ∧ c.getPos m = x.min
  max_mem : ∀ x ∈ I, ∃ m ∈ part S n done x.line, x.line ∈ c.getLines m ∧ c.getPos m = x.max
  mem : ∀ x ∈ I, ∀ m, x.line ∈ c.getLines m → (m ∈ part S n done x.line ↔ x.min ≤ c.getPos m ∧ c.getPos m ≤ x.max)
  all : ∀ m ∈ S, ∀ l ∈ c.getLines m, ∃ x ∈ I, x.line = l
  all' : ∀ l ∈ done, ∃ x ∈ I, x.line = l

theorem part_other {S : List Nat} {n : Nat} {done : List Nat} {l l' : Nat} (h : l' ≠ l) :
    part S n (l :: done) l' = part S n done l' := by
  simp [part, h]

theorem part_self {S : List Nat} {n : Nat} {done : List Nat} {l : Nat} : part S n (l :: done) l = n :: S := by
  simp [part]

theorem same_pos (h : Part c R V) {l a b : Nat} (ha : l ∈ c.getLines a) (hb : l ∈ c.getLines b)
    (he : c.getPos a = c.getPos b) : a = b := by
  obtain ⟨line, i, hl, hi⟩ := h.line ha
  obtain ⟨j, hj⟩ := List.mem_iff_getElem?.1 ((h.mem l line b hl).2 hb)
  have := (inc_lt (h.inc hl) hi hj).2.1 he
  subst this
  rw [hi] at hj; simpa using hj

/-- Replace the interval of a line. -/
theorem XInv.modify (hX : XInv c S n done I) {l : Nat} {x : Interval} (hx : x ∈ I) (hxl : x.line = l)
    {f : Interval → Interval} (hf : ∀ y, (f y).line = y.line)
    (h1 : ∃ m ∈ n :: S, l ∈ c.getLines m ∧ c.getPos m = (f x).min) (h2 : ∃ m ∈ n :: S, l ∈ c.getLines m ∧ c.getPos m = (f x).max)
    (h3 : ∀ m, l ∈ c.getLines m → (m ∈ n :: S ↔ (f x).min ≤ c.getPos m ∧ c.getPos m ≤ (f x).max)) :
    XInv c S n (l :: done) (Line.modify f l I) := by
  have key : ∀ y ∈ Line.modify f l I, (y ∈ I ∧ y.line ≠ l) ∨ (y = f x ∧ y.line = l) := by
    intro y hy
    rcases mem_modify hX.keys hy with h | ⟨z, hz, hzl, e⟩
    · exact .inl h
    · have : z = x := by
        have := List.inj_on_of_nodup_map hX.keys hz hx (by rw [hzl, hxl])
        exact this
      subst this
      exact .inr ⟨e, by rw [e, hf, hzl]⟩
  have hall : ∀ y ∈ I, ∃ z ∈ Line.modify f l I, z.line = y.line := by
    intro y hy
    have : y.line ∈ (Line.modify f l I).map (·.line) := by
      rw [modify_keys hf]; exact List.mem_map.2 ⟨y, hy, rfl⟩
    obtain ⟨z, hz, e⟩ := List.mem_map.1 this
    exact ⟨z, hz, e⟩
  refine ⟨by rw [modify_keys hf]; exact hX.keys, ?_, ?_, ?_, ?_, ?_⟩
  · intro y hy
    rcases key y hy with ⟨h, hne⟩ | ⟨e, hyl⟩
    · rw [part_other hne]; exact hX.min_mem y h
    · rw [hyl, part_self, e]; exact h1
  · intro y hy
    rcases key y hy with ⟨h, hne⟩ | ⟨e, hyl⟩
    · rw [part_other hne]; exact hX.max_mem y h
    · rw [hyl, part_self, e]; exact h2
  · intro y hy m hm
    rcases key y hy with ⟨h, hne⟩ | ⟨e, hyl⟩
    · rw [part_other hne]; exact hX.mem y h m hm
    · rw [hyl] at hm; rw [hyl, part_self, e]; exact h3 m hm
  · intro m hm l' hl'
    obtain ⟨y, hy, rfl⟩ := hX.all m hm l' hl'
    exact hall y hy
  · intro l' hl'
    rcases List.mem_cons.1 hl' with rfl | hl'
    · obtain ⟨z, hz, e⟩ := hall x hx
      exact ⟨z, hz, e.trans hxl⟩
    · obtain ⟨y, hy, rfl⟩ := hX.all' l' hl'
      exact hall y hy

theorem extendLine_ok (h : Part c R V) {guess : Guess} (hg : guess.OK) {S : List Nat} {n : Nat} {done : List Nat} {I : List Interval}
    (hX : XInv c S n done I) {l : Nat} (hln : l ∈ c.getLines n) (hld : l ∉ done) :
    ∃ r, c.extendLine guess (c.getPos n) l I = some r ∧ (r = none → ¬ Contig c (n :: S)) ∧
      ∀ I', r = some I' → XInv c S n (l :: done) I' := by
  obtain ⟨line, i, hl, hi⟩ := h.line hln
  have hpS : part S n done l = S := by simp [part, hld]
  unfold extendLine
  cases hlk : lookup I l with
  | none =>
    have hno := lookup_none hlk
    have hS : ∀ m ∈ S, l ∉ c.getLines m := by
      intro m hm hlm
      obtain ⟨x, hx, e⟩ := hX.all m hm l hlm
      exact hno x hx e
    refine ⟨_, rfl, by simp, ?_⟩
    intro I' e
    simp only [Option.some.injEq] at e
    subst e
    have key : ∀ x ∈ I ++ [⟨l, c.getPos n, c.getPos n⟩], (x ∈ I ∧ x.line ≠ l) ∨ x = ⟨l, c.getPos n, c.getPos n⟩ := by
      intro x hx
      rcases List.mem_append.1 hx with hx | hx
      · exact .inl ⟨hx, hno x hx⟩
      · exact .inr (by simpa using hx)
    refine ⟨?_, ?_, ?_, ?_, ?_, ?_⟩
    · rw [List.map_append, List.nodup_append]
      refine ⟨hX.keys, by simp, ?_⟩
      intro a ha b hb e
      obtain ⟨x, hx, rfl⟩ := List.mem_map.1 ha
      simp at hb
      exact hno x hx (e.trans hb)
    · intro x hx
      rcases key x hx with ⟨hx, hne⟩ | rfl
      · rw [part_other hne]; exact hX.min_mem x hx
      · exact ⟨n, by rw [part_self]; simp, hln, rfl⟩
    · intro x hx
      rcases key x hx with ⟨hx, hne⟩ | rfl
      · rw [part_other hne]; exact hX.max_mem x hx
      · exact ⟨n, by rw [part_self]; simp, hln, rfl⟩
    · intro x hx m hm
      rcases key x hx with ⟨hx, hne⟩ | rfl
      · rw [part_other hne]; exact hX.mem x hx m hm
      · rw [part_self]
        simp only at hm ⊢
        constructor
        · intro hmm
          rcases List.mem_cons.1 hmm with rfl | hmm
          · omega
          · exact absurd hm (hS m hmm)
        · intro hp
          rw [same_pos h hm hln (by omega)]; simp
    · intro m hm l' hl'
      obtain ⟨x, hx, e⟩ := hX.all m hm l' hl'
      exact ⟨x, List.mem_append_left _ hx, e⟩
    · intro l' hl'
      rcases List.mem_cons.1 hl' with rfl | hl'
      · exact ⟨⟨l', c.getPos n, c.getPos n⟩, by simp, rfl⟩
      · obtain ⟨x, hx, e⟩ := hX.all' l' hl'
        exact ⟨x, List.mem_append_left _ hx, e⟩
  | some x =>
    obtain ⟨hx, hxl⟩ := lookup_some hlk
    have hmin := hX.min_mem x hx
    have hmax := hX.max_mem x hx
    have hmem := hX.mem x hx
    rw [hxl, hpS] at hmin hmax hmem
    obtain ⟨a, haS, hla, ea⟩ := hmin
    obtain ⟨b, hbS, hlb, eb⟩ := hmax
    have hab := (hmem a hla).1 haS
    have onl : ∀ m, m ∈ line ↔ l ∈ c.getLines m := fun m => h.mem l line m hl
    simp only
    by_cases hlt : c.getPos n < x.min
    · rw [if_pos hlt]
      unfold positionsFrom
      rw [nodesFrom_ok h hg hl hi]
      simp only [Option.map_some]
      have hn := next_iff h hl hi ((onl a).2 hla) (by omega)
      rw [ea] at hn
      by_cases hc : ((line.drop i).map c.getPos)[1]? = some x.min
      · rw [if_neg (by simpa using hc)]
        refine ⟨_, rfl, by simp, ?_⟩
        intro I' e
        simp only [Option.some.injEq] at e
        subst e
        have hgap := hn.1 hc
        refine hX.modify hx hxl (fun _ => rfl) ⟨n, by simp, hln, rfl⟩ ⟨b, by simp [hbS], hlb, eb⟩ ?_
        intro m hm
        simp only
        constructor
        · intro hmm
          rcases List.mem_cons.1 hmm with rfl | hmm
          · omega
          · have := (hmem m hm).1 hmm; omega
        · rintro ⟨h1, h2⟩
          by_cases h3 : x.min ≤ c.getPos m
          · exact List.mem_cons_of_mem _ ((hmem m hm).2 ⟨h3, h2⟩)
          · have := hgap m ((onl m).2 hm)
            rw [same_pos h hm hln (by omega)]; simp
      · rw [if_pos (by simpa using hc)]
        refine ⟨none, rfl, fun _ hcon => hc (hn.2 ?_), by simp⟩
        rintro m hm ⟨h1, h2⟩
        have hml := (onl m).1 hm
        have := hcon l n m a hln hml hla (by simp) (by simp [haS]) (by omega) (by omega)
        rcases List.mem_cons.1 this with rfl | hmS
        · omega
        · have := (hmem m hml).1 hmS; omega
    · rw [if_neg hlt]
      by_cases hgt : x.max < c.getPos n
      · rw [if_pos hgt]
        obtain ⟨j, hj⟩ := List.mem_iff_getElem?.1 ((onl b).2 hlb)
        have hnf := nodesFrom_ok h hg hl hj
        rw [eb] at hnf
        unfold positionsFrom
        rw [hnf]
        simp only [Option.map_some]
        have hn := next_iff h hl hj ((onl n).2 hln) (by omega)
        rw [eb] at hn
        by_cases hc : ((line.drop j).map c.getPos)[1]? = some (c.getPos n)
        · rw [if_neg (by simpa using hc)]
          refine ⟨_, rfl, by simp, ?_⟩
          intro I' e
          simp only [Option.some.injEq] at e
          subst e
          have hgap := hn.1 hc
          refine hX.modify hx hxl (fun _ => rfl) ⟨a, by simp [haS], hla, ea⟩ ⟨n, by simp, hln, rfl⟩ ?_
          intro m hm
          simp only
          constructor
          · intro hmm
            rcases List.mem_cons.1 hmm with rfl | hmm
            · omega
            · have := (hmem m hm).1 hmm; omega
          · rintro ⟨h1, h2⟩
            by_cases h3 : c.getPos m ≤ x.max
            · exact List.mem_cons_of_mem _ ((hmem m hm).2 ⟨h1, h3⟩)
            · have := hgap m ((onl m).2 hm)
              rw [same_pos h hm hln (by omega)]; simp
        · rw [if_pos (by simpa using hc)]
          refine ⟨none, rfl, fun _ hcon => hc (hn.2 ?_), by simp⟩
          rintro m hm ⟨h1, h2⟩
          have hml := (onl m).1 hm
          have := hcon l b m n hlb hml hln (by simp [hbS]) (by simp) (by omega) (by omega)
          rcases List.mem_cons.1 this with rfl | hmS
          · omega
          · have := (hmem m hml).1 hmS; omega
      · rw [if_neg hgt]
        have hnS : n ∈ S := (hmem n hln).2 ⟨by omega, by omega⟩
        refine ⟨_, rfl, by simp, ?_⟩
        intro I' e
        simp only [Option.some.injEq] at e
        subst e
        have hpart : ∀ l' m, m ∈ part S n (l :: done) l' ↔ m ∈ part S n done l' := by
          intro l' m
          by_cases hl' : l' = l
          · subst hl'
            rw [part_self, hpS, List.mem_cons]
            exact ⟨fun h => h.elim (fun e => e ▸ hnS) id, .inr⟩
          · rw [part_other hl']
        refine ⟨hX.keys, ?_, ?_, ?_, hX.all, ?_⟩
        · intro y hy
          obtain ⟨m, hm, h'⟩ := hX.min_mem y hy
          exact ⟨m, (hpart _ _).2 hm, h'⟩
        · intro y hy
          obtain ⟨m, hm, h'⟩ := hX.max_mem y hy
          exact ⟨m, (hpart _ _).2 hm, h'⟩
        · intro y hy m hm
          rw [hpart]; exact hX.mem y hy m hm
        · intro l' hl'
          rcases List.mem_cons.1 hl' with rfl | hl'
          · exact ⟨x, hx, hxl⟩
          · exact hX.all' l' hl'

theorem extendLoop_ok (h : Part c R V) {guess : Guess} (hg : guess.OK) {S : List Nat} {n : Nat} {ls : List Nat} :
    ∀ {done : List Nat} {I : List Interval}, XInv c S n done I → (∀ l ∈ ls, l ∈ c.getLines n) → (ls ++ done).Nodup →
    ∃ r, c.extendLoop guess (c.getPos n) ls I = some r ∧ (r = none → ¬ Contig c (n :: S)) ∧
      ∀ I', r = some I' → ∃ done', (∀ l, l ∈ done' ↔ l ∈ ls ∨ l ∈ done) ∧ XInv c S n done' I' := by
  induction ls with
  | nil =>
    intro done I hX _ _
    refine ⟨_, rfl, by simp, ?_⟩
    intro I' e
    simp only [Option.some.injEq] at e
    subst e
    exact ⟨done, by simp, hX⟩
  | cons l ls ih =>
    intro done I hX hls hnd
    rw [List.cons_append, List.nodup_cons] at hnd
    obtain ⟨r, h1, h2, h3⟩ := extendLine_ok h hg hX (hls l (by simp)) (fun hc => hnd.1 (List.mem_append_right _ hc))
    unfold extendLoop
    rw [h1]
    cases r with
    | none => exact ⟨none, rfl, fun _ => h2 rfl, by simp⟩
    | some I1 =>
      simp only
      obtain ⟨r, h4, h5, h6⟩ := ih (h3 I1 rfl) (fun l' hl' => hls l' (by simp [hl'])) (by
        rw [List.nodup_append] at hnd ⊢
        obtain ⟨g0, g1, g2, g3⟩ := hnd
        refine ⟨g1, List.nodup_cons.2 ⟨fun hc => g0 (List.mem_append_right _ hc), g2⟩, ?_⟩
        intro a ha b hb e
        rcases List.mem_cons.1 hb with rfl | hb
        · exact g0 (List.mem_append_left _ (e ▸ ha))
        · exact g3 a ha b hb e)
      refine ⟨r, h4, h5, ?_⟩
      intro I' e
      obtain ⟨done', h7, h8⟩ := h6 I' e
      refine ⟨done', ?_, h8⟩
      intro l'
      rw [h7]
      simp only [List.mem_cons]
      tauto

/-- `try_extend_intervals` succeeds exactly when the larger set is contiguous on each line. -/
theorem tryExtend_ok (h : Part c R V) {guess : Guess} (hg : guess.OK) {S : List Nat} {I : List Interval} (hI : IOK c S I) (n : Nat) :
    ∃ r I', c.tryExtend guess I n = some (r, I') ∧ (r = true ↔ Contig c (n :: S)) ∧ (r = true → IOK c (n :: S) I') ∧
      (r = false → I' = I) := by
  have hp : ∀ l, part S n [] l = S := by intro l; simp [part]
  obtain ⟨r, h1, h2, h3⟩ := extendLoop_ok h hg (ls := c.getLines n) (done := []) (I := I)
    ⟨hI.keys, by simpa only [hp] using hI.min_mem, by simpa only [hp] using hI.max_mem, by simpa only [hp] using hI.mem,
      hI.all, by simp⟩ (fun l hl => hl) (by simpa using h.nodup n)
  unfold tryExtend
  rw [h1]
  cases r with
  | none => exact ⟨false, I, rfl, by simpa using h2, by simp, by simp⟩
  | some I' =>
    obtain ⟨done, hd, hX⟩ := h3 I' rfl
    simp only [List.not_mem_nil, or_false] at hd
    have hmemp : ∀ l m, l ∈ c.getLines m → (m ∈ n :: S ↔ m ∈ part S n done l) := by
      intro l m hlm
      unfold part
      by_cases hl : l ∈ done
      · rw [if_pos hl]
      · rw [if_neg hl, List.mem_cons]
        refine ⟨fun hm => hm.elim (fun e => absurd ((hd l).2 (e ▸ hlm)) hl) id, .inr⟩
    have hok : IOK c (n :: S) I' := by
      refine ⟨hX.keys, ?_, ?_, ?_, ?_⟩
      · intro x hx
        obtain ⟨m, hm, hl, e⟩ := hX.min_mem x hx
        exact ⟨m, (hmemp _ m hl).2 hm, hl, e⟩
      · intro x hx
        obtain ⟨m, hm, hl, e⟩ := hX.max_mem x hx
        exact ⟨m, (hmemp _ m hl).2 hm, hl, e⟩
      · intro x hx m hm
        rw [hmemp _ m hm]; exact hX.mem x hx m hm
      · intro m hm l hl
        rcases List.mem_cons.1 hm with rfl | hm
        · exact hX.all' l ((hd l).2 hl)
        · exact hX.all m hm l hl
    exact ⟨true, I', rfl, by simpa using hok.contig, fun _ => hok, by simp⟩

end Line

end Verif.Convex
