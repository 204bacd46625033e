import Verif.Multi.Move

/-!
# The flags while ports and nodes move

The bit vectors of a `MultiPortGraph` are exchanged at each call of `rekey`. These lemmas say that
afterwards the flags are those of the moved ports and nodes.
-/

namespace Verif.Multi

open Verif (Direction)
open Verif.PG Verif.View

/-- The flags after a list of exchanges. -/
def swaps (f : Nat → Bool) (l : List (Nat × Nat)) : Nat → Bool := l.foldl (fun f y => swapFlag f y.1 y.2) f

theorem swaps_ok {l : List (Nat × Nat)} {f : Nat → Bool}
    (hpw : l.Pairwise fun x y => x.1 ≠ y.1 ∧ x.2 ≠ y.1) (ht : l.Pairwise fun x y => x.2 ≠ y.2)
    (hf : ∀ x ∈ l, x.2 ∈ l.map (·.1) ∨ f x.2 = false) :
    (∀ x ∈ l, swaps f l x.2 = f x.1) ∧ (∀ z, z ∈ l.map (·.1) → z ∉ l.map (·.2) → swaps f l z = false) ∧
      (∀ z, z ∉ l.map (·.1) → z ∉ l.map (·.2) → swaps f l z = f z) := by
  induction l generalizing f with
  | nil => simp [swaps]
  | cons a l ih =>
    obtain ⟨x, y⟩ := a
    obtain ⟨hp1, hp2⟩ := List.pairwise_cons.1 hpw
    obtain ⟨ht1, ht2⟩ := List.pairwise_cons.1 ht
    simp only at hp1 ht1
    have hsrc : ∀ z, z ∈ l.map (·.1) → x ≠ z ∧ y ≠ z := by
      intro z hz
      obtain ⟨w, hw, rfl⟩ := List.mem_map.1 hz
      exact hp1 w hw
    have htgt : ∀ z, z ∈ l.map (·.2) → y ≠ z := by
      intro z hz
      obtain ⟨w, hw, rfl⟩ := List.mem_map.1 hz
      exact ht1 w hw
    have hhead : y = x ∨ f y = false := by
      rcases hf (x, y) (List.mem_cons_self ..) with h | h
      · rcases List.mem_cons.1 h with h | h
        · exact .inl h
        · exact absurd rfl (hsrc _ h).2
      · exact .inr h
    have e1 : ∀ z, z ≠ x → z ≠ y → swapFlag f x y z = f z := by
      intro z h1 h2; simp [swapFlag, h1, h2]
    have e2 : swapFlag f x y y = f x := by
      unfold swapFlag; split
      · rename_i h; rw [h]
      · simp
    have e3 : y ≠ x → swapFlag f x y x = false := by
      intro h; rcases hhead with h' | h'
      · exact absurd h' h
      · simp [swapFlag, h']
    obtain ⟨h1, h2, h3⟩ := ih (f := swapFlag f x y) hp2 ht2 (by
      intro w hw
      have hy : y ≠ w.2 := ht1 w hw
      by_cases hx : w.2 = x
      · right; rw [hx]; apply e3; rw [hx] at hy; exact hy
      · rcases hf w (List.mem_cons_of_mem _ hw) with h | h
        · rcases List.mem_cons.1 h with h | h
          · exact absurd h hx
          · exact .inl h
        · right; rw [e1 _ hx (Ne.symm hy)]; exact h)
    have hs : swaps f ((x, y) :: l) = swaps (swapFlag f x y) l := rfl
    rw [hs]
    refine ⟨?_, ?_, ?_⟩
    · intro w hw
      rcases List.mem_cons.1 hw with rfl | hw
      · simp only
        rw [h3 y (fun hc => (hsrc _ hc).2 rfl) (fun hc => htgt _ hc rfl), e2]
      · rw [h1 w hw, e1]
        · exact (hp1 w hw).1.symm
        · exact (hp1 w hw).2.symm
    · intro z hz hz'
      simp only [List.map_cons, List.mem_cons, not_or] at hz hz'
      rcases hz with rfl | hz
      · rw [h3 _ (fun hc => (hsrc _ hc).1 rfl) hz'.2]
        exact e3 (Ne.symm hz'.1)
      · exact h2 z hz hz'.2
    · intro z hz hz'
      simp only [List.map_cons, List.mem_cons, not_or] at hz hz'
      rw [h3 z hz.2 hz'.2, e1 _ hz.1 hz'.1]

/-- The flags after a compaction by ranks. -/
theorem swaps_rank {P : Nat → Bool} {r : Nat → Nat} {N : Nat} {f : Nat → Bool} (hr : ∀ x, r x ≤ x)
    (hinj : ∀ x y, P x = true → P y = true → r x = r y → x = y) (hf : ∀ x, f x = true → P x = true ∧ x < N)
    (hP : ∀ x, P x = true → x < N) :
    (∀ x, P x = true → swaps f (((List.range N).filter P).map fun n => (n, r n)) (r x) = f x) ∧
    (∀ z, swaps f (((List.range N).filter P).map fun n => (n, r n)) z = true → ∃ x, P x = true ∧ z = r x) := by
  have hmem : ∀ x, x ∈ (List.range N).filter P ↔ P x = true := by
    intro x; simp only [List.mem_filter, List.mem_range]
    exact ⟨fun h => h.2, fun h => ⟨hP x h, h⟩⟩
  have hsort : ((List.range N).filter P).Pairwise (· < ·) := List.Pairwise.filter _ List.pairwise_lt_range
  obtain ⟨h1, h2, h3⟩ := swaps_ok (l := ((List.range N).filter P).map fun n => (n, r n)) (f := f)
    (by
      rw [List.pairwise_map]
      apply hsort.imp
      intro a b hab
      have := hr a
      exact ⟨by omega, by simp only; omega⟩)
    (by
      rw [List.pairwise_map]
      apply (List.Pairwise.imp_of_mem ?_ hsort)
      intro a b ha hb hab hc
      have := hinj a b ((hmem a).1 ha) ((hmem b).1 hb) hc
      omega)
    (by
      intro x hx
      obtain ⟨a, ha, rfl⟩ := List.mem_map.1 hx
      simp only
      cases hc : f (r a) with
      | false => exact .inr rfl
      | true =>
        left
        rw [List.map_map]
        exact List.mem_map.2 ⟨r a, (hmem _).2 (hf _ hc).1, rfl⟩)
  refine ⟨?_, ?_⟩
  · intro x hx
    exact h1 (x, r x) (List.mem_map.2 ⟨x, (hmem x).2 hx, rfl⟩)
  · intro z hz
    by_cases ht : z ∈ (((List.range N).filter P).map fun n => (n, r n)).map (·.2)
    · rw [List.map_map] at ht
      obtain ⟨x, hx, rfl⟩ := List.mem_map.1 ht
      exact ⟨x, (hmem x).1 hx, rfl⟩
    · by_cases hs : z ∈ (((List.range N).filter P).map fun n => (n, r n)).map (·.1)
      · rw [h2 z hs ht] at hz; cases hz
      · rw [h3 z hs ht] at hz
        exfalso; apply hs
        rw [List.map_map]
        exact List.mem_map.2 ⟨z, (hmem z).2 (hf z hz).1, rfl⟩

/-- The flags and the list of `rekey_wrapper`. -/
theorem rekeyFlags_ok {f : Nat → Bool} {l : List (Nat × Nat)} (tr : List (Nat × PortOp))
    (h : ∀ x ∈ tr, ∃ r, x.2 = .removed r ∧ (f x.1 = true → ∃ q, r = some q)) :
    ∃ D, MG.rekeyFlags f (tr ++ l.map (fun x => (x.1, .moved x.2))) = some (swaps f l, D) ∧
      (∀ p q, (p, q) ∈ D ↔ f p = true ∧ (p, .removed (some q)) ∈ tr) ∧
      D.map (·.1) = (tr.map (·.1)).filter f := by
  induction tr with
  | nil =>
    refine ⟨[], ?_, by simp, by simp⟩
    simp only [List.nil_append]
    induction l generalizing f with
    | nil => rfl
    | cons x l ih =>
      simp only [List.map_cons, MG.rekeyFlags]
      exact ih (by simp)
  | cons x tr ih =>
    obtain ⟨p, op⟩ := x
    obtain ⟨r, h1, h2⟩ := h _ (List.mem_cons_self ..)
    simp only at h1 h2
    subst h1
    obtain ⟨D, h3, h4, h5⟩ := ih fun y hy => h y (List.mem_cons_of_mem _ hy)
    simp only [List.cons_append, MG.rekeyFlags]
    cases hp : f p with
    | false =>
      refine ⟨D, by simp [h3], ?_, by simp [hp, h5]⟩
      intro a b
      rw [h4]
      simp only [List.mem_cons, Prod.mk.injEq]
      constructor
      · rintro ⟨h6, h7⟩; exact ⟨h6, .inr h7⟩
      · rintro ⟨h6, ⟨rfl, -⟩ | h7⟩
        · rw [hp] at h6; cases h6
        · exact ⟨h6, h7⟩
    | true =>
      obtain ⟨q, rfl⟩ := h2 hp
      refine ⟨(p, q) :: D, by simp [h3], ?_, by simp [hp, h5]⟩
      intro a b
      simp only [List.mem_cons, Prod.mk.injEq, PortOp.removed.injEq, Option.some.injEq]
      rw [h4]
      constructor
      · rintro (⟨rfl, rfl⟩ | ⟨h6, h7⟩)
        · exact ⟨hp, .inl ⟨rfl, rfl⟩⟩
        · exact ⟨h6, .inr h7⟩
      · rintro ⟨h6, ⟨rfl, rfl⟩ | h7⟩
        · exact .inl ⟨rfl, rfl⟩
        · exact .inr ⟨h6, h7⟩

/-- The flags after the moves of `set_num_ports`: they follow the kept ports if no port lands on a
dropped port with a flag. -/
theorem swaps_calls {g g' : PG} (hI : Inv g) (hI' : Inv g') {n i o : Nat} {π : Nat → Nat} {new : Endpoint → Prop}
    (M : Moved g g' id π (fun e => ¬ Dropped n i o e) new) {tr1 : List (Nat × PortOp)} {l : List (Nat × Nat)}
    (hC : Calls g n i o π tr1 l) {f : Nat → Bool} (hf : ∀ x, f x = true → ∃ e, At g x e)
    (hok : ∀ x ∈ l, x.2 ∈ tr1.map (·.1) → f x.2 = false) :
    (∀ p e, At g p e → ¬ Dropped n i o e → swaps f l (π p) = f p) ∧
    (∀ z, swaps f l z = true → (∃ p e, At g p e ∧ ¬ Dropped n i o e ∧ z = π p) ∨ (f z = true ∧ z ∈ tr1.map (·.1))) ∧
    (∀ z, z ∈ tr1.map (·.1) → f z = true → swaps f l z = true) := by
  have key : ∀ x ∈ l, x.2 ∈ l.map (·.1) ∨ f x.2 = false := by
    intro x hx
    obtain ⟨h1, e, h2, h3, h4⟩ := hC.move x hx
    cases hc : f x.2 with
    | false => exact .inr rfl
    | true =>
      left
      obtain ⟨e', he'⟩ := hf _ hc
      by_cases hd : Dropped n i o e'
      · have := hok x hx ((hC.mem_drop _).2 ⟨e', he', hd⟩)
        rw [this] at hc; cases hc
      · apply Classical.byContradiction
        intro hno
        have hst := hC.stay _ e' he' hd (by
          intro y hy hc
          exact hno (List.mem_map.2 ⟨y, hy, hc⟩))
        have h5 := M.inj hI' h2 h4 he' hd (by rw [hst, h1])
        exact hno (List.mem_map.2 ⟨x, hx, h5⟩)
  have htd : l.Pairwise fun x y => x.2 ≠ y.2 := by
    apply (List.Pairwise.imp_of_mem ?_ hC.pw)
    intro a b ha hb hab hc
    obtain ⟨h1, e, h2, -, h4⟩ := hC.move a ha
    obtain ⟨h1', e', h2', -, h4'⟩ := hC.move b hb
    exact hab.1 (M.inj hI' h2 h4 h2' h4' (by rw [← h1, ← h1', hc]))
  obtain ⟨s1, s2, s3⟩ := swaps_ok hC.pw htd key
  have hfol : ∀ p e, At g p e → ¬ Dropped n i o e → swaps f l (π p) = f p := by
    intro p e hp he
    by_cases hs : ∃ x ∈ l, x.1 = p
    · obtain ⟨x, hx, rfl⟩ := hs
      rw [← (hC.move x hx).1]; exact s1 x hx
    · have hno : ∀ x ∈ l, x.1 ≠ p := fun x hx hc => hs ⟨x, hx, hc⟩
      have hst := hC.stay p e hp he hno
      rw [hst]
      apply s3
      · intro hc
        obtain ⟨x, hx, h⟩ := List.mem_map.1 hc
        exact hno x hx h
      · intro hc
        obtain ⟨x, hx, h⟩ := List.mem_map.1 hc
        obtain ⟨h1, e', h2, -, h4⟩ := hC.move x hx
        have := M.inj hI' h2 h4 hp he (by rw [hst, ← h1, h])
        exact hno x hx this
  refine ⟨hfol, ?_, ?_⟩
  · intro z hz
    by_cases ht : z ∈ l.map (·.2)
    · obtain ⟨x, hx, rfl⟩ := List.mem_map.1 ht
      obtain ⟨h1, e, h2, -, h4⟩ := hC.move x hx
      exact .inl ⟨x.1, e, h2, h4, h1⟩
    · by_cases hs : z ∈ l.map (·.1)
      · rw [s2 z hs ht] at hz; cases hz
      · rw [s3 z hs ht] at hz
        obtain ⟨e, he⟩ := hf z hz
        by_cases hd : Dropped n i o e
        · exact .inr ⟨hz, (hC.mem_drop z).2 ⟨e, he, hd⟩⟩
        · left
          refine ⟨z, e, he, hd, ?_⟩
          exact (hC.stay z e he hd (fun x hx hc => hs (List.mem_map.2 ⟨x, hx, hc⟩))).symm
  · intro z hz hfz
    rw [s3 z ?_ ?_, hfz]
    · intro hc
      obtain ⟨x, hx, rfl⟩ := List.mem_map.1 hc
      obtain ⟨-, e, h2, -, h4⟩ := hC.move x hx
      obtain ⟨e', h5, h6⟩ := (hC.mem_drop _).1 hz
      obtain rfl := h2.inj hI h5
      exact h4 h6
    · intro hc
      obtain ⟨x, hx, rfl⟩ := List.mem_map.1 hc
      rw [hok x hx hz] at hfz; cases hfz

end Verif.Multi
