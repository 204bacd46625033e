import Verif.Algo.DomLemmas
import Verif.Algo.PostDfs
import Verif.Algo.PostProps

/-!
# C29: `dominators` computes immediate dominators
-/

namespace Verif.Algo.Dom

open Verif (Direction)
open Verif.PG

theorem predLoop_ok {G : View} {F : Filter} {idx : Nat → Nat} {D : List (Option Nat)} {N node : Nat} (hD : D.length = N)
    (hidx : ∀ m, idx m < N) (ps : List Nat) :
    predLoop G F idx D node ps = some (((ps.filterMap (Post.target G F node)).map idx).filter fun p => (D[p]?).join.isSome) := by
  induction ps with
  | nil => rfl
  | cons p ps ih =>
    unfold predLoop
    cases ha : F.port node p with
    | false =>
      have ht : Post.target G F node p = none := by simp [Post.target, ha]
      simp [ih, List.filterMap_cons, ht]
    | true =>
      simp only [Bool.not_true, Bool.false_eq_true, if_false]
      cases hl : (G.links p).head? with
      | none =>
        have ht : Post.target G F node p = none := by simp [Post.target, ha, hl]
        simp [ih, List.filterMap_cons, ht]
      | some q =>
        cases hm : G.portNode q with
        | none =>
          have ht : Post.target G F node p = none := by simp [Post.target, ha, hl, hm]
          simp [ih, List.filterMap_cons, ht, hm]
        | some m =>
          simp only [hm]
          by_cases hf : (!F.node m || !F.port m q) = true
          · rw [if_pos hf]
            have ht : Post.target G F node p = none := by
              simp only [Bool.or_eq_true, Bool.not_eq_true'] at hf
              rcases hf with hf | hf <;> simp [Post.target, ha, hl, hm, hf]
            simp [ih, List.filterMap_cons, ht]
          · rw [if_neg hf]
            have ht : Post.target G F node p = some m := by
              simp only [Bool.or_eq_true, Bool.not_eq_true', not_or, Bool.not_eq_false] at hf
              simp [Post.target, ha, hl, hm, hf]
            have hlt : idx m < D.length := by rw [hD]; exact hidx m
            rw [List.filterMap_cons, ht]
            simp only [List.map_cons]
            rw [List.filter_cons]
            cases hk : D[idx m]? with
            | none => rw [List.getElem?_eq_none_iff] at hk; omega
            | some v => cases v <;> simp [ih]

theorem known_iff {D : List (Option Nat)} {p : Nat} : Known D p ↔ (D[p]?).join.isSome = true := by
  unfold Known
  cases D[p]? with
  | none => simp
  | some v => cases v <;> simp

theorem fill_ok {order : List Nat} (hnd : order.Nodup) (Ds : List (Option Nat)) : ∀ (i : Nat) (m : Nat → Option Nat),
    i + Ds.length ≤ order.length → (∀ (j : Nat) (o : Option Nat), Ds[j]? = some o → ∃ c, o = some c ∧ c < order.length) →
    ∃ m', fill order Ds i m = some m' ∧ (∀ (j c : Nat), Ds[j]? = some (some c) → ∀ n, order[i + j]? = some n → m' n = order[c]?) ∧
      ∀ n, (∀ j, j < Ds.length → order[i + j]? ≠ some n) → m' n = m n := by
  induction Ds with
  | nil => intro i m _ _; exact ⟨m, rfl, by simp, by simp⟩
  | cons o Ds ih =>
    intro i m hi hc
    obtain ⟨c, rfl, hcl⟩ := hc 0 o rfl
    simp only [List.length_cons] at hi
    have h1 : order[i]? = some order[i] := List.getElem?_eq_getElem (by omega)
    have h2 : order[c]? = some order[c] := List.getElem?_eq_getElem hcl
    obtain ⟨m', a1, a2, a3⟩ := ih (i + 1) (fun x => if x = order[i] then some order[c] else m x) (by omega)
      (fun j o h => hc (j + 1) o (by simpa using h))
    refine ⟨m', ?_, ?_, ?_⟩
    · simp [fill, h1, h2, a1]
    · intro j c' hj n hn
      cases j with
      | zero =>
        simp only [List.getElem?_cons_zero, Option.some.injEq] at hj
        subst hj
        rw [Nat.add_zero, h1] at hn
        cases hn
        rw [a3, if_pos rfl, h2]
        intro j hj hc
        have := (List.nodup_iff_getElem?_ne_getElem?.1 hnd) i (i + 1 + j) (by omega) (by omega)
        exact this (h1.trans hc.symm)
      | succ j =>
        rw [List.getElem?_cons_succ] at hj
        exact a2 j c' hj n (by rw [← hn]; congr 1; omega)
    · intro n hn
      rw [a3 n]
      · rw [if_neg]
        rintro rfl
        exact hn 0 (by simp) (by simpa using h1)
      · intro j hj hc
        exact hn (j + 1) (by simp; omega) (by rw [← hc]; congr 1; omega)

/-- Arcs can be followed backwards if the start node is accepted. -/
theorem farc_symm {g : PG} (hI : Inv g) {F : Filter} {d n m} (h : FArc g F d n m) (hn : F.node n = true) :
    FArc g F d.reverse m n := by
  obtain ⟨p, hp, q, hq, hm, h1, h2, h3⟩ := h
  have W := ofPG_wf hI
  have hq' : q ∈ (ofPG g).links p := by simp [ofPG, hq]
  obtain ⟨m', hm'⟩ := W.link_dir _ _ _ _ hp hq'
  have : m' = m := by
    have h2 := (W.ports_node _ _ _ hm').1
    have : some m' = some m := h2.symm.trans hm
    cases this; rfl
  subst this
  have hp' := W.link_sym _ _ hq'
  refine ⟨q, hm', p, ?_, (W.ports_node _ _ _ hp).1, h3, hn, h1⟩
  simp only [ofPG] at hp'
  cases h : g.portLink? q with
  | none => simp [h] at hp'
  | some x => cases x <;> simp [h] at hp' ⊢; exact hp'.symm

theorem pass_eq {G : View} {F : Filter} {d idx} {order : List Nat} (k : Nat) : ∀ D ch, k ≤ order.length →
    pass G F d idx order k D ch = ipass (fun D i => (order[i]?).bind (newDom G F d idx D)) k D ch := by
  induction k with
  | zero => intros; rfl
  | succ k ih =>
    intro D ch hk
    unfold pass ipass
    rw [List.getElem?_eq_getElem (show k < order.length by omega)]
    simp only [Option.bind_some]
    cases newDom G F d idx D order[k] with
    | none => rfl
    | some c => simp only; rw [ih _ _ (by omega), ih _ _ (by omega)]

theorem iterate_eq {G : View} {F : Filter} {d idx} {order : List Nat} (f : Nat) : ∀ D,
    iterate G F d idx order f D = iiterate order.length (fun D i => (order[i]?).bind (newDom G F d idx D)) f D := by
  induction f with
  | zero => intros; rfl
  | succ f ih =>
    intro D
    unfold iterate iiterate
    rw [pass_eq _ _ _ (by omega)]
    cases ipass (fun D i => (order[i]?).bind (newDom G F d idx D)) (order.length - 1) D false with
    | none => rfl
    | some x => simp only [ih]

theorem succs_node {G : View} {F : Filter} {d : Direction} {n m : Nat} (h : m ∈ Post.succs G F d n) : F.node m = true := by
  obtain ⟨p, -, h⟩ := List.mem_filterMap.1 h
  unfold Post.target at h
  split at h
  · split at h
    · cases h
    · split at h
      · cases h
      · split at h
        · next hf => cases h; simp only [Bool.and_eq_true] at hf; exact hf.1
        · cases h
  · cases h

/-- The tree for a relation `R` of successors which can be followed backwards. -/
theorem dominators_exact {G : View} {F : Filter} {d : Direction} {cap entry : Nat} (R : Nat → Nat → Prop)
    (hR : ∀ n m, R n m ↔ m ∈ Post.succs G F d n)
    (hport : ∀ p q, (G.links p).head? = some q → ∃ m, G.portNode q = some m ∧ m < cap)
    (hback : ∀ n m, m ∈ Post.succs G F d.reverse n → F.node n = true → R m n)
    (hforth : ∀ m n, R m n → F.node m = true → m ∈ Post.succs G F d.reverse n)
    (he : entry < cap) (hF : F.node entry = true) :
    ∃ T l s first, dominators G F d cap entry = some T ∧ T.root = entry ∧
      (∀ n, (T.idom n).isSome = true ↔ n ≠ entry ∧ Relation.ReflTransGen R entry n) ∧
      postorder G F d cap [entry] = some (l, s) ∧ l.head? = some first ∧
      ∀ n c, T.idom n = some c → ImmDom (Taken R (fun x => F.node x = true) entry first) entry c n := by
  obtain ⟨l, s, h1, hnd, hmem, -⟩ := postorder_ok R hR hport (S := [entry]) (by simpa using he)
  have hmem : ∀ n, n ∈ l ↔ Relation.ReflTransGen (R) entry n := by
    intro n; rw [hmem]; simp [hF]
  have hdfs := postorder_dfs hport h1
  rw [List.filter_cons, if_pos hF, List.filter_nil] at hdfs
  obtain ⟨l0, hl0⟩ := hdfs.single (by simp)
  have hpos : 0 < l.length := by rw [hl0]; simp
  have hlast : l[l.length - 1]? = some entry := by rw [hl0]; simp
  have hfirst : l[0]? = some l[0] := List.getElem?_eq_getElem hpos
  have hfm : l[0] ∈ l := List.getElem_mem hpos
  generalize l[0] = first at hfirst hfm
  let A := Taken R (fun x => F.node x = true) entry first
  let N := l.length
  let idx : Nat → Nat := fun n => if n ∈ l then l.idxOf n else 0
  have hidx : ∀ m, idx m < N := by
    intro m
    simp only [idx]
    split
    · next h => exact List.idxOf_lt_length_of_mem h
    · exact hpos
  have hidxl : ∀ {n}, n ∈ l → l[idx n]? = some n := by
    intro n hn
    simp only [idx, if_pos hn]
    rw [List.getElem?_eq_getElem (List.idxOf_lt_length_of_mem hn), List.getElem_idxOf]
  have hidxu : ∀ {i n}, l[i]? = some n → idx n = i := by
    intro i n h
    obtain ⟨hi, e⟩ := List.getElem?_eq_some_iff.1 h
    have hn : n ∈ l := by rw [← e]; exact List.getElem_mem hi
    have h2 := hidxl hn
    by_contra hc
    exact (List.nodup_iff_getElem?_ne_getElem?.1 hnd |> fun H => by
      rcases Nat.lt_or_gt_of_ne hc with h' | h'
      · exact H _ _ h' hi (h2.trans h.symm)
      · exact H _ _ h' (hidx n) (h.trans h2.symm))
  -- reached nodes are accepted
  have hacc : ∀ n ∈ l, F.node n = true := by
    intro n hn
    have := (hmem n).1 hn
    cases this with
    | refl => exact hF
    | tail _ h => exact succs_node ((hR _ _).1 h)
  let P : Nat → List Nat := fun i => ((l[i]?).map fun n => (Post.succs (G) F d.reverse n).map idx).getD []
  have hPn : ∀ {i n}, l[i]? = some n → P i = (Post.succs (G) F d.reverse n).map idx := by
    intro i n h; simp [P, h]
  -- the index arcs
  have harc : ∀ {i n p}, l[i]? = some n → (p ∈ P i ↔ ∃ m, l[p]? = some m ∧ A m n) := by
    intro i n p h
    have hn : n ∈ l := List.mem_of_getElem? h
    rw [hPn h, List.mem_map]
    constructor
    · rintro ⟨m, hm, rfl⟩
      have hFm : F.node m = true := succs_node hm
      have harc := hback n m hm (hacc n hn)
      by_cases hml : m ∈ l
      · exact ⟨m, hidxl hml, (hmem n).1 hn, .inl ⟨(hmem m).1 hml, harc⟩⟩
      · refine ⟨first, ?_, (hmem n).1 hn, .inr ⟨rfl, m, hFm, harc, fun hc => hml ((hmem m).2 hc)⟩⟩
        simp only [idx, if_neg hml]
        exact hfirst
    · rintro ⟨m, hm, -, ⟨-, harc⟩ | ⟨rfl, x, hx, harc, hxl⟩⟩
      · exact ⟨m, hforth m n harc (hacc m (List.mem_of_getElem? hm)), hidxu hm⟩
      · refine ⟨x, hforth x n harc hx, ?_⟩
        have h1 : idx x = 0 := by simp only [idx, if_neg (fun hc => hxl ((hmem x).1 hc))]
        rw [h1, ← hidxu hm, hidxu hfirst]
  have C : Ctx N P := by
    refine ⟨hpos, ?_, ?_⟩
    · intro i hi p hp
      rw [hPn (List.getElem?_eq_getElem hi), List.mem_map] at hp
      obtain ⟨m, _, rfl⟩ := hp
      exact hidx m
    · intro i hi
      have hi' : i < l.length := by omega
      have e := List.getElem?_eq_getElem hi'
      have hne : l[i] ≠ entry := by
        intro hc
        rw [hc] at e
        exact List.nodup_iff_getElem?_ne_getElem?.1 hnd i (l.length - 1) (by omega) (by omega) (e.trans hlast.symm)
      obtain ⟨y, hy, hxy, a, b, e', hxa⟩ := hdfs.parent l[i] (List.getElem_mem hi') (by simpa using hne)
      refine ⟨a.length, (harc e).2 ⟨y, by rw [e']; simp, (hmem _).1 (List.getElem_mem hi'), .inl ⟨(hmem y).1 hy, (hR _ _).2 hxy⟩⟩, ?_⟩
      -- the position of a member of `a`
      obtain ⟨k, hk, ek⟩ := List.mem_iff_getElem.1 hxa
      have : l[k]? = some l[i] := by
        have h3 : (a ++ y :: b)[k]? = a[k]? := List.getElem?_append_left hk
        rw [← e', List.getElem?_eq_getElem hk, ek] at h3
        exact h3
      have h4 := hidxu this
      have h5 := hidxu e
      omega
  have hnew : NewOK (N := N) P (fun D i => (l[i]?).bind (newDom (G) F d idx D)) := by
    intro D i hD hi
    refine ⟨(P i).filter fun p => (D[p]?).join.isSome, ?_, ?_⟩
    · intro p; rw [List.mem_filter, known_iff]
    · have e := List.getElem?_eq_getElem (show i < l.length from hi)
      rw [hPn e]
      simp only [e, Option.bind_some, newDom]
      rw [predLoop_ok hD hidx]
      show (match some (((Post.succs (G) F d.reverse l[i]).map idx).filter _) with
        | none => none
        | some [] => none
        | some (a :: bs) => fold D (2 * D.length + 1) bs a) = _
      cases ((Post.succs (G) F d.reverse l[i]).map idx).filter fun p => (D[p]?).join.isSome <;> rfl
  -- the initial vector
  let D0 : List (Option Nat) := (List.replicate N none).set (N - 1) (some (N - 1))
  have hD0 : ∀ j k, D0[j]? = some (some k) → j = N - 1 ∧ k = N - 1 := by
    intro j k h
    simp only [D0] at h
    rw [get_set (by rw [List.length_replicate]; omega)] at h
    split at h
    · next e => cases h; exact ⟨e, rfl⟩
    · rw [List.getElem?_replicate] at h
      split at h <;> cases h
  have S0 : Shape N D0 := by
    refine ⟨by simp [D0], ?_, ?_⟩
    · simp only [D0]; rw [get_set (by rw [List.length_replicate]; omega), if_pos rfl]
    · intro i k hi h; have := (hD0 i k h).1; omega
  have Q0 : Sound N P D0 := by
    intro i k hi h; have := (hD0 i k h).1; omega
  have E0 : ∀ j, Exact N P D0 j 1 := by
    intro j w hw hlen
    cases hw with
    | root =>
      refine ⟨⟨_, S0.root⟩, fun c hc => ?_⟩
      rw [hc.root S0]; simp
    | @step w _ _ hw _ =>
      have := hw.mem
      simp only [List.length_cons] at hlen
      rw [List.length_eq_zero_iff.1 (by omega : w.length = 0)] at this
      cases this
  obtain ⟨D, i1, SD, RD⟩ := iiterate_ok C hnew N D0 1 (by omega) (by omega) S0 Q0 E0
  -- walks over indices and over nodes
  have toNode : ∀ w i, Walk (IArc N P) (N - 1) w i → ∀ n, l[i]? = some n → ∃ w', w.mapM (l[·]?) = some w' ∧ Walk A entry w' n := by
    intro w i hw
    induction hw with
    | root =>
      intro n hn
      rw [hlast] at hn
      cases hn
      exact ⟨[entry], by simp [N, hlast], .root⟩
    | @step w p i hw hr ih =>
      intro n hn
      obtain ⟨m, hm, harc'⟩ := (harc hn).1 hr.2
      obtain ⟨w', e, hw'⟩ := ih m hm
      exact ⟨n :: w', by simp [hn, e], .step hw' harc'⟩
  have toIdx : ∀ w n, Walk A entry w n → n ∈ l ∧ (∀ x ∈ w, x ∈ l) ∧ Walk (IArc N P) (N - 1) (w.map idx) (idx n) := by
    intro w n hw
    induction hw with
    | root =>
      have hm : entry ∈ l := List.mem_of_getElem? hlast
      refine ⟨hm, by simpa using hm, ?_⟩
      rw [List.map_singleton, hidxu hlast]
      exact .root
    | @step w m n hw hr ih =>
      obtain ⟨a1, a2, a3⟩ := ih
      have hn : n ∈ l := (hmem n).2 hr.1
      refine ⟨hn, ?_, ?_⟩
      · intro x hx
        rcases List.mem_cons.1 hx with rfl | hx
        · exact hn
        · exact a2 x hx
      · exact .step a3 ⟨hidx n, (harc (hidxl hn)).2 ⟨m, hidxl a1, hr⟩⟩
  have memMap : ∀ (w w' : List Nat), w.mapM (l[·]?) = some w' → ∀ {i n}, l[i]? = some n → (i ∈ w ↔ n ∈ w') := by
    intro w
    induction w with
    | nil => intro w' h i n _; simp at h; subst h; simp
    | cons x w ih =>
      intro w' h i n hn
      simp only [List.mapM_cons, Option.bind_eq_bind, Option.bind_eq_some_iff, Option.pure_def, Option.some.injEq] at h
      obtain ⟨y, hy, w'', hw'', rfl⟩ := h
      rw [List.mem_cons, List.mem_cons, ih w'' hw'' hn]
      constructor
      · rintro (rfl | h)
        · rw [hy] at hn; cases hn; exact .inl rfl
        · exact .inr h
      · rintro (rfl | h)
        · exact .inl ((hidxu hn).symm.trans (hidxu hy))
        · exact .inr h
  have domIff : ∀ {i j m n}, l[i]? = some m → l[j]? = some n → (Dominates (IArc N P) (N - 1) i j ↔ Dominates A entry m n) := by
    intro i j m n hi hj
    constructor
    · intro h w hw
      obtain ⟨a1, a2, a3⟩ := toIdx w n hw
      rw [hidxu hj] at a3
      obtain ⟨x, hx, e⟩ := List.mem_map.1 (h _ a3)
      have := hidxl (a2 x hx)
      rw [e, hi] at this
      cases this
      exact hx
    · intro h w hw
      obtain ⟨w', e, hw'⟩ := toNode w j hw n hj
      exact (memMap w w' e hi).2 (h w' hw')
  have domMem : ∀ {m n}, n ∈ l → Dominates A entry m n → m ∈ l := by
    intro m n hn h
    obtain ⟨w, hw⟩ := walk_exists C (idx n) (hidx n)
    obtain ⟨w', e, hw'⟩ := toNode w _ hw n (hidxl hn)
    exact (toIdx w' n hw').2.1 m (h w' hw')
  -- the result
  obtain ⟨m, f1, f2, f3⟩ := fill_ok hnd (D.take (N - 1)) 0 (fun _ => none) (by simp [SD.len]; omega) (by
    intro j o hj
    rw [List.getElem?_take] at hj
    split at hj
    · next h =>
      obtain ⟨k, e, hk, _⟩ := RD j h
      rw [e] at hj; cases hj
      exact ⟨k, rfl, hk⟩
    · cases hj)
  have hm : ∀ i n, i < N - 1 → l[i]? = some n → ∃ k c, D[i]? = some (some k) ∧ l[k]? = some c ∧ m n = some c ∧ k ≠ i ∧
      Dominates (IArc N P) (N - 1) k i ∧ ∀ b, b ≠ i → Dominates (IArc N P) (N - 1) b i → Dominates (IArc N P) (N - 1) b k := by
    intro i n hi hn
    obtain ⟨k, e, hk, h⟩ := RD i hi
    have e2 := List.getElem?_eq_getElem (show k < l.length from hk)
    exact ⟨k, l[k], e, e2, by rw [f2 i k (by rw [List.getElem?_take, if_pos hi]; exact e) n (by simpa using hn), e2], h⟩
  refine ⟨⟨entry, m⟩, l, s, first, ?_, rfl, ?_, h1, by rw [List.head?_eq_getElem?]; exact hfirst, ?_⟩
  · unfold dominators
    rw [h1]
    simp only
    rw [if_neg (by omega), iterate_eq]
    rw [show iiterate l.length (fun D i => (l[i]?).bind (newDom (G) F d idx D)) (l.length + 1) D0 = some D from i1]
    simp only
    rw [f1]
    rfl
  · intro n
    constructor
    · intro hn
      by_contra hc
      simp only at hn
      rw [f3 n] at hn
      · cases hn
      · intro j hj e
        rw [List.length_take, SD.len] at hj
        rw [Nat.zero_add] at e
        apply hc
        refine ⟨?_, (hmem n).1 (List.mem_of_getElem? e)⟩
        rintro rfl
        exact List.nodup_iff_getElem?_ne_getElem?.1 hnd j (l.length - 1) (by omega) (by omega) (e.trans hlast.symm)
    · rintro ⟨hne, hn⟩
      have e := hidxl ((hmem n).2 hn)
      have hi : idx n < N - 1 := by
        have := hidx n
        by_contra hc
        have : idx n = N - 1 := by omega
        rw [this, hlast] at e
        cases e
        exact hne rfl
      obtain ⟨k, c, _, _, hc, _⟩ := hm _ n hi e
      simp [hc]
  · intro n c hn
    have hin : ∃ i, i < N - 1 ∧ l[i]? = some n := by
      by_contra hc
      have : m n = none := by
        apply f3
        intro j hj e
        rw [List.length_take, SD.len] at hj
        rw [Nat.zero_add] at e
        exact hc ⟨j, by omega, e⟩
      rw [show m n = some c from hn] at this
      cases this
    obtain ⟨i, hi, e⟩ := hin
    obtain ⟨k, c', _, h2, h3, h4, h5, h6⟩ := hm i n hi e
    rw [show m n = some c from hn] at h3
    cases h3
    refine ⟨?_, (domIff h2 e).1 h5, ?_⟩
    · rintro rfl
      exact h4 ((hidxu h2).symm.trans (hidxu e))
    · intro b hb hbn
      have hbl := domMem (List.mem_of_getElem? e) hbn
      have eb := hidxl hbl
      exact (domIff eb h2).1 (h6 _ (by rintro hc; rw [hc, e] at eb; cases eb; exact hb rfl) ((domIff eb e).2 hbn))

/-- If the predecessors of reached nodes are reached, walks are not mistaken. -/
theorem walk_taken {R : Nat → Nat → Prop} {ok : Nat → Prop} {entry first : Nat}
    (hpred : ∀ n m, Relation.ReflTransGen R entry n → R m n → ok m → Relation.ReflTransGen R entry m) {l n} :
    Walk (Taken R ok entry first) entry l n ↔ Walk R entry l n := by
  constructor
  · intro h
    induction h with
    | root => exact .root
    | step _ hr ih =>
      obtain ⟨h1, ⟨-, h2⟩ | ⟨-, x, hx, h3, h4⟩⟩ := hr
      · exact .step ih h2
      · exact absurd (hpred _ x h1 h3 hx) h4
  · intro h
    have reach : ∀ {l n}, Walk R entry l n → Relation.ReflTransGen R entry n := by
      intro l n h
      induction h with
      | root => exact .refl
      | step _ hr ih => exact ih.tail hr
    induction h with
    | root => exact .root
    | step h hr ih => exact .step ih ⟨(reach h).tail hr, .inl ⟨reach h, hr⟩⟩

/-- The tree if the predecessors of reached nodes are reached. -/
theorem dominators_ok {G : View} {F : Filter} {d : Direction} {cap entry : Nat} (R : Nat → Nat → Prop)
    (hR : ∀ n m, R n m ↔ m ∈ Post.succs G F d n)
    (hport : ∀ p q, (G.links p).head? = some q → ∃ m, G.portNode q = some m ∧ m < cap)
    (hback : ∀ n m, m ∈ Post.succs G F d.reverse n → F.node n = true → R m n)
    (hforth : ∀ m n, R m n → F.node m = true → m ∈ Post.succs G F d.reverse n)
    (he : entry < cap) (hF : F.node entry = true)
    (hpred : ∀ n m, Relation.ReflTransGen R entry n → R m n → F.node m = true → Relation.ReflTransGen R entry m) :
    ∃ T, dominators G F d cap entry = some T ∧ T.root = entry ∧
      (∀ n, (T.idom n).isSome = true ↔ n ≠ entry ∧ Relation.ReflTransGen R entry n) ∧
      ∀ n c, T.idom n = some c → ImmDom R entry c n := by
  obtain ⟨T, l, s, first, h1, h2, h3, -, -, h4⟩ := dominators_exact R hR hport hback hforth he hF
  refine ⟨T, h1, h2, h3, fun n c hc => ?_⟩
  have := h4 n c hc
  simpa only [ImmDom, Dominates, walk_taken hpred] using this

/-- **C29** What `dominators` computes in every graph, with every filter that accepts the entry: it
returns, its root is the entry, exactly the other reached nodes have an entry in the map, and this is
the immediate dominator for the arcs `Taken`: a predecessor which the filters accept but which cannot
be reached from the entry is taken for the node that the post-order traversal lists first. -/
theorem C29_dominators_exact {maxOff : Nat} (hmax : maxOff ≤ 32767) {g : PG} (hg : PG.Reach maxOff g) (F : Filter)
    (d : Direction) {cap entry : Nat} (hcap : g.nodeMeta.length ≤ cap) (he : entry < cap) (hF : F.node entry = true) :
    ∃ T l s first, dominators (ofPG g) F d cap entry = some T ∧ T.root = entry ∧
      (∀ n, (T.idom n).isSome = true ↔ n ≠ entry ∧ Relation.ReflTransGen (FArc g F d) entry n) ∧
      postorder (ofPG g) F d cap [entry] = some (l, s) ∧ l.head? = some first ∧
      ∀ n c, T.idom n = some c → ImmDom (Taken (FArc g F d) (fun x => F.node x = true) entry first) entry c n := by
  have hI := hg.inv hmax
  refine dominators_exact (FArc g F d) farc_succs (ofPG_hport hI hcap) ?_ ?_ he hF
  · intro n m hm hn
    have harc := farc_symm hI ((farc_succs n m).2 hm) hn
    rwa [show d.reverse.reverse = d by cases d <;> rfl] at harc
  · intro m n harc hm
    exact (farc_succs n m).1 (farc_symm hI harc hm)

/-- **C29** (see also `C29_dominators_exact`) If the predecessors of the nodes reached from the entry are all reached (or rejected by
the filters), then the tree does not panic, its root is the entry, every other reached node has
its immediate dominator, and no other node has one.

Full statement: the same without the condition `hpred`. It is false, see
`C29_witness_unreachable_predecessor`. -/
theorem C29_dominators_partial {maxOff : Nat} (hmax : maxOff ≤ 32767) {g : PG} (hg : PG.Reach maxOff g) (F : Filter)
    (d : Direction) {cap entry : Nat} (hcap : g.nodeMeta.length ≤ cap) (he : entry < cap) (hF : F.node entry = true)
    (hpred : ∀ n m, Relation.ReflTransGen (FArc g F d) entry n → FArc g F d m n → F.node m = true →
      Relation.ReflTransGen (FArc g F d) entry m) :
    ∃ T, dominators (ofPG g) F d cap entry = some T ∧ T.root = entry ∧
      (∀ n, (T.idom n).isSome = true ↔ n ≠ entry ∧ Relation.ReflTransGen (FArc g F d) entry n) ∧
      ∀ n c, T.idom n = some c → ImmDom (FArc g F d) entry c n := by
  have hI := hg.inv hmax
  refine dominators_ok (FArc g F d) farc_succs (ofPG_hport hI hcap) ?_ ?_ he hF hpred
  · intro n m hm hn
    have harc := farc_symm hI ((farc_succs n m).2 hm) hn
    rwa [show d.reverse.reverse = d by cases d <;> rfl] at harc
  · intro m n harc hm
    exact (farc_succs n m).1 (farc_symm hI harc hm)

/-- The condition of `C29_dominators_partial` can be checked with the post-order of the graph. -/
theorem closed_of_check {maxOff : Nat} (hmax : maxOff ≤ 32767) {g : PG} (hg : PG.Reach maxOff g) {F : Filter}
    {d : Direction} {cap entry : Nat} (hcap : g.nodeMeta.length ≤ cap) (he : entry < cap) (hF : F.node entry = true)
    {l : List Nat} (hl : (postorder (ofPG g) F d cap [entry]).map (·.1) = some l)
    (hc : ∀ n ∈ l, ∀ m ∈ Post.succs (ofPG g) F d.reverse n, m ∈ l) (n m : Nat)
    (hn : Relation.ReflTransGen (FArc g F d) entry n) (hm : FArc g F d m n) (hFm : F.node m = true) :
    Relation.ReflTransGen (FArc g F d) entry m := by
  obtain ⟨l', s, h1, -, hmem, -⟩ := C28_filtered hmax hg F d hcap (S := [entry]) (by simpa using he)
  rw [h1] at hl
  cases hl
  have hmem : ∀ n, n ∈ l' ↔ Relation.ReflTransGen (FArc g F d) entry n := by
    intro n; rw [hmem]; simp [hF]
  rw [← hmem] at hn ⊢
  exact hc n hn m ((farc_succs n m).1 (farc_symm (hg.inv hmax) hm hFm))

/-- **C29** In a graph without filters in which every node is reached from the entry, every node
but the entry gets its immediate dominator. -/
theorem C29_all_reachable {maxOff : Nat} (hmax : maxOff ≤ 32767) {g : PG} (hg : PG.Reach maxOff g)
    (d : Direction) {cap entry : Nat} (hcap : g.nodeMeta.length ≤ cap) (he : g.containsNode entry = true)
    (hall : ∀ n, g.containsNode n = true → Relation.ReflTransGen (Arc g d) entry n) :
    ∃ T, dominators (ofPG g) .all d cap entry = some T ∧ T.root = entry ∧
      (∀ n, (T.idom n).isSome = true ↔ n ≠ entry ∧ g.containsNode n = true) ∧
      ∀ n c, T.idom n = some c → ImmDom (Arc g d) entry c n := by
  have hI := hg.inv hmax
  have hR : FArc g .all d = Arc g d := by funext n m; exact propext (farc_all hI)
  have hlive : ∀ n m, Arc g d m n → g.containsNode m = true ∧ g.containsNode n = true := by
    intro n m h
    have := varc_nodes (ofPG_wf hI) ((varc_iff hI).2 h)
    exact ⟨ofPG_nodes.1 this.1, ofPG_nodes.1 this.2⟩
  have hlt : entry < cap := by
    obtain ⟨m, hm⟩ := Option.isSome_iff_exists.1 he
    exact Nat.lt_of_lt_of_le (node?_lt hm) hcap
  obtain ⟨T, h1, h2, h3, h4⟩ := C29_dominators_partial hmax hg .all d hcap hlt rfl (by
    rw [hR]
    intro n m _ h _
    exact hall m (hlive n m h).1)
  rw [hR] at h3 h4
  refine ⟨T, h1, h2, fun n => (h3 n).trans (and_congr Iff.rfl ⟨fun h => ?_, hall n⟩), h4⟩
  cases h with
  | refl => exact he
  | tail _ h => exact (hlive _ _ h).2

/-- The graph r → z, r → x → y and f → y, with r, z, x, y, f = 0, 1, 2, 3, 4. -/
def unrOps : List PG.Op :=
  [.addNode 0 2, .addNode 1 0, .addNode 1 1, .addNode 2 0, .addNode 0 1,
   .linkPorts 0 2, .linkPorts 1 3, .linkPorts 4 5, .linkPorts 7 6]

def unrG : PG := (PG.run 32767 PG.empty unrOps).getD PG.empty

theorem unrG_reach : PG.Reach 32767 unrG :=
  checkedRun_reach .init (by decide +kernel : checkedRun 32767 PG.empty unrOps = some unrG)

/-- **C29 fails** if a reached node has a predecessor which is not reached from the entry: that
predecessor is taken for the node with post-order index 0. Here node 2 dominates node 3 but 0 is
given as the immediate dominator of 3, which is therefore wrong. -/
theorem C29_witness_unreachable_predecessor : ∃ T, dominators (ofPG unrG) .all .outgoing 5 0 = some T ∧ T.idom 3 = some 0 ∧
    Dominates (FArc unrG .all .outgoing) 0 2 3 ∧ ¬ Dominates (FArc unrG .all .outgoing) 0 2 0 ∧
    ¬ ImmDom (FArc unrG .all .outgoing) 0 0 3 := by
  have hI := unrG_reach.inv (by decide)
  have hd : Dominates (FArc unrG .all .outgoing) 0 2 3 := by
    have h3 : ∀ m, FArc unrG .all .outgoing m 3 → m ∈ [2, 4] := by
      intro m h
      have := (farc_succs _ _).1 (farc_symm hI h rfl)
      rwa [show Post.succs (ofPG unrG) .all Direction.outgoing.reverse 3 = [2, 4] by decide +kernel] at this
    have h4 : ∀ m, ¬ FArc unrG .all .outgoing m 4 := by
      intro m h
      have := (farc_succs _ _).1 (farc_symm hI h rfl)
      rw [show Post.succs (ofPG unrG) .all Direction.outgoing.reverse 4 = [] by decide +kernel] at this
      cases this
    intro w hw
    cases hw with
    | @step w m _ hw hr =>
      have := h3 m hr
      simp only [List.mem_cons, List.not_mem_nil, or_false] at this
      rcases this with rfl | rfl
      · exact List.mem_cons_of_mem _ hw.mem
      · cases hw with
        | step _ hr' => exact absurd hr' (h4 _)
  have hn : ¬ Dominates (FArc unrG .all .outgoing) 0 2 0 := fun h => by have := h.root; omega
  have hT : (dominators (ofPG unrG) .all .outgoing 5 0).map (·.idom 3) = some (some 0) := by decide +kernel
  cases h : dominators (ofPG unrG) .all .outgoing 5 0 with
  | none => rw [h] at hT; cases hT
  | some T =>
    rw [h] at hT
    exact ⟨T, rfl, by simpa using hT, hd, hn, fun hc => hn (hc.2.2 2 (by omega) hd)⟩

/-- If the filter rejects the entry, the call panics. -/
theorem C29_witness_entry_rejected (g : PG) (F : Filter) (d : Direction) (cap entry : Nat) (hF : F.node entry = false) :
    dominators (ofPG g) F d cap entry = none := by
  unfold dominators
  cases h : postorder (ofPG g) F d cap [entry] with
  | none => rfl
  | some x =>
    obtain ⟨l, s⟩ := x
    have : l = [] := by
      simp only [postorder, Post.new, List.filter_cons, hF, List.filter_nil, Bool.false_eq_true, if_false] at h
      cases hk : Post.fuel (ofPG g) d cap [entry] with
      | zero => rw [hk] at h; cases h
      | succ k =>
        rw [hk] at h
        simp [Post.collect, Post.next] at h
        exact h.1
    subst this
    rfl

/-! The hypotheses can be met: a diamond with a tail, and a graph with a cycle and a self link, with
filters; the immediate dominator of the join of the diamond is its top. -/

example : (dominators (ofPG dagG) .all .outgoing 8 0).map (fun T => (List.range 6).map T.idom) =
    some [none, some 0, some 0, some 0, some 3, none] := by decide +kernel

example : ∃ T, dominators (ofPG dagG) .all .outgoing 8 0 = some T ∧ T.root = 0 ∧
      (∀ n, (T.idom n).isSome = true ↔ n ≠ 0 ∧ Relation.ReflTransGen (FArc dagG .all .outgoing) 0 n) ∧
      ∀ n c, T.idom n = some c → ImmDom (FArc dagG .all .outgoing) 0 c n :=
  C29_dominators_partial (by decide) dagG_reach .all .outgoing (by decide) (by decide) rfl
    (closed_of_check (by decide) dagG_reach (cap := 8) (by decide) (by decide) rfl (l := [4, 3, 1, 2, 0]) (by decide +kernel)
      (by decide +kernel))

example := C29_dominators_partial (by decide) unrG_reach ⟨fun n => n != 4, fun _ _ => true⟩ .outgoing (cap := 5) (entry := 0)
    (by decide) (by decide) rfl
    (closed_of_check (by decide) unrG_reach (cap := 5) (by decide) (by decide) rfl (l := [1, 3, 2, 0]) (by decide +kernel)
      (by decide +kernel))

example : (dominators (ofPG unrG) ⟨fun n => n != 4, fun _ _ => true⟩ .outgoing 5 0).map (fun T => (List.range 6).map T.idom) =
    some [none, some 0, some 0, some 2, none, none] := by decide +kernel

example := C29_dominators_exact (by decide) unrG_reach .all .outgoing (cap := 5) (entry := 0) (by decide) (by decide) rfl
/-- Node 4 cannot be reached; its arc to 3 counts as an arc from 1, the node listed first. -/
example : (postorder (ofPG unrG) .all .outgoing 5 [0]).map (·.1) = some [1, 3, 2, 0] ∧
    (dominators (ofPG unrG) .all .outgoing 5 0).map (fun T => (List.range 5).map T.idom) =
      some [none, some 0, some 0, some 0, none] := by decide +kernel

/-- A diamond whose nodes can all be reached from 0. -/
def wholeOps : List PG.Op :=
  [.addNode 0 2, .addNode 1 1, .addNode 1 1, .addNode 2 0, .linkPorts 0 2, .linkPorts 1 4, .linkPorts 3 6, .linkPorts 5 7]

def wholeG : PG := (PG.run 32767 PG.empty wholeOps).getD PG.empty

theorem wholeG_reach : PG.Reach 32767 wholeG :=
  checkedRun_reach .init (by decide +kernel : checkedRun 32767 PG.empty wholeOps = some wholeG)

example := C29_all_reachable (by decide) wholeG_reach .outgoing (cap := 4) (entry := 0) (by decide) (by decide) (by
  have h1 : Arc wholeG .outgoing 0 1 := ⟨0, 0, by decide +kernel⟩
  have h2 : Arc wholeG .outgoing 0 2 := ⟨1, 0, by decide +kernel⟩
  have h3 : Arc wholeG .outgoing 1 3 := ⟨0, 0, by decide +kernel⟩
  intro n hn
  have hlt : n < 4 := node?_lt (Option.isSome_iff_exists.1 (show (wholeG.node? n).isSome = true from hn)).choose_spec
  match n, hlt with
  | 0, _ => exact .refl
  | 1, _ => exact .single h1
  | 2, _ => exact .single h2
  | 3, _ => exact (Relation.ReflTransGen.single h1).tail h3)

#print axioms C29_dominators_exact
#print axioms C29_dominators_partial
#print axioms C29_all_reachable
#print axioms C29_witness_unreachable_predecessor
#print axioms C29_witness_entry_rejected

end Verif.Algo.Dom
