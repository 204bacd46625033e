import Verif.CopyIn.Loop

/-!
# The steps of the loop of `copy_in_parent`
-/

namespace Verif.CopyIn

open Verif (Direction)
open Verif.PG Verif.Multi

variable {S E : Type}
variable {H : Host S E} {Good : S → Prop} {obs : S → GObs E} {cap : S → Nat → Prop} {single : Prop} {maxOff : Nat}

/-- The graphs before (`s0`) and after (`s1`) the new nodes are added. -/
structure Ctx (L : Law H Good obs cap single maxOff) (s0 s1 : S) (nodes : List Nat) (M : List (Nat × Nat)) : Prop where
  good0 : Good s0
  good1 : Good s1
  added : Added (obs s0) (obs s1) nodes M
  nodup : nodes.Nodup
  inside : ∀ n ∈ nodes, (obs s0).node n

variable {L : Law H Good obs cap single maxOff} {s0 s1 : S} {nodes : List Nat} {M : List (Nat × Nat)}

namespace Ctx

theorem keys (C : Ctx L s0 s1 nodes M) : (M.map (·.1)).Nodup := by rw [C.added.keys]; exact C.nodup

theorem mem (C : Ctx L s0 s1 nodes M) {n n' : Nat} (h : (n, n') ∈ M) : n ∈ nodes := by
  rw [← C.added.keys]; exact List.mem_map.2 ⟨_, h, rfl⟩

theorem val (_ : Ctx L s0 s1 nodes M) {n n' : Nat} (h : (n, n') ∈ M) : n' ∈ M.map (·.2) := List.mem_map.2 ⟨_, h, rfl⟩

theorem ex (C : Ctx L s0 s1 nodes M) {n : Nat} (h : n ∈ nodes) : ∃ n', (n, n') ∈ M := by
  rw [← C.added.keys] at h
  obtain ⟨⟨a, b⟩, h1, rfl⟩ := List.mem_map.1 h
  exact ⟨b, h1⟩

/-- Old ports keep their positions. -/
theorem old (C : Ctx L s0 s1 nodes M) {p : Nat} {e : Endpoint} (h : (obs s0).pos p e) : (obs s1).pos p e :=
  (C.added.pos_old p e fun hm => C.added.fresh _ hm (L.pos_node s0 C.good0 p e h)).2 h

/-- New ports are no old ports. -/
theorem new_ne (C : Ctx L s0 s1 nodes M) {p n n' k : Nat} {d : Direction} (hn : (n, n') ∈ M) (h : (obs s1).pos p (n', d, k))
    (e : Endpoint) : ¬ (obs s0).pos p e := by
  intro he
  have h1 := L.pos_fun s1 C.good1 p _ _ h (C.old he)
  have h2 := L.pos_node s0 C.good0 p e he
  rw [← h1] at h2
  exact C.added.fresh n' (C.val hn) h2

theorem place_inj (C : Ctx L s0 s1 nodes M) {p p' q : Nat} (h : Place (obs s0) (obs s1) M p q)
    (h' : Place (obs s0) (obs s1) M p' q) : p = p' := by
  obtain ⟨n, d, k, h1, ⟨m, h2, h3⟩ | ⟨-, rfl⟩⟩ := h <;> obtain ⟨n', d', k', h1', ⟨m', h2', h3'⟩ | ⟨-, h2'⟩⟩ := h'
  · have := L.pos_fun s1 C.good1 q _ _ h3 h3'
    simp only [Prod.mk.injEq] at this
    obtain ⟨rfl, rfl, rfl⟩ := this
    obtain rfl := val_fun C.added.nodup h2 h2'
    exact L.pos_one s0 C.good0 _ _ _ h1 h1'
  · subst h2'; exact absurd h1' (C.new_ne h2 h3 _)
  · exact absurd h1 (C.new_ne h2' h3' _)
  · exact h2'

/-- Every port has a place. -/
theorem place_ex (C : Ctx L s0 s1 nodes M) {p n k : Nat} {d : Direction} (h : (obs s0).pos p (n, d, k)) :
    ∃ q, Place (obs s0) (obs s1) M p q := by
  by_cases hn : ∃ n', (n, n') ∈ M
  · obtain ⟨n', hn⟩ := hn
    obtain ⟨q, hq⟩ := (C.added.pos_new n n' hn d k).2 ⟨p, h⟩
    exact ⟨q, n, d, k, h, .inl ⟨n', hn, hq⟩⟩
  · exact ⟨p, n, d, k, h, .inr ⟨fun n' h' => hn ⟨n', h'⟩, rfl⟩⟩

/-- A place has the direction of the port. -/
theorem place_dir (C : Ctx L s0 s1 nodes M) {p q : Nat} {x : Endpoint} (h : Place (obs s0) (obs s1) M p q)
    (hx : (obs s0).pos p x) : ∃ y, (obs s1).pos q y ∧ y.2.1 = x.2.1 := by
  obtain ⟨n, d, k, h1, h2⟩ := h
  obtain rfl := L.pos_fun s0 C.good0 p _ _ hx h1
  rcases h2 with ⟨n', -, h3⟩ | ⟨-, rfl⟩
  · exact ⟨_, h3, rfl⟩
  · exact ⟨_, C.old h1, rfl⟩

theorem on_fun (C : Ctx L s0 s1 nodes M) {e : E} {n m : Nat} (h : (obs s0).On H.toPort e n) (h' : (obs s0).On H.toPort e m) : n = m := by
  obtain ⟨d, k, h⟩ := h
  obtain ⟨d', k', h'⟩ := h'
  have := L.pos_fun s0 C.good0 _ _ _ h h'
  simp only [Prod.mk.injEq] at this
  exact this.1

theorem kept_asym (C : Ctx L s0 s1 nodes M) {e f : E} (h : Kept H.toPort (obs s0) M e f) :
    ¬ Kept H.toPort (obs s0) M f e := by
  rintro ⟨-, m, m', hm, hfm, hk', ho'⟩
  obtain ⟨hl, n, n', hn, hen, hk, ho⟩ := h
  have h1 := hk m m' hm hfm
  have h2 := hk' n n' hn hen
  obtain rfl : n' = m' := by omega
  obtain rfl := val_fun C.added.nodup hn hm
  obtain ⟨d, k, hd⟩ := hen
  obtain ⟨d', k', hd'⟩ := hfm
  have := L.link_dir s0 C.good0 e f _ _ hl hd hd'
  cases d
  · cases d'
    · exact this rfl
    · exact ho ⟨k', hd'⟩
  · exact ho' ⟨k, hd⟩

theorem touching (C : Ctx L s0 s1 nodes M) {e f : E} (hl : (obs s0).link e f)
    (h : (obs s0).Inside H.toPort nodes e ∨ (obs s0).Inside H.toPort nodes f) :
    Kept H.toPort (obs s0) M e f ∨ Kept H.toPort (obs s0) M f e := by
  have hl' := L.link_sym s0 C.good0 _ _ hl
  have key : ∀ e f, (obs s0).link e f → (obs s0).link f e → (obs s0).Inside H.toPort nodes e →
      Kept H.toPort (obs s0) M e f ∨ Kept H.toPort (obs s0) M f e := by
    rintro e f hl hl' ⟨n, hn, hen⟩
    obtain ⟨n', hM⟩ := C.ex hn
    by_cases hf : ∃ m m', (m, m') ∈ M ∧ (obs s0).On H.toPort f m
    · obtain ⟨m, m', hM', hfm⟩ := hf
      have hfu : ∀ x x', (x, x') ∈ M → (obs s0).On H.toPort f x → x' = m' := by
        intro x x' hx hfx
        obtain rfl := C.on_fun hfx hfm
        exact key_fun C.keys hx hM'
      have heu : ∀ x x', (x, x') ∈ M → (obs s0).On H.toPort e x → x' = n' := by
        intro x x' hx hfx
        obtain rfl := C.on_fun hfx hen
        exact key_fun C.keys hx hM
      rcases Nat.lt_trichotomy n' m' with hlt | heq | hlt
      · left
        refine ⟨hl, n, n', hM, hen, fun x x' hx hfx => by rw [hfu x x' hx hfx]; omega, ?_⟩
        rintro ⟨k, hk⟩
        obtain rfl := C.on_fun hfm ⟨_, _, hk⟩
        have := key_fun C.keys hM hM'
        omega
      · subst heq
        obtain rfl := val_fun C.added.nodup hM hM'
        by_cases ho : ∃ k, (obs s0).pos (H.toPort f) (n, .outgoing, k)
        · right
          refine ⟨hl', n, n', hM, hfm, fun x x' hx hfx => by rw [heu x x' hx hfx]; omega, ?_⟩
          rintro ⟨k', hk'⟩
          obtain ⟨k, hk⟩ := ho
          exact L.link_dir s0 C.good0 e f _ _ hl hk' hk rfl
        · left
          exact ⟨hl, n, n', hM, hen, fun x x' hx hfx => by rw [hfu x x' hx hfx]; omega, ho⟩
      · right
        refine ⟨hl', m, m', hM', hfm, fun x x' hx hfx => by rw [heu x x' hx hfx]; omega, ?_⟩
        rintro ⟨k, hk⟩
        obtain rfl := C.on_fun hen ⟨_, _, hk⟩
        have := key_fun C.keys hM hM'
        omega
    · left
      refine ⟨hl, n, n', hM, hen, fun x x' hx hfx => absurd ⟨x, x', hx, hfx⟩ hf, ?_⟩
      rintro ⟨k, hk⟩
      exact hf ⟨n, n', hM, _, _, hk⟩
  rcases h with h | h
  · exact key e f hl hl' h
  · exact (key f e hl' hl h).symm

variable {R : Nat} {s : S} {T N : List (E × E)}

/-- The copy of a port whose link is not yet copied has no link, if ports have one link. -/
theorem copy_free (C : Ctx L s0 s1 nodes M) (hs : single) (I : Mid L (obs s0) (obs s1) M R s T N) {e f : E} {n n' k a : Nat}
    {d : Direction} (hl : (obs s0).link e f) (h1 : (e, f) ∉ T) (h2 : (f, e) ∉ T) (hn : (n, n') ∈ M)
    (he : (obs s0).pos (H.toPort e) (n, d, k)) (ha : (obs s1).pos a (n', d, k)) :
    ∀ x z, H.toPort x = a → ¬ (obs s).link x z := by
  rintro x z rfl hx
  have hpl : Place (obs s0) (obs s1) M (H.toPort e) (H.toPort x) := ⟨n, d, k, he, .inl ⟨n', hn, ha⟩⟩
  rcases (I.link x z).1 hx with h3 | h3 | h3
  · obtain ⟨y, hy⟩ := L.link_port s0 C.good0 _ _ h3
    exact C.new_ne hn ha y hy
  · obtain ⟨i, hi, hix⟩ := List.mem_iff_getElem.1 h3
    have hi' : i < T.length := by rw [I.corr.length_eq]; exact hi
    have hc := (I.corr.get hi' hi).1
    simp only [List.get_eq_getElem, hix] at hc
    have h4 := L.single_inj hs _ _ (C.place_inj hc hpl)
    have hT : T[i] ∈ T := List.getElem_mem hi'
    have h5 := (I.kept T[i].1 T[i].2 hT).1
    rw [h4] at h5
    have h6 := L.link_one s0 C.good0 _ _ _ h5 hl
    apply h1
    rw [← h4, ← h6]; exact hT
  · obtain ⟨i, hi, hix⟩ := List.mem_iff_getElem.1 h3
    have hi' : i < T.length := by rw [I.corr.length_eq]; exact hi
    have hc := (I.corr.get hi' hi).2
    simp only [List.get_eq_getElem, hix] at hc
    have h4 := L.single_inj hs _ _ (C.place_inj hc hpl)
    have hT : T[i] ∈ T := List.getElem_mem hi'
    have h5 := L.link_sym s0 C.good0 _ _ (I.kept T[i].1 T[i].2 hT).1
    rw [h4] at h5
    have h6 := L.link_one s0 C.good0 _ _ _ h5 hl
    apply h2
    rw [← h4, ← h6]; exact hT

/-- Linking the places of the two ends of a link. -/
theorem link_step (C : Ctx L s0 s1 nodes M) (I : Mid L (obs s0) (obs s1) M R s T N) {e f : E} {a b : Nat}
    (hk : Kept H.toPort (obs s0) M e f) (h1 : (e, f) ∉ T) (hR : T.length + 1 ≤ R)
    (ha : Place (obs s0) (obs s1) M (H.toPort e) a) (hb : Place (obs s0) (obs s1) M (H.toPort f) b)
    (hfree : single → (∀ x z, H.toPort x = a → ¬ (obs s).link x z) ∧ ∀ x z, H.toPort x = b → ¬ (obs s).link x z) :
    ∃ u s', H.linkPorts s a b = some (.ok u, s') ∧
      Mid L (obs s0) (obs s1) M R s' (T ++ [(e, f)]) (N ++ [u]) := by
  have hl := hk.1
  have hl' := L.link_sym s0 C.good0 _ _ hl
  obtain ⟨x, hx⟩ := L.link_port s0 C.good0 _ _ hl
  obtain ⟨y, hy⟩ := L.link_port s0 C.good0 _ _ hl'
  obtain ⟨xa, hxa, dxa⟩ := C.place_dir ha hx
  obtain ⟨yb, hyb, dyb⟩ := C.place_dir hb hy
  have hdir : xa.2.1 ≠ yb.2.1 := by rw [dxa, dyb]; exact L.link_dir s0 C.good0 e f _ _ hl hx hy
  have hab : a ≠ b := by
    rintro rfl
    exact hdir (by rw [L.pos_fun s1 C.good1 _ _ _ hxa hyb])
  obtain ⟨u, v, s', c1, c2, c3, c4, c5, c6, c7, c8, c9, c10⟩ := L.link_ok s I.good (R - (T.length + 1))
    (I.cap _ (by omega)) a b xa yb ((I.pos _ _).2 hxa) ((I.pos _ _).2 hyb) hdir hfree
  have huv : u ≠ v := by rintro rfl; exact hab (c4.symm.trans c5)
  have hout : ∀ w, (∀ z, ¬ (obs s).link w z) → w ∉ N.map (·.1) ++ N.map (·.2) := by
    intro w hw hm
    rcases List.mem_append.1 hm with hm | hm
    · obtain ⟨⟨p, q⟩, hp, rfl⟩ := List.mem_map.1 hm
      exact hw q ((I.link _ _).2 (.inr (.inl hp)))
    · obtain ⟨⟨p, q⟩, hp, rfl⟩ := List.mem_map.1 hm
      exact hw p ((I.link _ _).2 (.inr (.inr hp)))
  refine ⟨(u, v), s', c1, c2, ?_, ?_, ?_, ?_, ?_, ?_, ?_, ?_, ?_⟩
  · intro r hr
    simp only [List.length_append, List.length_cons, List.length_nil] at hr
    obtain ⟨u', v', s'', e1, -, e3, -⟩ := L.link_ok s I.good r
      (I.cap _ (by omega)) a b xa yb ((I.pos _ _).2 hxa) ((I.pos _ _).2 hyb) hdir hfree
    rw [c1] at e1
    cases e1
    exact e3
  · intro x; rw [c6, I.node]
  · intro p e; rw [c7, I.pos]
  · rw [List.nodup_append]
    refine ⟨I.nodup, by simp, ?_⟩
    intro t ht t' ht' heq
    simp only [List.mem_singleton] at ht'
    rw [heq, ht'] at ht
    exact h1 ht
  · intro e' f' hm
    rcases List.mem_append.1 hm with hm | hm
    · exact I.kept _ _ hm
    · simp only [List.mem_singleton, Prod.mk.injEq] at hm
      obtain ⟨rfl, rfl⟩ := hm
      exact hk
  · refine List.rel_append I.corr (.cons ⟨?_, ?_⟩ .nil)
    · rw [c4]; exact ha
    · rw [c5]; exact hb
  · have h3 := hout u c8
    have h4 := hout v c9
    rw [List.mem_append, not_or] at h3 h4
    have h5 := I.ends
    rw [List.nodup_append] at h5 ⊢
    simp only [List.map_append, List.map_cons, List.map_nil]
    refine ⟨?_, ?_, ?_⟩
    · rw [List.nodup_append]
      refine ⟨h5.1, by simp, ?_⟩
      intro x hx y hy hxy
      simp only [List.mem_singleton] at hy
      rw [hxy, hy] at hx
      exact h3.1 hx
    · rw [List.nodup_append]
      refine ⟨h5.2.1, by simp, ?_⟩
      intro x hx y hy hxy
      simp only [List.mem_singleton] at hy
      rw [hxy, hy] at hx
      exact h4.2 hx
    · intro x hx y hy hxy
      rw [List.mem_append, List.mem_singleton] at hx hy
      subst hxy
      rcases hx with hx | rfl
      · rcases hy with hy | rfl
        · exact h5.2.2 x hx x hy rfl
        · exact h4.1 hx
      · rcases hy with hy | hy
        · exact h3.2 hy
        · exact huv hy
  · intro p q hm
    rcases List.mem_append.1 hm with hm | hm
    · exact I.new _ _ hm
    · simp only [List.mem_singleton, Prod.mk.injEq] at hm
      obtain ⟨rfl, rfl⟩ := hm
      exact ⟨fun z hz => c8 z ((I.link _ _).2 (.inl hz)), fun z hz => c9 z ((I.link _ _).2 (.inl hz))⟩
  · intro z w
    rw [c10, I.link]
    simp only [List.mem_append, List.mem_singleton, Prod.mk.injEq]
    tauto

/-- One link. -/
theorem copyLink_ok (C : Ctx L s0 s1 nodes M) (I : Mid L (obs s0) (obs s1) M R s T N) {e f : E} {n n' : Nat}
    (hl : (obs s0).link e f) (hn : (n, n') ∈ M) (hen : (obs s0).On H.toPort e n)
    (ho : ¬ ∃ k, (obs s0).pos (H.toPort f) (n, .outgoing, k)) (h1 : (e, f) ∉ T)
    (hR : Kept H.toPort (obs s0) M e f → T.length + 1 ≤ R) :
    (¬ Keep H.toPort (obs s0) M n' f ∧ copyLink H M n' (e, f) s = some (none, s)) ∨
    (Keep H.toPort (obs s0) M n' f ∧ (single → (obs s0).Inside H.toPort nodes f) ∧
      ∃ u s', copyLink H M n' (e, f) s = some (none, s') ∧ Mid L (obs s0) (obs s1) M R s' (T ++ [(e, f)]) (N ++ [u])) ∨
    (single ∧ ¬ (obs s0).Inside H.toPort nodes f ∧
      copyLink H M n' (e, f) s = some (some (.cantCopyBoundary (H.toPort e) (H.toPort f)), s)) := by
  obtain ⟨d, k, he⟩ := id hen
  obtain ⟨⟨m, d', k'⟩, hf⟩ := L.link_port s0 C.good0 _ _ (L.link_sym s0 C.good0 _ _ hl)
  have hes := (I.pos _ _).2 (C.old he)
  have hfs := (I.pos _ _).2 (C.old hf)
  obtain ⟨a, ha⟩ := (C.added.pos_new n n' hn d k).2 ⟨_, he⟩
  have hpa : Place (obs s0) (obs s1) M (H.toPort e) a := ⟨n, d, k, he, .inl ⟨n', hn, ha⟩⟩
  have hrun : copyLink H M n' (e, f) s = match M.lookup m with
      | some new' =>
        if new' < n' then some (none, s)
        else
          match H.portIndex s new' d' k' with
          | none => none
          | some q =>
            match H.linkPorts s a q with
            | some (.ok _, s) => some (none, s)
            | _ => none
      | none =>
        match H.linkPorts s a (H.toPort f) with
        | some (.ok _, s) => some (none, s)
        | some (.error (.alreadyLinked x), s) => some (some (.cantCopyBoundary (H.toPort e) x), s)
        | _ => none := by
    unfold copyLink
    simp only [(L.offset s I.good _ _ _ _ hes).1, L.index s I.good _ _ _ _ ((I.pos _ _).2 ha),
      (L.offset s I.good _ _ _ _ hfs).2, (L.offset s I.good _ _ _ _ hfs).1]
    rfl
  rw [hrun]
  cases hm : M.lookup m with
  | some m' =>
    rw [lookup_iff C.keys] at hm
    simp only
    have hfu : ∀ x x', (x, x') ∈ M → (obs s0).On H.toPort f x → x' = m' := by
      intro x x' hx hfx
      obtain rfl := C.on_fun hfx ⟨_, _, hf⟩
      exact key_fun C.keys hx hm
    by_cases hlt : m' < n'
    · rw [if_pos hlt]
      exact .inl ⟨fun hk => hk m m' hm ⟨_, _, hf⟩ hlt, rfl⟩
    · rw [if_neg hlt]
      have hkeep : Keep H.toPort (obs s0) M n' f := fun x x' hx hfx => by rw [hfu x x' hx hfx]; exact hlt
      have hkept : Kept H.toPort (obs s0) M e f := ⟨hl, n, n', hn, hen, hkeep, ho⟩
      have h2 : (f, e) ∉ T := fun hT => C.kept_asym hkept (I.kept _ _ hT)
      obtain ⟨b, hb⟩ := (C.added.pos_new m m' hm d' k').2 ⟨_, hf⟩
      have hpb : Place (obs s0) (obs s1) M (H.toPort f) b := ⟨m, d', k', hf, .inl ⟨m', hm, hb⟩⟩
      right; left
      refine ⟨hkeep, fun _ => ⟨m, C.mem hm, _, _, hf⟩, ?_⟩
      obtain ⟨u, s', c1, c2⟩ := C.link_step I hkept h1 (hR hkept) hpa hpb fun hs =>
        ⟨C.copy_free hs I hl h1 h2 hn he ha, C.copy_free hs I (L.link_sym s0 C.good0 _ _ hl) h2 h1 hm hf hb⟩
      refine ⟨u, s', ?_, c2⟩
      rw [L.index s I.good _ _ _ _ ((I.pos _ _).2 hb)]
      simp only [c1]
  | none =>
    simp only
    have hout : ∀ x, (m, x) ∉ M := by
      intro x hx
      rw [(lookup_iff C.keys).2 hx] at hm; cases hm
    have hkeep : Keep H.toPort (obs s0) M n' f := by
      intro x x' hx hfx
      obtain rfl := C.on_fun hfx ⟨_, _, hf⟩
      exact absurd hx (hout x')
    have hins : ¬ (obs s0).Inside H.toPort nodes f := by
      rintro ⟨x, hx, hfx⟩
      obtain rfl := C.on_fun hfx ⟨_, _, hf⟩
      obtain ⟨x', hx'⟩ := C.ex hx
      exact hout x' hx'
    have hkept : Kept H.toPort (obs s0) M e f := ⟨hl, n, n', hn, hen, hkeep, ho⟩
    have h2 : (f, e) ∉ T := fun hT => C.kept_asym hkept (I.kept _ _ hT)
    by_cases hs : single
    · right; right
      refine ⟨hs, hins, ?_⟩
      rw [L.link_err hs s I.good a (H.toPort f) _ _ ((I.pos _ _).2 ha) hfs
        (show d ≠ d' from L.link_dir s0 C.good0 e f _ _ hl he hf) (C.copy_free hs I hl h1 h2 hn he ha)
        ⟨f, e, rfl, (I.link _ _).2 (.inl (L.link_sym s0 C.good0 _ _ hl))⟩]
    · right; left
      obtain ⟨u, s', c1, c2⟩ := C.link_step I hkept h1 (hR hkept) hpa ⟨m, d', k', hf, .inr ⟨hout, rfl⟩⟩ fun h => absurd h hs
      exact ⟨hkeep, fun h => absurd h hs, u, s', by simp only [c1], c2⟩

end Ctx

end Verif.CopyIn
