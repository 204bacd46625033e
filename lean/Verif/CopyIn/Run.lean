import Verif.CopyIn.Steps

/-!
# The whole of `copy_in_parent`
-/

namespace Verif.CopyIn

open Verif (Direction)
open Verif.PG Verif.Multi

variable {S E : Type}
variable {H : Host S E} {Good : S → Prop} {obs : S → GObs E} {cap : S → Nat → Prop} {single : Prop} {maxOff : Nat}
variable {L : Law H Good obs cap single maxOff} {s0 s1 : S} {nodes : List Nat} {M : List (Nat × Nat)} {R : Nat}

namespace Ctx

theorem copyLinks_ok (C : Ctx L s0 s1 nodes M)
    (hR : ∀ T : List (E × E), T.Nodup → (∀ e f, (e, f) ∈ T → Kept H.toPort (obs s0) M e f) → T.length ≤ R)
    {n n' : Nat} (hn : (n, n') ∈ M) : ∀ (ls : List (E × E)) (s : S) (T N : List (E × E)),
    Mid L (obs s0) (obs s1) M R s T N → ls.Nodup → (∀ l ∈ ls, l ∉ T) →
    (∀ e f, (e, f) ∈ ls → (obs s0).link e f ∧ (obs s0).On H.toPort e n ∧ ¬ ∃ k, (obs s0).pos (H.toPort f) (n, .outgoing, k)) →
    (∃ s' T' N', copyLinks H M n' ls s = some (none, s') ∧ Mid L (obs s0) (obs s1) M R s' T' N' ∧
      (∀ e f, (e, f) ∈ T' ↔ (e, f) ∈ T ∨ ((e, f) ∈ ls ∧ Keep H.toPort (obs s0) M n' f)) ∧
      (single → ∀ e f, (e, f) ∈ ls → (obs s0).Inside H.toPort nodes f)) ∨
    (single ∧ ∃ e f s' T' N', (e, f) ∈ ls ∧ ¬ (obs s0).Inside H.toPort nodes f ∧
      copyLinks H M n' ls s = some (some (.cantCopyBoundary (H.toPort e) (H.toPort f)), s') ∧
      Mid L (obs s0) (obs s1) M R s' T' N')
  | [], s, T, N, I, _, _, _ => .inl ⟨s, T, N, rfl, I, by simp, by simp⟩
  | (e, f) :: ls, s, T, N, I, hnd, hT, hls => by
    rw [List.nodup_cons] at hnd
    obtain ⟨h1, h2, h3⟩ := hls e f (List.mem_cons_self ..)
    have hR' : Kept H.toPort (obs s0) M e f → T.length + 1 ≤ R := by
      intro hk
      have := hR (T ++ [(e, f)]) (by
        rw [List.nodup_append]
        refine ⟨I.nodup, by simp, ?_⟩
        intro t ht t' ht' heq
        simp only [List.mem_singleton] at ht'
        rw [heq, ht'] at ht
        exact hT _ (List.mem_cons_self ..) ht) (by
        intro e' f' hm
        rcases List.mem_append.1 hm with hm | hm
        · exact I.kept _ _ hm
        · simp only [List.mem_singleton, Prod.mk.injEq] at hm
          obtain ⟨rfl, rfl⟩ := hm
          exact hk)
      simpa using this
    rcases C.copyLink_ok I h1 hn h2 h3 (hT _ (List.mem_cons_self ..)) hR' with ⟨h4, h5⟩ | ⟨h4, h5, u, s', h6, h7⟩ | ⟨h4, h5, h6⟩
    · have hrun : copyLinks H M n' ((e, f) :: ls) s = copyLinks H M n' ls s := by
        rw [copyLinks, h5]
      rw [hrun]
      rcases copyLinks_ok C hR hn ls s T N I hnd.2 (fun l hl => hT l (List.mem_cons_of_mem _ hl))
        (fun e f h => hls e f (List.mem_cons_of_mem _ h)) with ⟨s', T', N', c1, c2, c3, c4⟩ | ⟨hs, e', f', s', T', N', c1, c2, c3, c4⟩
      · refine .inl ⟨s', T', N', c1, c2, ?_, ?_⟩
        · intro x y
          rw [c3, List.mem_cons, Prod.mk.injEq]
          constructor
          · rintro (h | ⟨h, h'⟩)
            · exact .inl h
            · exact .inr ⟨.inr h, h'⟩
          · rintro (h | ⟨⟨rfl, rfl⟩ | h, h'⟩)
            · exact .inl h
            · exact absurd h' h4
            · exact .inr ⟨h, h'⟩
        · intro hs x y hm
          rcases List.mem_cons.1 hm with hm | hm
          · cases hm
            unfold Keep at h4
            simp only [not_forall, not_not] at h4
            obtain ⟨m, m', hm, hfm, -⟩ := h4
            exact ⟨m, C.mem hm, hfm⟩
          · exact c4 hs x y hm
      · exact .inr ⟨hs, e', f', s', T', N', List.mem_cons_of_mem _ c1, c2, c3, c4⟩
    · have hrun : copyLinks H M n' ((e, f) :: ls) s = copyLinks H M n' ls s' := by
        rw [copyLinks, h6]
      rw [hrun]
      rcases copyLinks_ok C hR hn ls s' _ _ h7 hnd.2 (by
          intro l hl hm
          rcases List.mem_append.1 hm with hm | hm
          · exact hT l (List.mem_cons_of_mem _ hl) hm
          · rw [List.mem_singleton] at hm
            rw [hm] at hl; exact hnd.1 hl)
        (fun e f h => hls e f (List.mem_cons_of_mem _ h)) with ⟨s'', T', N', c1, c2, c3, c4⟩ | ⟨hs, e', f', s', T', N', c1, c2, c3, c4⟩
      · refine .inl ⟨s'', T', N', c1, c2, ?_, ?_⟩
        · intro x y
          rw [c3, List.mem_append, List.mem_singleton, List.mem_cons, Prod.mk.injEq]
          constructor
          · rintro ((h | ⟨rfl, rfl⟩) | ⟨h, h'⟩)
            · exact .inl h
            · exact .inr ⟨.inl ⟨rfl, rfl⟩, h4⟩
            · exact .inr ⟨.inr h, h'⟩
          · rintro (h | ⟨⟨rfl, rfl⟩ | h, h'⟩)
            · exact .inl (.inl h)
            · exact .inl (.inr ⟨rfl, rfl⟩)
            · exact .inr ⟨h, h'⟩
        · intro hs x y hm
          rcases List.mem_cons.1 hm with hm | hm
          · cases hm; exact h5 hs
          · exact c4 hs x y hm
      · exact .inr ⟨hs, e', f', s', T', N', List.mem_cons_of_mem _ c1, c2, c3, c4⟩
    · exact .inr ⟨h4, e, f, s, T, N, List.mem_cons_self .., h5, by rw [copyLinks, h6], I⟩

/-- The links of a node of the subgraph do not change. -/
theorem all_old (C : Ctx L s0 s1 nodes M) {s : S} {T N : List (E × E)} (I : Mid L (obs s0) (obs s1) M R s T N) {n : Nat}
    (hn : n ∈ nodes) : ∃ ls, H.allLinks s n = some ls ∧ ls.Nodup ∧ ∀ e f, (e, f) ∈ ls ↔
      (obs s0).link e f ∧ (obs s0).On H.toPort e n ∧ ¬ ∃ k, (obs s0).pos (H.toPort f) (n, .outgoing, k) := by
  have hno := C.inside n hn
  have hnM : n ∉ M.map (·.2) := fun h => C.added.fresh n h hno
  obtain ⟨ls, h1, h2, h3⟩ := L.all s I.good n ((I.node n).2 ((C.added.node n).2 (.inl hno)))
  have hpos : ∀ p d k, (obs s).pos p (n, d, k) ↔ (obs s0).pos p (n, d, k) := fun p d k => by
    rw [I.pos, C.added.pos_old p _ hnM]
  have hplace : ∀ p q d k, Place (obs s0) (obs s1) M p q → ¬ (obs s0).pos q (n, d, k) := by
    rintro p q d k ⟨m, d', k', g1, ⟨m', g2, g3⟩ | ⟨g2, rfl⟩⟩ hq
    · exact C.new_ne g2 g3 _ hq
    · have := L.pos_fun s0 C.good0 _ _ _ g1 hq
      cases this
      obtain ⟨x, hx⟩ := C.ex hn
      exact g2 x hx
  refine ⟨ls, h1, h2, fun e f => ?_⟩
  rw [h3]
  unfold GObs.On
  simp only [hpos]
  constructor
  · rintro ⟨g1, ⟨d, k, g2⟩, g3⟩
    refine ⟨?_, ⟨d, k, g2⟩, g3⟩
    rcases (I.link e f).1 g1 with g4 | g4 | g4
    · exact g4
    · obtain ⟨i, hi, hix⟩ := List.mem_iff_getElem.1 g4
      have hi' : i < T.length := by rw [I.corr.length_eq]; exact hi
      have hc := (I.corr.get hi' hi).1
      simp only [List.get_eq_getElem, hix] at hc
      exact absurd g2 (hplace _ _ _ _ hc)
    · obtain ⟨i, hi, hix⟩ := List.mem_iff_getElem.1 g4
      have hi' : i < T.length := by rw [I.corr.length_eq]; exact hi
      have hc := (I.corr.get hi' hi).2
      simp only [List.get_eq_getElem, hix] at hc
      exact absurd g2 (hplace _ _ _ _ hc)
  · rintro ⟨g1, g2, g3⟩
    exact ⟨(I.link e f).2 (.inl g1), g2, g3⟩

theorem copyNodes_ok (C : Ctx L s0 s1 nodes M)
    (hR : ∀ T : List (E × E), T.Nodup → (∀ e f, (e, f) ∈ T → Kept H.toPort (obs s0) M e f) → T.length ≤ R) :
    ∀ (ps : List (Nat × Nat)) (s : S) (T N : List (E × E)), Mid L (obs s0) (obs s1) M R s T N → (ps.map (·.1)).Nodup →
    (∀ x ∈ ps, x ∈ M) → (∀ e f, (e, f) ∈ T → ∀ x ∈ ps, ¬ (obs s0).On H.toPort e x.1) →
    (∃ s' T' N', copyNodes H M ps s = some (none, s') ∧ Mid L (obs s0) (obs s1) M R s' T' N' ∧
      (∀ e f, (e, f) ∈ T' ↔ (e, f) ∈ T ∨ (Kept H.toPort (obs s0) M e f ∧ ∃ x ∈ ps, (obs s0).On H.toPort e x.1)) ∧
      (single → ∀ e f, (obs s0).link e f → (∃ x ∈ ps, (obs s0).On H.toPort e x.1) → (obs s0).Inside H.toPort nodes f)) ∨
    (single ∧ ∃ e f s' T' N', BoundaryLink H.toPort (obs s0) nodes e f ∧
      copyNodes H M ps s = some (some (.cantCopyBoundary (H.toPort e) (H.toPort f)), s') ∧
      Mid L (obs s0) (obs s1) M R s' T' N')
  | [], s, T, N, I, _, _, _ => .inl ⟨s, T, N, rfl, I, by simp, by simp⟩
  | (n, n') :: ps, s, T, N, I, hnd, hM, hT => by
    simp only [List.map_cons, List.nodup_cons] at hnd
    have hn := hM _ (List.mem_cons_self ..)
    obtain ⟨ls, h1, h2, h3⟩ := C.all_old I (C.mem hn)
    have hkeep : ∀ e f, ((e, f) ∈ ls ∧ Keep H.toPort (obs s0) M n' f) ↔ Kept H.toPort (obs s0) M e f ∧ (obs s0).On H.toPort e n := by
      intro e f
      rw [h3]
      constructor
      · rintro ⟨⟨g1, g2, g3⟩, g4⟩
        exact ⟨⟨g1, n, n', hn, g2, g4, g3⟩, g2⟩
      · rintro ⟨⟨g1, m, m', g2, g3, g4, g5⟩, g6⟩
        obtain rfl := C.on_fun g3 g6
        obtain rfl := key_fun C.keys g2 hn
        exact ⟨⟨g1, g6, g5⟩, g4⟩
    rcases C.copyLinks_ok hR hn ls s T N I h2 (by
      rintro ⟨e, f⟩ hl hm
      exact hT e f hm _ (List.mem_cons_self ..) ((h3 e f).1 hl).2.1) (fun e f h => (h3 e f).1 h) with
      ⟨s', T', N', c1, c2, c3, c4⟩ | ⟨hs, e, f, s', T', N', c1, c2, c3, c4⟩
    · have hrun : copyNodes H M ((n, n') :: ps) s = copyNodes H M ps s' := by
        rw [copyNodes, h1]; simp only; rw [c1]
      rw [hrun]
      rcases copyNodes_ok C hR ps s' T' N' c2 hnd.2 (fun x hx => hM x (List.mem_cons_of_mem _ hx)) (by
        intro e f hm x hx hen
        rcases (c3 e f).1 hm with hm | hm
        · exact hT e f hm x (List.mem_cons_of_mem _ hx) hen
        · rw [hkeep] at hm
          obtain rfl := C.on_fun hm.2 hen
          exact hnd.1 (List.mem_map.2 ⟨x, hx, rfl⟩)) with ⟨s'', T'', N'', d1, d2, d3, d4⟩ | ⟨hs, e, f, s'', T'', N'', d1, d2, d3⟩
      · refine .inl ⟨s'', T'', N'', d1, d2, ?_, ?_⟩
        · intro e f
          rw [d3, c3, hkeep]
          constructor
          · rintro ((g | ⟨g1, g2⟩) | ⟨g1, x, g2, g3⟩)
            · exact .inl g
            · exact .inr ⟨g1, _, List.mem_cons_self .., g2⟩
            · exact .inr ⟨g1, x, List.mem_cons_of_mem _ g2, g3⟩
          · rintro (g | ⟨g1, x, g2, g3⟩)
            · exact .inl (.inl g)
            · rcases List.mem_cons.1 g2 with rfl | g2
              · exact .inl (.inr ⟨g1, g3⟩)
              · exact .inr ⟨g1, x, g2, g3⟩
        · rintro hs e f hl ⟨x, hx, hen⟩
          rcases List.mem_cons.1 hx with rfl | hx
          · by_cases ho : ∃ k, (obs s0).pos (H.toPort f) (n, .outgoing, k)
            · obtain ⟨k, hk⟩ := ho
              exact ⟨n, C.mem hn, _, _, hk⟩
            · exact c4 hs e f ((h3 e f).2 ⟨hl, hen, ho⟩)
          · exact d4 hs e f hl ⟨x, hx, hen⟩
      · exact .inr ⟨hs, e, f, s'', T'', N'', d1, d2, d3⟩
    · refine .inr ⟨hs, e, f, s', T', N', ⟨((h3 e f).1 c1).1, ⟨n, C.mem hn, ((h3 e f).1 c1).2.1⟩, c2⟩, ?_, c4⟩
      rw [copyNodes, h1]; simp only; rw [c3]

end Ctx

theorem removeAll_ok (L : Law H Good obs cap single maxOff) : ∀ (ns : List Nat) (s : S), Good s → ns.Nodup → (∀ n ∈ ns, (obs s).node n) →
    ∃ s', removeAll H ns s = some s' ∧ Good s' ∧ (∀ x, (obs s').node x ↔ (obs s).node x ∧ x ∉ ns) ∧
      (∀ p e, (obs s').pos p e ↔ (obs s).pos p e ∧ e.1 ∉ ns) ∧
      ∀ e f, (obs s').link e f ↔ (obs s).link e f ∧ (∀ x, (obs s).pos (H.toPort e) x → x.1 ∉ ns) ∧
        ∀ x, (obs s).pos (H.toPort f) x → x.1 ∉ ns
  | [], s, hg, _, _ => ⟨s, rfl, hg, by simp, by simp, by simp⟩
  | n :: ns, s, hg, hnd, hin => by
    rw [List.nodup_cons] at hnd
    obtain ⟨s', h1, h2, h3, h4, h5⟩ := L.remove s hg n (hin n (List.mem_cons_self ..))
    obtain ⟨s'', c1, c2, c3, c4, c5⟩ := removeAll_ok L ns s' h2 hnd.2 (fun x hx =>
      (h3 x).2 ⟨hin x (List.mem_cons_of_mem _ hx), by rintro rfl; exact hnd.1 hx⟩)
    refine ⟨s'', by rw [removeAll, h1]; exact c1, c2, ?_, ?_, ?_⟩
    · intro x; rw [c3, h3, List.mem_cons, not_or, and_assoc]
    · intro p e; rw [c4, h4, List.mem_cons, not_or, and_assoc]
    · intro e f
      rw [c5, h5]
      simp only [h4, List.mem_cons, not_or]
      constructor
      · rintro ⟨⟨g1, g2, g3⟩, g4, g5⟩
        exact ⟨g1, fun x hx => ⟨g2 x hx, g4 x ⟨hx, g2 x hx⟩⟩, fun x hx => ⟨g3 x hx, g5 x ⟨hx, g3 x hx⟩⟩⟩
      · rintro ⟨g1, g2, g3⟩
        exact ⟨⟨g1, fun x hx => (g2 x hx).1, fun x hx => (g3 x hx).1⟩, fun x hx => (g2 x hx.1).2, fun x hx => (g3 x hx.1).2⟩

/-- The links of the nodes, as listed by `all_links`. -/
def linkLists (H : Host S E) (s : S) (nodes : List Nat) : List (E × E) := nodes.flatMap fun n => (H.allLinks s n).getD []

theorem copyInParent_ok (L : Law H Good obs cap single maxOff) {s0 : S} (hg : Good s0) {nodes : List Nat} (hnd : nodes.Nodup)
    (hin : ∀ n ∈ nodes, (obs s0).node n) (hle : ∀ n ∈ nodes, ∀ d, H.numPorts s0 n d ≤ maxOff)
    (hcap : ∀ r, r ≤ (linkLists H s0 nodes).length → cap s0 r)
    {order undo : List (Nat × Nat) → List (Nat × Nat)} (hord : ∀ l, (order l).Perm l) (hundo : ∀ l, (undo l).Perm l) :
    ((¬ single ∨ ∀ e f, ¬ BoundaryLink H.toPort (obs s0) nodes e f) →
      ∃ M s', copyInParent H order undo nodes s0 = some (.ok M, s') ∧ Good s' ∧ Copied H.toPort (obs s0) (obs s') nodes M) ∧
    ((single ∧ ∃ e f, BoundaryLink H.toPort (obs s0) nodes e f) →
      ∃ e f s', copyInParent H order undo nodes s0 = some (.error (.cantCopyBoundary (H.toPort e) (H.toPort f)), s') ∧
        BoundaryLink H.toPort (obs s0) nodes e f ∧ Good s' ∧ Same (obs s0) (obs s')) := by
  obtain ⟨M, s1, a1, a2, -, A⟩ := addCopies_ok L nodes s0 hg (hcap 0 (by omega)) hnd hin hle
  have a3 : ∀ r, r ≤ (linkLists H s0 nodes).length → cap s1 r := by
    intro r hr
    obtain ⟨M', s1', b1, -, b3, -⟩ := addCopies_ok L nodes s0 hg (hcap r hr) hnd hin hle
    rw [a1] at b1; cases b1; exact b3
  have C : Ctx L s0 s1 nodes M := ⟨hg, a2, A, hnd, hin⟩
  have hR : ∀ T : List (E × E), T.Nodup → (∀ e f, (e, f) ∈ T → Kept H.toPort (obs s0) M e f) → T.length ≤ (linkLists H s0 nodes).length := by
    intro T hT hk
    apply List.Subperm.length_le
    apply List.subperm_of_subset hT
    rintro ⟨e, f⟩ hm
    obtain ⟨hl, n, n', hn, hen, -, ho⟩ := hk e f hm
    obtain ⟨ls, h1, -, h3⟩ := L.all s0 hg n (hin n (C.mem hn))
    refine List.mem_flatMap.2 ⟨n, C.mem hn, ?_⟩
    rw [h1]
    exact (h3 e f).2 ⟨hl, hen, ho⟩
  have I0 : Mid L (obs s0) (obs s1) M (linkLists H s0 nodes).length s1 [] [] :=
    ⟨a2, fun r hr => a3 r (by simpa using hr), fun _ => Iff.rfl, fun _ _ => Iff.rfl, by simp, by simp, .nil, by simp, by simp, fun z w => by simp [A.link]⟩
  have hpm := hord M
  have hmem : ∀ {e : E}, (∃ x ∈ order M, (obs s0).On H.toPort e x.1) ↔ (obs s0).Inside H.toPort nodes e := by
    intro e
    constructor
    · rintro ⟨⟨n, n'⟩, hx, he⟩
      exact ⟨n, C.mem (hpm.mem_iff.1 hx), he⟩
    · rintro ⟨n, hn, he⟩
      obtain ⟨n', hn'⟩ := C.ex hn
      exact ⟨(n, n'), hpm.mem_iff.2 hn', he⟩
  rcases C.copyNodes_ok hR (order M) s1 [] [] I0 ((hpm.map _).nodup_iff.2 C.keys) (fun x hx => hpm.mem_iff.1 hx) (by simp) with
    ⟨s', T, N, c1, I, c3, c4⟩ | ⟨hs, e, f, s', T, N, c1, c2, I⟩
  · refine ⟨fun _ => ⟨M, s', ?_, I.good, ?_⟩, ?_⟩
    · unfold copyInParent; rw [a1]; simp only; rw [c1]
    · have hplace : ∀ p q, Place (obs s0) (obs s1) M p q ↔ Place (obs s0) (obs s') M p q := by
        intro p q; unfold Place; simp only [I.pos]
      have hin' : ∀ e f, Kept H.toPort (obs s0) M e f → (obs s0).Inside H.toPort nodes e := by
        rintro e f ⟨-, n, n', hn, hen, -⟩
        exact ⟨n, C.mem hn, hen⟩
      have hT : ∀ e f, (e, f) ∈ T ↔ Kept H.toPort (obs s0) M e f := by
        intro e f
        rw [c3]
        simp only [List.not_mem_nil, false_or, hmem]
        exact ⟨fun h => h.1, fun h => ⟨h, hin' e f h⟩⟩
      refine ⟨A.keys, ⟨A.nodup, A.fresh⟩, fun x => by rw [I.node, A.node], fun p e he => by rw [I.pos, A.pos_old p e he],
        fun n n' hn d k => by simp only [I.pos]; exact A.pos_new n n' hn d k, T, N, ?_, ?_, I.ends, I.new, I.link⟩
      · refine ⟨I.nodup, ?_, ?_⟩
        · intro e f hm
          have hk := (hT e f).1 hm
          exact ⟨hk.1, .inl (hin' e f hk)⟩
        · intro e f hl ht
          rw [hT, hT]
          rcases C.touching hl ht with h | h
          · exact .inl ⟨h, C.kept_asym h⟩
          · exact .inr ⟨C.kept_asym h, h⟩
      · simp only [← hplace]; exact I.corr
    · rintro ⟨hs, e, f, h1, h2, h3⟩
      exact absurd (c4 hs e f h1 (hmem.2 h2)) h3
  · refine ⟨fun h => absurd c1 (h.resolve_left (fun hn => hn hs) e f), fun _ => ?_⟩
    have hup := hundo M
    have hval : ∀ x, x ∈ (undo M).map (·.2) ↔ x ∈ M.map (·.2) := fun x => (hup.map (·.2)).mem_iff
    obtain ⟨s'', d1, d2, d3, d4, d5⟩ := removeAll_ok L ((undo M).map (·.2)) s' I.good ((hup.map _).nodup_iff.2 A.nodup) (by
      intro x hx
      rw [I.node, A.node]
      exact .inr ((hval x).1 hx))
    refine ⟨e, f, s'', ?_, c1, d2, ?_, ?_, ?_⟩
    · unfold copyInParent; rw [a1]; simp only; rw [c2]; simp only; rw [d1]; rfl
    · intro x
      rw [d3, I.node, A.node, hval]
      constructor
      · rintro ⟨g1 | g1, g2⟩
        · exact g1
        · exact absurd g1 g2
      · intro g1
        exact ⟨.inl g1, fun g2 => A.fresh x g2 g1⟩
    · intro p x
      rw [d4, I.pos, hval]
      constructor
      · rintro ⟨g1, g2⟩; exact (A.pos_old p x g2).1 g1
      · intro g1
        have g2 : x.1 ∉ M.map (·.2) := fun h => A.fresh _ h (L.pos_node s0 hg p x g1)
        exact ⟨(A.pos_old p x g2).2 g1, g2⟩
    · intro u v
      rw [d5, I.link]
      simp only [I.pos, hval]
      have hbad : ∀ u v, (u, v) ∈ N → ∃ x, (obs s1).pos (H.toPort u) x ∧ x.1 ∈ M.map (·.2) := by
        intro u v huv
        obtain ⟨i, hi, hix⟩ := List.mem_iff_getElem.1 huv
        have hi' : i < T.length := by rw [I.corr.length_eq]; exact hi
        have hc := (I.corr.get hi' hi).1
        simp only [List.get_eq_getElem, hix] at hc
        obtain ⟨-, m, m', hm, ⟨d0, k0, hem⟩, -⟩ := I.kept T[i].1 T[i].2 (List.getElem_mem hi')
        obtain ⟨n, d, k, g1, ⟨n', g2, g3⟩ | ⟨g2, g3⟩⟩ := hc
        · exact ⟨_, g3, C.val g2⟩
        · have := L.pos_fun s0 hg _ _ _ g1 hem
          cases this
          exact absurd hm (g2 m')
      constructor
      · rintro ⟨g1 | g1 | g1, g2, g3⟩
        · exact g1
        · obtain ⟨x, h1, h2⟩ := hbad _ _ g1
          exact absurd h2 (g2 x h1)
        · obtain ⟨x, h1, h2⟩ := hbad _ _ g1
          exact absurd h2 (g3 x h1)
      · intro g1
        have key : ∀ u v, (obs s0).link u v → ∀ x, (obs s1).pos (H.toPort u) x → x.1 ∉ M.map (·.2) := by
          intro u v hl x hx hm
          obtain ⟨y, hy⟩ := L.link_port s0 hg _ _ hl
          rw [L.pos_fun s1 a2 _ _ _ hx (C.old hy)] at hm
          exact A.fresh _ hm (L.pos_node s0 hg _ _ hy)
        exact ⟨.inl g1, key u v g1, key v u (L.link_sym s0 hg _ _ g1)⟩

end Verif.CopyIn
