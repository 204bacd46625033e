import Verif.CopyIn.Loop
import Verif.Gen.Spec
import Mathlib.Data.List.Nodup
import Mathlib.Data.List.Forall2

/-!
# The loops of `graph_from_edges`
-/

namespace Verif.Gen

open Verif (Direction)
open Verif.PG Verif.Multi Verif.CopyIn

variable {S E : Type} {H : Host S E} {Good : S → Prop} {obs : S → GObs E} {cap : S → Nat → Prop} {single : Prop} {maxOff : Nat}

theorem portCounts_spec (edges : List Edge) : (∀ v k, k < (portCounts edges).1 v ↔ ∃ e ∈ edges, e.tgtV = v ∧ k ≤ e.tgtP) ∧
    ∀ v k, k < (portCounts edges).2 v ↔ ∃ e ∈ edges, e.srcV = v ∧ k ≤ e.srcP := by
  have key : ∀ (edges : List Edge) (c : (Nat → Nat) × (Nat → Nat)),
      let c' := edges.foldl (fun c e => (addPort c.1 e.tgtV e.tgtP, addPort c.2 e.srcV e.srcP)) c
      (∀ v k, k < c'.1 v ↔ k < c.1 v ∨ ∃ e ∈ edges, e.tgtV = v ∧ k ≤ e.tgtP) ∧
      ∀ v k, k < c'.2 v ↔ k < c.2 v ∨ ∃ e ∈ edges, e.srcV = v ∧ k ≤ e.srcP := by
    intro edges
    induction edges with
    | nil => intro c; simp
    | cons e es ih =>
      intro c
      obtain ⟨h1, h2⟩ := ih (addPort c.1 e.tgtV e.tgtP, addPort c.2 e.srcV e.srcP)
      have ha : ∀ (c : Nat → Nat) v p x k, k < addPort c v p x ↔ k < c x ∨ (v = x ∧ k ≤ p) := by
        intro c v p x k
        unfold addPort
        split
        · rename_i h; subst h; simp; omega
        · rename_i h; simp [Ne.symm h]
      refine ⟨fun v k => ?_, fun v k => ?_⟩
      · simp only [List.foldl_cons]
        rw [h1, ha, List.exists_mem_cons_iff, or_assoc]
      · simp only [List.foldl_cons]
        rw [h2, ha, List.exists_mem_cons_iff, or_assoc]
  obtain ⟨h1, h2⟩ := key edges (fun _ => 0, fun _ => 0)
  exact ⟨fun v k => by rw [portCounts, h1]; simp, fun v k => by rw [portCounts, h2]; simp⟩

/-- The nodes are added, without links. -/
structure Begun (o o1 : GObs E) (c : (Nat → Nat) × (Nat → Nat)) (vs : List Nat) (M : List (Nat × Nat)) : Prop where
  keys : M.map (·.1) = vs
  nodup : (M.map (·.2)).Nodup
  fresh : ∀ x ∈ M.map (·.2), ¬ o.node x
  node : ∀ x, o1.node x ↔ o.node x ∨ x ∈ M.map (·.2)
  pos_old : ∀ p e, e.1 ∉ M.map (·.2) → (o1.pos p e ↔ o.pos p e)
  inputs : ∀ v n, (v, n) ∈ M → ∀ k, (∃ p, o1.pos p (n, .incoming, k)) ↔ k < c.1 v
  outputs : ∀ v n, (v, n) ∈ M → ∀ k, (∃ p, o1.pos p (n, .outgoing, k)) ↔ k < c.2 v
  link : ∀ e f, o1.link e f ↔ o.link e f

theorem addVertices_ok (L : Law H Good obs cap single maxOff) {r : Nat} {c : (Nat → Nat) × (Nat → Nat)}
    (hc : ∀ v, c.1 v ≤ maxOff ∧ c.2 v ≤ maxOff) : ∀ (vs : List Nat) (s : S), Good s → cap s r →
    ∃ M s1, addVertices H c vs s = some (M, s1) ∧ Good s1 ∧ cap s1 r ∧ Begun (obs s) (obs s1) c vs M
  | [], s, hg, hr => ⟨[], s, rfl, hg, hr, rfl, by simp, by simp, by simp, fun _ _ _ => Iff.rfl, by simp, by simp, fun _ _ => Iff.rfl⟩
  | v :: vs, s, hg, hr => by
    obtain ⟨n, s', h1, h2, h3, h4, h5, h6, h7, h8, h9⟩ := L.add s hg r hr _ _ (hc v).1 (hc v).2
    obtain ⟨M, s1, a1, a2, a3, A⟩ := addVertices_ok L hc vs s' h2 h3
    have hnM : n ∉ M.map (·.2) := fun hm => A.fresh _ hm ((h5 n).2 (.inl rfl))
    refine ⟨(v, n) :: M, s1, by simp [addVertices, h1, a1], a2, a3, ?_, ?_, ?_, ?_, ?_, ?_, ?_, ?_⟩
    · simp [A.keys]
    · simp only [List.map_cons, List.nodup_cons]; exact ⟨hnM, A.nodup⟩
    · intro x hx
      simp only [List.map_cons, List.mem_cons] at hx
      rcases hx with rfl | hx
      · exact h4
      · exact fun hc => A.fresh x hx ((h5 x).2 (.inr hc))
    · intro x
      rw [A.node, h5]
      simp only [List.map_cons, List.mem_cons]
      tauto
    · intro p e he
      simp only [List.map_cons, List.mem_cons, not_or] at he
      rw [A.pos_old p e he.2, h6 p e he.1]
    · intro v' n' hm k
      simp only [List.mem_cons, Prod.mk.injEq] at hm
      rcases hm with ⟨rfl, rfl⟩ | hm
      · rw [← h7]
        exact exists_congr fun p => A.pos_old p _ hnM
      · exact A.inputs v' n' hm k
    · intro v' n' hm k
      simp only [List.mem_cons, Prod.mk.injEq] at hm
      rcases hm with ⟨rfl, rfl⟩ | hm
      · rw [← h8]
        exact exists_congr fun p => A.pos_old p _ hnM
      · exact A.outputs v' n' hm k
    · intro e f
      rw [A.link, h9]

theorem lookup_mem {M : List (Nat × Nat)} {v : Nat} (h : v ∈ M.map (·.1)) : ∃ n, M.lookup v = some n ∧ (v, n) ∈ M := by
  induction M with
  | nil => simp at h
  | cons x M ih =>
    obtain ⟨a, b⟩ := x
    rw [List.lookup_cons]
    by_cases hv : v = a
    · subst hv
      exact ⟨b, by simp, by simp⟩
    · simp only [List.map_cons, List.mem_cons, hv, false_or] at h
      obtain ⟨n, h1, h2⟩ := ih h
      refine ⟨n, ?_, List.mem_cons_of_mem _ h2⟩
      simp [beq_eq_false_iff_ne.2 hv, h1]

/-- A link of the list stands for the edge. -/
def For (tp : E → Nat) (o : GObs E) (M : List (Nat × Nat)) (e : Edge) (u : E × E) : Prop :=
  ∃ a b, (e.srcV, a) ∈ M ∧ (e.tgtV, b) ∈ M ∧ o.pos (tp u.1) (a, .outgoing, e.srcP) ∧ o.pos (tp u.2) (b, .incoming, e.tgtP)

theorem linkEdges_ok (L : Law H Good obs cap single maxOff) {M : List (Nat × Nat)} {o1 : GObs E}
    (hinj : (M.map (·.2)).Nodup) (hkeys : (M.map (·.1)).Nodup) :
    ∀ (es done : List Edge) (N : List (E × E)) (s : S), Good s → cap s es.length →
    (∀ e ∈ es, ∃ a b p q, (e.srcV, a) ∈ M ∧ (e.tgtV, b) ∈ M ∧ o1.pos p (a, .outgoing, e.srcP) ∧ o1.pos q (b, .incoming, e.tgtP)) →
    (single → ((done ++ es).map fun e => (e.srcV, e.srcP)).Nodup ∧ ((done ++ es).map fun e => (e.tgtV, e.tgtP)).Nodup) →
    (∀ x, (obs s).node x ↔ o1.node x) → (∀ p x, (obs s).pos p x ↔ o1.pos p x) →
    List.Forall₂ (For H.toPort o1 M) done N → (N.map (·.1) ++ N.map (·.2)).Nodup →
    (∀ z w, (obs s).link z w ↔ (z, w) ∈ N ∨ (w, z) ∈ N) →
    ∃ s' N', linkEdges H M es s = some s' ∧ Good s' ∧ cap s' 0 ∧ (∀ x, (obs s').node x ↔ o1.node x) ∧ (∀ p x, (obs s').pos p x ↔ o1.pos p x) ∧
      List.Forall₂ (For H.toPort o1 M) (done ++ es) N' ∧ (N'.map (·.1) ++ N'.map (·.2)).Nodup ∧
      ∀ z w, (obs s').link z w ↔ (z, w) ∈ N' ∨ (w, z) ∈ N'
  | [], done, N, s, hg, hcap, _, _, hn, hp, hf, hnd, hl => ⟨s, N, rfl, hg, hcap, hn, hp, by simpa using hf, hnd, hl⟩
  | e :: es, done, N, s, hg, hcap, hes, huniq, hn, hp, hf, hnd, hl => by
    obtain ⟨a, b, p, q, ha, hb, hpp, hqq⟩ := hes e (by simp)
    have hfun : ∀ v n n', (v, n) ∈ M → (v, n') ∈ M → n = n' := by
      intro v n n' h1 h2
      exact (Prod.mk.inj (List.inj_on_of_nodup_map hkeys h1 h2 rfl)).2
    have hvals : ∀ v v' n, (v, n) ∈ M → (v', n) ∈ M → v = v' := by
      intro v v' n h1 h2
      exact (Prod.mk.inj (List.inj_on_of_nodup_map hinj h1 h2 rfl)).1
    obtain ⟨a', la, ha'⟩ := lookup_mem (List.mem_map.2 ⟨_, ha, rfl⟩)
    obtain ⟨b', lb, hb'⟩ := lookup_mem (List.mem_map.2 ⟨_, hb, rfl⟩)
    have : a' = a := hfun _ _ _ ha' ha
    subst this
    have : b' = b := hfun _ _ _ hb' hb
    subst this
    have hps := (hp _ _).2 hpp
    have hqs := (hp _ _).2 hqq
    have hfree : single → (∀ e z, H.toPort e = p → ¬ (obs s).link e z) ∧ ∀ e z, H.toPort e = q → ¬ (obs s).link e z := by
      intro hs
      obtain ⟨u1, u2⟩ := huniq hs
      have hmem : ∀ u ∈ N, ∃ d ∈ done, For H.toPort o1 M d u := by
        intro u hu
        obtain ⟨i, hi, rfl⟩ := List.mem_iff_getElem.1 hu
        have hlen := hf.length_eq
        exact ⟨done[i]'(by omega), List.getElem_mem _, (List.forall₂_iff_get.1 hf).2 i (by omega) hi⟩
      refine ⟨fun x z hx hlk => ?_, fun x z hx hlk => ?_⟩
      · rcases (hl x z).1 hlk with hm | hm
        · obtain ⟨d, hd, c1, c2, m1, m2, m3, -⟩ := hmem _ hm
          simp only [hx] at m3
          have := L.pos_fun s hg _ _ _ ((hp _ _).2 m3) hps
          simp only [Prod.mk.injEq, true_and] at this
          obtain ⟨rfl, h2⟩ := this
          have hv := hvals _ _ _ m1 ha
          rw [List.map_append, List.nodup_append] at u1
          exact u1.2.2 _ (List.mem_map.2 ⟨d, hd, rfl⟩) _ (List.mem_map.2 ⟨e, by simp, rfl⟩) (by rw [hv, h2])
        · obtain ⟨d, hd, c1, c2, m1, m2, -, m3⟩ := hmem _ hm
          simp only [hx] at m3
          have := L.pos_fun s hg _ _ _ ((hp _ _).2 m3) hps
          simp at this
      · rcases (hl x z).1 hlk with hm | hm
        · obtain ⟨d, hd, c1, c2, m1, m2, m3, -⟩ := hmem _ hm
          simp only [hx] at m3
          have := L.pos_fun s hg _ _ _ ((hp _ _).2 m3) hqs
          simp at this
        · obtain ⟨d, hd, c1, c2, m1, m2, -, m3⟩ := hmem _ hm
          simp only [hx] at m3
          have := L.pos_fun s hg _ _ _ ((hp _ _).2 m3) hqs
          simp only [Prod.mk.injEq, true_and] at this
          obtain ⟨rfl, h2⟩ := this
          have hv := hvals _ _ _ m2 hb
          rw [List.map_append, List.nodup_append] at u2
          exact u2.2.2 _ (List.mem_map.2 ⟨d, hd, rfl⟩) _ (List.mem_map.2 ⟨e, by simp, rfl⟩) (by rw [hv, h2])
    obtain ⟨x, y, s', k1, k2, k3, k4, k5, k6, k7, k8, k9, k10⟩ :=
      L.link_ok s hg es.length (by simpa using hcap) p q _ _ hps hqs (by simp) hfree
    have hxy : x ≠ y := by
      rintro rfl
      have : p = q := by rw [← k4, ← k5]
      subst this
      have := L.pos_fun s hg _ _ _ hps hqs
      simp at this
    have hxN : x ∉ N.map (·.1) ++ N.map (·.2) := by
      intro hm
      rw [List.mem_append, List.mem_map, List.mem_map] at hm
      rcases hm with ⟨⟨u, v⟩, hm, rfl⟩ | ⟨⟨u, v⟩, hm, rfl⟩
      · exact k8 v ((hl _ _).2 (.inl hm))
      · exact k8 u ((hl _ _).2 (.inr hm))
    have hyN : y ∉ N.map (·.1) ++ N.map (·.2) := by
      intro hm
      rw [List.mem_append, List.mem_map, List.mem_map] at hm
      rcases hm with ⟨⟨u, v⟩, hm, rfl⟩ | ⟨⟨u, v⟩, hm, rfl⟩
      · exact k9 v ((hl _ _).2 (.inl hm))
      · exact k9 u ((hl _ _).2 (.inr hm))
    obtain ⟨s1, N1, r1, r2, r0, r3, r4, r5, r6, r7⟩ := linkEdges_ok L hinj hkeys es (done ++ [e]) (N ++ [(x, y)]) s' k2 k3
      (fun e' he' => hes e' (List.mem_cons_of_mem _ he')) (by simpa using huniq)
      (fun n => (k6 n).trans (hn n)) (fun p' z => (k7 p' z).trans (hp p' z))
      (List.rel_append hf (List.Forall₂.cons ⟨a', b', ha, hb, by rw [k4]; exact hpp, by rw [k5]; exact hqq⟩ .nil))
      (by
        rw [List.nodup_append] at hnd ⊢
        simp only [List.map_append, List.map_cons, List.map_nil, List.mem_append, not_or] at hxN hyN ⊢
        refine ⟨List.nodup_append.2 ⟨hnd.1, by simp, ?_⟩, List.nodup_append.2 ⟨hnd.2.1, by simp, ?_⟩, ?_⟩
        · intro u hu v hv; simp at hv; subst hv; rintro rfl; exact hxN.1 hu
        · intro u hu v hv; simp at hv; subst hv; rintro rfl; exact hyN.2 hu
        · rintro u (hu | hu) v (hv | hv)
          · exact hnd.2.2 u hu v hv
          · simp at hv; subst hv; rintro rfl; exact hyN.1 hu
          · simp at hu; subst hu; rintro rfl; exact hxN.2 hv
          · simp at hu hv; subst hu hv; exact hxy)
      (by
        intro z w
        rw [k10, hl]
        simp only [List.mem_append, List.mem_singleton, Prod.mk.injEq]
        tauto)
    refine ⟨s1, N1, ?_, r2, r0, r3, r4, by simpa using r5, r6, r7⟩
    have h1 := L.index s hg _ _ _ _ hps
    have h2 := L.index s hg _ _ _ _ hqs
    simp only [linkEdges, linkEdge, la, lb, h1, h2, k1, r1]

/-- `graph_from_edges` from a graph that shows nothing. -/
theorem graphFromEdges_ok (L : Law H Good obs cap single maxOff) {s : S} (hg : Good s) {edges : List Edge}
    (hcap : cap s edges.length) {vs : List Nat} (hvs : Vertices edges vs)
    (hoff : ∀ e ∈ edges, e.srcP < maxOff ∧ e.tgtP < maxOff)
    (huniq : single → (edges.map fun e => (e.srcV, e.srcP)).Nodup ∧ (edges.map fun e => (e.tgtV, e.tgtP)).Nodup)
    (hn : ∀ n, ¬ (obs s).node n) (hl : ∀ z w, ¬ (obs s).link z w) :
    ∃ s' M, graphFromEdges H s vs edges = some s' ∧ Good s' ∧ cap s' 0 ∧ Drawn H.toPort (obs s') edges M := by
  obtain ⟨c1, c2⟩ := portCounts_spec edges
  have hc : ∀ v, (portCounts edges).1 v ≤ maxOff ∧ (portCounts edges).2 v ≤ maxOff := by
    intro v
    constructor
    · by_contra hcon
      obtain ⟨e, he, -, hk⟩ := (c1 v maxOff).1 (by omega)
      have := (hoff e he).2
      omega
    · by_contra hcon
      obtain ⟨e, he, -, hk⟩ := (c2 v maxOff).1 (by omega)
      have := (hoff e he).1
      omega
  obtain ⟨M, s1, a1, a2, a3, A⟩ := addVertices_ok L hc vs s hg hcap
  have hkeys : (M.map (·.1)).Nodup := by rw [A.keys]; exact hvs.1
  have hmem : ∀ v, (∃ e ∈ edges, e.srcV = v ∨ e.tgtV = v) → ∃ n, (v, n) ∈ M := by
    intro v hv
    have := (hvs.2 v).2 hv
    rw [← A.keys] at this
    obtain ⟨⟨v', n⟩, hm, rfl⟩ := List.mem_map.1 this
    exact ⟨n, hm⟩
  obtain ⟨s', N, r1, r2, r0, r3, r4, r5, r6, r7⟩ := linkEdges_ok L (o1 := obs s1) A.nodup hkeys edges [] [] s1 a2 a3
    (by
      intro e he
      obtain ⟨a, ha⟩ := hmem e.srcV ⟨e, he, .inl rfl⟩
      obtain ⟨b, hb⟩ := hmem e.tgtV ⟨e, he, .inr rfl⟩
      obtain ⟨p, hp⟩ := (A.outputs _ _ ha e.srcP).2 ((c2 _ _).2 ⟨e, he, rfl, Nat.le_refl _⟩)
      obtain ⟨q, hq⟩ := (A.inputs _ _ hb e.tgtP).2 ((c1 _ _).2 ⟨e, he, rfl, Nat.le_refl _⟩)
      exact ⟨a, b, p, q, ha, hb, hp, hq⟩)
    (by simpa using huniq) (fun _ => Iff.rfl) (fun _ _ => Iff.rfl) .nil (by simp)
    (by intro z w; rw [A.link]; simp [hl])
  refine ⟨s', M, by simp [graphFromEdges, a1, r1], r2, r0, ?_, A.nodup, ?_, ?_, ?_, N, ?_, r6, r7⟩
  · rw [A.keys]; exact hvs
  · intro n
    rw [r3, A.node]
    simp [hn]
  · intro v n hm k
    simp only [r4]
    rw [A.inputs v n hm, c1]
  · intro v n hm k
    simp only [r4]
    rw [A.outputs v n hm, c2]
  · refine List.Forall₂.imp ?_ (by simpa using r5)
    rintro e u ⟨a, b, h1, h2, h3, h4⟩
    exact ⟨a, b, h1, h2, (r4 _ _).2 h3, (r4 _ _).2 h4⟩

end Verif.Gen
