import Verif.Insert.Lemmas
import Verif.Gen.Props
import Verif.View.Props
import Verif.ViewAlgo.Props

/-!
# C61: inserting any view into any graph
-/

namespace Verif.Insert

open Verif (Direction)
open Verif.PG Verif.Multi Verif.View Verif.CopyIn
open Verif.Render (OffsetsOk)
open Verif.Gen (Counts pg_counts mg_counts)

variable {S E F : Type} {V : GView F}
variable {H : Host S E} {Good : S → Prop} {obs : S → GObs E} {cap : S → Nat → Prop} {single : Prop} {maxOff : Nat}

theorem pg_refuses {maxOff : Nat} (hmax : maxOff ≤ 32767) : Refuses (pgHost maxOff) (PG.Reach maxOff) pgObs True := by
  intro _ g hg a b x y hx hy hd h
  by_cases ha : ∃ z, (pgObs g).link a z
  · obtain ⟨z, hz⟩ := ha
    refine ⟨a, ?_, .inl rfl, a, z, rfl, hz⟩
    have hI := hg.inv hmax
    rw [pg_pos hI] at hx hy
    obtain ⟨g', h1, h2⟩ := C10_link_ports_outcome_partial hmax hg a b
    have h3 : linkOutcome g a b = .error (.alreadyLinked a) := by
      unfold linkOutcome
      rw [At.portDirection hI hx, At.portDirection hI hy, show g.portLink? a = some (some z) from hz]
      simp [hd]
    rw [h3] at h1 h2
    obtain rfl := h2 rfl
    exact h1
  · have hfa : ∀ e z, (pgHost maxOff).toPort e = a → ¬ (pgObs g).link e z := by
      rintro e z rfl hz; exact ha ⟨z, hz⟩
    rcases h with ⟨e, z, h1, h2⟩ | h
    · exact absurd h2 (hfa e z h1)
    · exact ⟨b, (pg_law hmax).link_err trivial g hg a b x y hx hy hd hfa h, .inr rfl, h⟩

/-! ## When a copy is interrupted -/

theorem at_fun (off : OffsetsOk V) (ok : V.Ok) {p n m : Nat} {d d' : Direction} {k j : Nat} (h1 : At V p n d k) (h2 : At V p m d' j) :
    n = m ∧ d = d' ∧ k = j := by
  obtain ⟨a1, a2⟩ := h1
  obtain ⟨b1, b2⟩ := h2
  rw [a1] at b1
  obtain rfl := Option.some.inj b1
  have e1 := ((ok.mem_ports _ _ _).1 (List.mem_of_getElem? a2)).2
  have e2 := ((ok.mem_ports _ _ _).1 (List.mem_of_getElem? b2)).2
  rw [e1] at e2
  obtain rfl := Option.some.inj e2
  refine ⟨rfl, rfl, ?_⟩
  obtain ⟨c1, c2⟩ := List.getElem?_eq_some_iff.1 a2
  obtain ⟨d1, d2⟩ := List.getElem?_eq_some_iff.1 b2
  exact (List.Nodup.getElem_inj_iff (ok.ports_nodup n d)).1 (c2.trans d2.symm)

theorem Grown.inj {tp : E → Nat} {o o' : GObs E} {M : List (Nat × Nat)} {T : List (F × F)} (G : Grown tp V o o' M T)
    (hfun : ∀ p x y, o'.pos p x → o'.pos p y → x = y) {p q p' : Nat} (h1 : Stands V o' M p p') (h2 : Stands V o' M q p') : p = q := by
  obtain ⟨n, d, k, n', a1, a2, a3⟩ := h1
  obtain ⟨m, d', j, m', b1, b2, b3⟩ := h2
  obtain ⟨rfl, rfl, rfl⟩ : n' = m' ∧ d = d' ∧ k = j := by simpa using hfun _ _ _ a3 b3
  have : n = m := (Prod.mk.inj (List.inj_on_of_nodup_map G.vals a2 b2 rfl)).1
  subst this
  have := a1.2.symm.trans b1.2
  exact Option.some.inj this

theorem Grown.fun {tp : E → Nat} {o o' : GObs E} {M : List (Nat × Nat)} {T : List (F × F)} (G : Grown tp V o o' M T)
    (ok : V.Ok) (off : OffsetsOk V) (hone : ∀ p q x, o'.pos p x → o'.pos q x → p = q) {p p' q' : Nat}
    (h1 : Stands V o' M p p') (h2 : Stands V o' M p q') : p' = q' := by
  obtain ⟨n, d, k, n', a1, a2, a3⟩ := h1
  obtain ⟨m, d', j, m', b1, b2, b3⟩ := h2
  obtain ⟨rfl, rfl, rfl⟩ := at_fun off ok a1 b1
  have : n' = m' := (Prod.mk.inj (List.inj_on_of_nodup_map G.keys a2 b2 rfl)).2
  subst this
  exact hone _ _ _ a3 b3

theorem single_link (hs : V.Single) (ok : V.Ok) {e f e' f' : F} (h : V.Shows e f) (h' : V.Shows e' f') (hp : V.toPort e = V.toPort e') :
    (e, f) = (e', f') := by
  unfold GView.Shows at h h'
  rw [← hp] at h'
  have := hs (V.toPort e)
  match hl : V.portLinks (V.toPort e) with
  | [] => rw [hl] at h; cases h
  | [x] => rw [hl] at h h'; simp at h h'; rw [h, h']
  | x :: y :: l => rw [hl] at this; simp at this

theorem not_interrupted (L : Law H Good obs cap single maxOff) (ok : V.Ok) (hs : V.Single) {s s' : S} (hg : Good s) (hg' : Good s')
    {p : Nat} (h : Interrupted H.toPort V (obs s) (obs s') p) : False := by
  obtain ⟨M, T, t, A, -, hA, hsub, G, hst, e, z, rfl, hlk⟩ := h
  obtain ⟨N, l1, l2, l3, l4⟩ := G.links
  have hnew : ¬ (obs s).link e z := by
    intro hl
    obtain ⟨x, hx⟩ := L.link_port s hg e z hl
    have hxn := L.pos_node s hg _ _ hx
    have hx' : (obs s').pos (H.toPort e) x := (G.pos_old _ _ fun hm => G.fresh _ hm hxn).2 hx
    have : ∀ q, ¬ Stands V (obs s') M q (H.toPort e) := by
      rintro q ⟨n, d, k, n', -, hm, hp⟩
      have := L.pos_fun s' hg' _ _ _ hx' hp
      subst this
      exact G.fresh _ (List.mem_map.2 ⟨_, hm, rfl⟩) hxn
    rcases hst with h | h <;> exact this _ h
  have hnd : (T ++ [t]).Nodup := hA.nodup.sublist hsub
  have htT : t ∉ T := fun h => (List.nodup_append.1 hnd).2.2 t h t (by simp) rfl
  have hshow : ∀ t' ∈ T ++ [t], V.Shows t'.1 t'.2 ∧ V.portDirection (V.toPort t'.1) = some .outgoing := fun t' h =>
    (hA.mem t'.1 t'.2).1 (hsub.subset h)
  have hmem : ∀ u ∈ N, ∃ t' ∈ T, Stands V (obs s') M (V.toPort t'.1) (H.toPort u.1) ∧ Stands V (obs s') M (V.toPort t'.2) (H.toPort u.2) := by
    intro u hu
    obtain ⟨i, hi, rfl⟩ := List.mem_iff_getElem.1 hu
    have hlen := l1.length_eq
    exact ⟨T[i]'(by omega), List.getElem_mem _, (List.forall₂_iff_get.1 l1).2 i (by omega) hi⟩
  obtain ⟨s1, d1⟩ := hshow t (by simp)
  have e1 : V.portDirection (V.toPort t.2) = some .incoming := by
    rcases shows_rev ok s1 with h | h
    · exact h.2
    · rw [h.1] at d1; cases d1
  have key : ∃ t' ∈ T, (V.toPort t'.1 = V.toPort t.1 ∨ V.toPort t'.2 = V.toPort t.1) ∨ (V.toPort t'.1 = V.toPort t.2 ∨ V.toPort t'.2 = V.toPort t.2) := by
    rcases (l4 e z).1 hlk with h | h | h
    · exact absurd h hnew
    · obtain ⟨t', ht', g1, -⟩ := hmem _ h
      rcases hst with hst | hst
      · exact ⟨t', ht', .inl (.inl (G.inj (L.pos_fun s' hg') g1 hst))⟩
      · exact ⟨t', ht', .inr (.inl (G.inj (L.pos_fun s' hg') g1 hst))⟩
    · obtain ⟨t', ht', -, g1⟩ := hmem _ h
      rcases hst with hst | hst
      · exact ⟨t', ht', .inl (.inr (G.inj (L.pos_fun s' hg') g1 hst))⟩
      · exact ⟨t', ht', .inr (.inr (G.inj (L.pos_fun s' hg') g1 hst))⟩
  obtain ⟨t', ht', hk⟩ := key
  obtain ⟨s2, d2⟩ := hshow t' (by simp [ht'])
  have e2 : V.portDirection (V.toPort t'.2) = some .incoming := by
    rcases shows_rev ok s2 with h | h
    · exact h.2
    · rw [h.1] at d2; cases d2
  rcases hk with (h | h) | (h | h)
  · have : t' = t := single_link hs ok s2 s1 h
    exact htT (this ▸ ht')
  · rw [h, d1] at e2; cases e2
  · rw [h, e1] at d2; cases d2
  · have := single_link hs ok (ok.shows_sym _ _ s2) (ok.shows_sym _ _ s1) h
    simp only [Prod.mk.injEq] at this
    have : t' = t := Prod.ext this.2 this.1
    exact htT (this ▸ ht')

theorem inserted_single (L : Law H Good obs cap single maxOff) (hsg : single) (ok : V.Ok) (off : OffsetsOk V) {s s' : S}
    (hg' : Good s') {M : List (Nat × Nat)} (h : Inserted H.toPort V (obs s) (obs s') M) : V.Single := by
  obtain ⟨-, T, hT, G⟩ := h
  obtain ⟨N, l1, l2, l3, l4⟩ := G.links
  have hlen := l1.length_eq
  have key : ∀ e f e' f', V.Shows e f → V.Shows e' f' → V.toPort e = V.toPort e' → (e, f) = (e', f') := by
    intro e f e' f' h h' hp
    have hor : ∀ e f, V.Shows e f → V.portDirection (V.toPort e) = some .outgoing → ∃ i, ∃ hi : i < T.length, T[i] = (e, f) := by
      intro e f h1 h2
      exact List.mem_iff_getElem.1 ((hT.mem e f).2 ⟨h1, h2⟩)
    have hst := fun i (hi : i < T.length) => (List.forall₂_iff_get.1 l1).2 i hi (by omega)
    have hN := List.nodup_append.1 l2
    rcases shows_rev ok h with hd | hd
    · obtain ⟨i, hi, hti⟩ := hor e f h hd.1
      obtain ⟨j, hj, htj⟩ := hor e' f' h' (hp ▸ hd.1)
      have a := (hst i hi).1
      have b := (hst j hj).1
      simp only [List.get_eq_getElem, hti, htj] at a b
      rw [← hp] at b
      have hE := L.single_inj hsg _ _ (G.fun ok off (L.pos_one s' hg') a b)
      have : i = j := by
        have := (List.Nodup.getElem_inj_iff hN.1 (i := i) (hi := by simp; omega) (j := j) (hj := by simp; omega)).1
        apply this; simpa using hE
      subst this
      exact hti.symm.trans htj
    · obtain ⟨i, hi, hti⟩ := hor f e (ok.shows_sym _ _ h) hd.2
      have hd' : V.portDirection (V.toPort f') = some .outgoing := by
        rcases shows_rev ok h' with k | k
        · rw [← hp, hd.1] at k; cases k.1
        · exact k.2
      obtain ⟨j, hj, htj⟩ := hor f' e' (ok.shows_sym _ _ h') hd'
      have a := (hst i hi).2
      have b := (hst j hj).2
      simp only [List.get_eq_getElem, hti, htj] at a b
      rw [← hp] at b
      have hE := L.single_inj hsg _ _ (G.fun ok off (L.pos_one s' hg') a b)
      have : i = j := by
        have := (List.Nodup.getElem_inj_iff hN.2.1 (i := i) (hi := by simp; omega) (j := j) (hj := by simp; omega)).1
        apply this; simpa using hE
      subst this
      have := hti.symm.trans htj
      simp only [Prod.mk.injEq] at this ⊢
      exact ⟨this.2, this.1⟩
  intro p
  match hl : V.portLinks p with
  | [] => simp
  | [x] => simp
  | (a, b) :: (c, d) :: l =>
    have h1 : V.toPort a = p := ok.from_port p a b (by rw [hl]; simp)
    have h2 : V.toPort c = p := ok.from_port p c d (by rw [hl]; simp)
    have := key a b c d (by unfold GView.Shows; rw [h1, hl]; simp) (by unfold GView.Shows; rw [h2, hl]; simp) (h1.trans h2.symm)
    have hnd := ok.links_nodup p
    rw [hl, this] at hnd
    simp at hnd

/-! ## Counters -/

theorem lists_length {A B : List (F × F)} (hA : V.ListsLinks A) (hB : V.ListsLinks B) : A.length = B.length :=
  ((List.perm_ext_iff_of_nodup hA.nodup hB.nodup).2 fun x => (hA.mem x.1 x.2).trans (hB.mem x.1 x.2).symm).length_eq

theorem inserted_counts (L : Law H Good obs cap single maxOff) (ok : V.Ok) (off : OffsetsOk V) {s s' : S} (hg : Good s) (hg' : Good s')
    {M : List (Nat × Nat)} (h : Inserted H.toPort V (obs s) (obs s') M) {n p l n' p' l' : Nat} (hc : Counts H (obs s) n p l)
    (hc' : Counts H (obs s') n' p' l') {A : List (F × F)} (hA : V.ListsLinks A) :
    n' = n + V.nodeCount ∧ p' = p + V.portCount ∧ l' = l + A.length := by
  obtain ⟨hk, T, hT, G⟩ := h
  obtain ⟨⟨l1, a1, a2, rfl⟩, ⟨l2, b1, b2, rfl⟩, l3, c1, c2, rfl⟩ := hc
  obtain ⟨⟨l1', a1', a2', rfl⟩, ⟨l2', b1', b2', rfl⟩, l3', c1', c2', rfl⟩ := hc'
  have hold : ∀ q x, (obs s).pos q x → (obs s').pos q x := fun q x hx =>
    (G.pos_old _ _ fun hm => G.fresh _ hm (L.pos_node s hg _ _ hx)).2 hx
  refine ⟨?_, ?_, ?_⟩
  · have hM : M.length = V.nodeCount := by
      rw [ok.node_count, ← List.length_map (fun x : Nat × Nat => x.1)]
      refine ((List.perm_ext_iff_of_nodup G.keys ok.nodes_nodup).2 fun x => ?_).length_eq
      rw [ok.mem_nodes, ← hk, List.mem_map]
      constructor
      · rintro ⟨⟨a, b⟩, h, rfl⟩; exact ⟨b, h⟩
      · rintro ⟨b, h⟩; exact ⟨_, h, rfl⟩
    have := ((List.perm_ext_iff_of_nodup a1' (l₂ := l1 ++ M.map (·.2)) (List.nodup_append.2 ⟨a1, G.vals, ?_⟩)).2 fun x => ?_).length_eq
    · rw [this, List.length_append, List.length_map, hM]
    · rintro x hx _ hy rfl
      exact G.fresh x hy ((a2 x).1 hx)
    · rw [a2', G.node, List.mem_append, a2]
  · classical
    have hex : ∀ q ∈ V.portsIter, ∃ q', Stands V (obs s') M q q' := by
      intro q hq
      obtain ⟨m, h1, h2⟩ := (ok.port_iff q).1 ((ok.mem_iter q).1 hq)
      obtain ⟨d, hd⟩ := ok.port_dir q m h1
      obtain ⟨k, -, h3⟩ := off q m d h1 hd
      obtain ⟨m', h4⟩ := (hk m).2 h2
      obtain ⟨q', h5⟩ := (G.pos_new m m' h4 d k).2 ⟨q, h1, h3⟩
      exact ⟨q', m, d, k, m', ⟨h1, h3⟩, h4, h5⟩
    let pl : Nat → Nat := fun q => if h : ∃ q', Stands V (obs s') M q q' then h.choose else 0
    have hpl : ∀ q ∈ V.portsIter, Stands V (obs s') M q (pl q) := by
      intro q hq
      simp only [pl, dif_pos (hex q hq)]
      exact (hex q hq).choose_spec
    have hnd : (V.portsIter.map pl).Nodup := by
      refine List.Nodup.map_on ?_ ok.iter_nodup
      intro q hq r hr he
      exact G.inj (L.pos_fun s' hg') (hpl q hq) (he ▸ hpl r hr)
    have := ((List.perm_ext_iff_of_nodup b1' (l₂ := l2 ++ V.portsIter.map pl) (List.nodup_append.2 ⟨b1, hnd, ?_⟩)).2 fun x => ?_).length_eq
    · rw [this, List.length_append, List.length_map, ok.port_count]
    · rintro x hx _ hy rfl
      obtain ⟨q, hq, rfl⟩ := List.mem_map.1 hy
      obtain ⟨y, hy⟩ := (b2 _).1 hx
      obtain ⟨n, d, k, m, -, h4, h5⟩ := hpl q hq
      have := L.pos_fun s' hg' _ _ _ (hold _ _ hy) h5
      subst this
      exact G.fresh _ (List.mem_map.2 ⟨_, h4, rfl⟩) (L.pos_node s hg _ _ hy)
    · rw [b2', List.mem_append, b2, List.mem_map]
      constructor
      · rintro ⟨⟨m, d, k⟩, hx⟩
        by_cases hm : m ∈ M.map (·.2)
        · right
          obtain ⟨⟨n, m'⟩, h4, rfl⟩ := List.mem_map.1 hm
          obtain ⟨q, hq⟩ := (G.pos_new n m' h4 d k).1 ⟨x, hx⟩
          have hqi : q ∈ V.portsIter := (ok.mem_iter q).2 ((ok.port_iff q).2 ⟨n, hq.1, (hk n).1 ⟨_, h4⟩⟩)
          exact ⟨q, hqi, G.fun ok off (L.pos_one s' hg') (hpl q hqi) ⟨n, d, k, m', hq, h4, hx⟩⟩
        · exact .inl ⟨_, (G.pos_old x _ hm).1 hx⟩
      · rintro (⟨y, hy⟩ | ⟨q, hq, rfl⟩)
        · exact ⟨y, hold _ _ hy⟩
        · obtain ⟨n, d, k, m, -, -, h5⟩ := hpl q hq
          exact ⟨_, h5⟩
  · obtain ⟨N, m1, m2, m3, m4⟩ := G.links
    have hN : N.Nodup := by
      rw [List.nodup_append] at m2
      exact List.Nodup.of_map _ m2.1
    have hdir : ∀ u ∈ N, (∃ n k, (obs s').pos (H.toPort u.1) (n, .outgoing, k)) ∧ ∃ n k, (obs s').pos (H.toPort u.2) (n, .incoming, k) := by
      intro u hu
      obtain ⟨i, hi, rfl⟩ := List.mem_iff_getElem.1 hu
      have hlen := m1.length_eq
      obtain ⟨⟨x, d, k, x', g1, g2, g3⟩, y, d', j, y', k1, k2, k3⟩ := (List.forall₂_iff_get.1 m1).2 i (by omega) hi
      obtain ⟨q1, q2⟩ := (hT.mem _ _).1 (List.getElem_mem (l := T) (n := i) (by omega))
      have e1 := ((ok.mem_ports _ _ _).1 (List.mem_of_getElem? g1.2)).2
      have e2 := ((ok.mem_ports _ _ _).1 (List.mem_of_getElem? k1.2)).2
      simp only [List.get_eq_getElem] at e1 e2 q1 q2
      rw [q2] at e1
      obtain rfl := Option.some.inj e1
      have : d' = .incoming := by
        rcases shows_rev ok q1 with h | h
        · rw [h.2] at e2; exact (Option.some.inj e2).symm
        · rw [h.1] at q2; cases q2
      subst this
      exact ⟨⟨_, _, g3⟩, _, _, k3⟩
    have := ((List.perm_ext_iff_of_nodup c1' (l₂ := l3 ++ N) (List.nodup_append.2 ⟨c1, hN, ?_⟩)).2 ?_).length_eq
    · rw [this, List.length_append, ← m1.length_eq, lists_length hT hA]
    · rintro ⟨e, f⟩ hx _ hy rfl
      exact (m3 e f hy).1 f ((c2 e f).1 hx).1
    · rintro ⟨e, f⟩
      rw [c2', m4, List.mem_append, c2]
      constructor
      · rintro ⟨h | h | h, x, k, hx⟩
        · left
          refine ⟨h, x, k, ?_⟩
          obtain ⟨y, hy⟩ := L.link_port s hg e f h
          have := L.pos_fun s' hg' _ _ _ (hold _ _ hy) hx
          subst this; exact hy
        · exact .inr h
        · obtain ⟨-, x', k', h6⟩ := hdir _ h
          have := L.pos_fun s' hg' _ _ _ hx h6
          simp at this
      · rintro (⟨h, x, k, hx⟩ | h)
        · exact ⟨.inl h, x, k, hold _ _ hx⟩
        · exact ⟨.inr (.inl h), (hdir _ h).1⟩

/-! ## The theorems -/

/-- **C61** Inserting a view with at most one link per port into a `PortGraph` succeeds. The new
graph is the old one with one new node for each node of the view, the same ports, and one link for
each link of the view, at the same offsets of the new nodes. The counters grow by those of the view. -/
theorem C61_portgraph {maxOff : Nat} (hmax : maxOff ≤ 32767) (ok : V.Ok) (off : OffsetsOk V) (hs : V.Single)
    (hle : ∀ n d, V.containsNode n = true → V.numPorts n d ≤ maxOff) {g : PG} (hg : PG.Reach maxOff g) :
    ∃ M g', insertGraph (pgHost maxOff) V g = some (.ok M, g') ∧ PG.Reach maxOff g' ∧ Inserted id V (pgObs g) (pgObs g') M ∧
      g'.nodeCount = g.nodeCount + V.nodeCount ∧ g'.portCount = g.portCount + V.portCount ∧
      ∀ A, V.ListsLinks A → g'.linkCount = g.linkCount + A.length := by
  rcases insertGraph_ok (pg_law hmax) (pg_refuses hmax) ok off hle hg trivial with ⟨M, g', h1, h2, -, h3⟩ | ⟨-, err, g', -, h2, p, -, h3⟩
  · have hcnt := fun A (hA : V.ListsLinks A) =>
      inserted_counts (pg_law hmax) ok off hg h2 h3 (pg_counts hmax hg) (pg_counts hmax h2) hA
    exact ⟨M, g', h1, h2, h3, (hcnt _ (todo_lists ok)).1, (hcnt _ (todo_lists ok)).2.1, fun A hA => (hcnt A hA).2.2⟩
  · exact (not_interrupted (pg_law hmax) ok hs hg h2 h3).elim

/-- **C61** Inserting any other view (of a multiport graph) into a `PortGraph` gives the error
`AlreadyLinked`. All that was in the graph is kept; the graph has copies of some of the nodes and
links of the view. -/
theorem C61_portgraph_refuses {maxOff : Nat} (hmax : maxOff ≤ 32767) (ok : V.Ok) (off : OffsetsOk V) (hs : ¬ V.Single)
    (hle : ∀ n d, V.containsNode n = true → V.numPorts n d ≤ maxOff) {g : PG} (hg : PG.Reach maxOff g) :
    ∃ p g', insertGraph (pgHost maxOff) V g = some (.error (.alreadyLinked p), g') ∧ PG.Reach maxOff g' ∧
      Interrupted id V (pgObs g) (pgObs g') p := by
  rcases insertGraph_ok (pg_law hmax) (pg_refuses hmax) ok off hle hg trivial with ⟨M, g', h1, h2, -, h3⟩ | ⟨-, err, g', h1, h2, p, rfl, h3⟩
  · exact absurd (inserted_single (pg_law hmax) trivial ok off h2 h3) hs
  · exact ⟨p, g', h1, h2, h3⟩

/-- **C61** Inserting any view into a `MultiPortGraph` succeeds if no port can run out of subports
(32767 for each port). -/
theorem C61_multiportgraph {maxOff : Nat} (h2m : 2 ≤ maxOff) (hmax : maxOff ≤ 32767) (ok : V.Ok) (off : OffsetsOk V)
    (hle : ∀ n d, V.containsNode n = true → V.numPorts n d ≤ maxOff) {A : List (F × F)} (hA : V.ListsLinks A)
    {m : MG} (hm : MReach maxOff m) (hroom : MgRoom m A.length) :
    ∃ M m', insertGraph (mgHost maxOff) V m = some (.ok M, m') ∧ MReach maxOff m' ∧ Inserted (fun e => e.1) V (mgObs m) (mgObs m') M ∧
      m'.nodeCount = m.nodeCount + V.nodeCount ∧ m'.portCount = m.portCount + V.portCount ∧ m'.linkCount = m.linkCount + A.length := by
  rcases insertGraph_ok (mg_law h2m hmax) (fun h => h.elim) ok off hle hm (by rw [lists_length (todo_lists ok) hA]; exact hroom) with
    ⟨M, m', h1, h2, -, h3⟩ | ⟨h, -⟩
  · obtain ⟨c1, c2, c3⟩ := inserted_counts (mg_law h2m hmax) ok off hm h2 h3 (mg_counts h2m hmax hm) (mg_counts h2m hmax h2) hA
    exact ⟨M, m', h1, h2, h3, c1, c2, c3⟩
  · exact h.elim

/-! ## The hypotheses can be met -/

/-- Two nodes of a graph, of the seven there, inserted in a graph of three nodes. -/
example := C61_portgraph (V := exV.subgraph [1, 3]) (maxOff := 32767) (by decide)
  (show (exV.subgraph [1, 3]).Ok from (C36_with_nodes exV_ok.1 (order := [1, 3]) (by decide +kernel)).2.2.1)
  (show OffsetsOk (exV.subgraph [1, 3]) from Render.offsets_pg (Algo.dagG_reach.inv (by decide)) 6 11)
  (fun p => Nat.le_trans (List.length_filter_le _ _) (exV_ok.2.2.2.2 p)) (fun n d h => by
    have : ∀ n ∈ (exV.subgraph [1, 3]).nodes, ∀ d ∈ [Direction.incoming, .outgoing], (exV.subgraph [1, 3]).numPorts n d ≤ 32767 := by
      decide +kernel
    exact this n (by
      have ok := (show (exV.subgraph [1, 3]).Ok from (C36_with_nodes exV_ok.1 (order := [1, 3]) (by decide +kernel)).2.2.1)
      exact (ok.mem_nodes n).2 h) d (by cases d <;> simp)) exG_reach

example : (insertGraph (pgHost 32767) (exV.subgraph [1, 3]) exG).map (fun x => (x.1.toOption, x.2.nodeCount, x.2.linkCount)) =
    some (some [(3, 4), (1, 2)], exG.nodeCount + 2, exG.linkCount + 1) := by decide +kernel

/-- A multiport graph with two links at one port is refused by a `PortGraph`. -/
example : (insertGraph (pgHost 32767) (ofMG fanM 0 0) PG.empty).map (fun x => (x.1.toOption, x.2.nodeCount, x.2.linkCount)) =
    some (none, 3, 1) := by decide +kernel

theorem fanM_view : (ofMG fanM 0 0).Ok ∧ OffsetsOk (ofMG fanM 0 0) ∧ ¬ (ofMG fanM 0 0).Single ∧
    ∀ n d, (ofMG fanM 0 0).containsNode n = true → (ofMG fanM 0 0).numPorts n d ≤ 32767 := by
  have h : MOk fanM := (built_reach _).ok (by decide) (by decide)
  have ok := ofMG_ok h 0 0
  refine ⟨ok, Render.offsets_mg h _ _, fun hs => ?_, fun n d hn => ?_⟩
  · have : ((ofMG fanM 0 0).portLinks 0).length = 2 := by decide +kernel
    have := hs 0
    omega
  · have : ∀ n ∈ (ofMG fanM 0 0).nodes, ∀ d ∈ [Direction.incoming, .outgoing], (ofMG fanM 0 0).numPorts n d ≤ 32767 := by
      decide +kernel
    exact this n ((ok.mem_nodes n).2 hn) d (by cases d <;> simp)

example := C61_portgraph_refuses (maxOff := 32767) (by decide) fanM_view.1 fanM_view.2.1 fanM_view.2.2.1 fanM_view.2.2.2 exG_reach

example : (insertGraph (mgHost 32767) (ofMG fanM 0 0) fanM).map (fun x => (x.1.toOption, x.2.nodeCount, x.2.linkCount)) =
    some (some [(2, 6), (1, 5), (0, 4)], 6, 4) := by decide +kernel

#print axioms C61_portgraph
#print axioms C61_portgraph_refuses
#print axioms C61_multiportgraph

end Verif.Insert
