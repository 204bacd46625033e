import Verif.Multi.Trans

/-!
# Effects of the operations of a `MultiPortGraph`
-/

namespace Verif.Multi

open Verif (Direction)
open Verif.PG Verif.View

variable {m : MG} {D : Nat → Prop}

/-! ## Links of unmarked ports -/

/-- The positions and the links of marked ports do not change. -/
theorem same_minv (h : MInv m D) {g' : PG} (hI' : Inv g') (hS : SameAt m.graph g')
    (hl : ∀ p q, m.multi p = true → (Lk g' p q ↔ Lk m.graph p q)) :
    MInv { m with graph := g' } D ∧ ∀ q e, Sub { m with graph := g' } q e ↔ Sub m q e := by
  have hC : ∀ c d cp, CopyOf m c d cp → CopyOf { m with graph := g' } c d cp := by
    intro c d cp hC
    exact ⟨hC.copy, (hS.at_iff _ _).2 hC.port, hC.flag, by simp only [hS.num]; exact hC.one,
      by simp only [hS.num]; exact hC.two, fun q k hq => hC.subs q k ((hS.at_iff _ _).1 hq)⟩
  have hM : MInv { m with graph := g' } D := by
    refine ⟨hI', ?_, ?_, ?_, ?_, h.copies, ?_⟩
    · intro c hc; simp only [hS.node]; exact h.copyLive c hc
    · intro p hp hD
      obtain ⟨q, e, f, h1, h2, h3, h4, h5⟩ := h.partner p hp hD
      exact ⟨q, e, f, (hS.at_iff _ _).2 h1, (hS.at_iff _ _).2 h2, (hl p q hp).2 h3, h4, h5⟩
    · intro p hp
      obtain ⟨e, h1, h2, h3, h4⟩ := h.orphan p hp
      exact ⟨e, (hS.at_iff _ _).2 h1, h2, h3, fun q hc => h4 q ((hl p q h3).1 hc)⟩
    · intro c hc
      obtain ⟨d, cp, hC'⟩ := h.shape c hc
      exact ⟨d, cp, hC _ _ _ hC'⟩
    · refine h.subs.congr fun q => ?_
      unfold SubPort
      simp only [hS.at_iff]
  refine ⟨hM, fun q e => ?_⟩
  unfold Sub
  simp only [hS.at_iff]
  constructor
  · rintro ⟨n, d, k, h1, h2, h3 | ⟨h3, cp, p, h4, h5, h6⟩⟩
    · exact ⟨n, d, k, h1, h2, .inl h3⟩
    · obtain ⟨cp', hC'⟩ := h.sub_copy h3 h1 h2
      obtain rfl := h4.unique hC'.port
      exact ⟨n, d, k, h1, h2, .inr ⟨h3, cp, p, h4, (hl _ _ hC'.flag).1 h5, h6⟩⟩
  · rintro ⟨n, d, k, h1, h2, h3 | ⟨h3, cp, p, h4, h5, h6⟩⟩
    · exact ⟨n, d, k, h1, h2, .inl h3⟩
    · obtain ⟨cp', hC'⟩ := h.sub_copy h3 h1 h2
      obtain rfl := h4.unique hC'.port
      exact ⟨n, d, k, h1, h2, .inr ⟨h3, cp, p, h4, (hl _ _ hC'.flag).2 h5, h6⟩⟩

/-- A link between two unlinked subports. -/
theorem link_sub (h : MInv m D) {i j : Nat} {e f : Subport} (hi : Sub m i e) (hj : Sub m j f)
    (hd : m.graph.portDirection i ≠ m.graph.portDirection j) (li : ∀ q, ¬ Lk m.graph i q) (lj : ∀ q, ¬ Lk m.graph j q) :
    ∃ g', m.graph.linkPorts i j = some (.ok (i, j), g') ∧ MInv { m with graph := g' } D ∧ SameAt m.graph g' ∧
      (∀ q e, Sub { m with graph := g' } q e ↔ Sub m q e) ∧
      (∀ x y, ShowsR { m with graph := g' } x y ↔ ShowsR m x y ∨ (x = e ∧ y = f) ∨ (x = f ∧ y = e)) := by
  obtain ⟨ni, di, ki, hai, hmi, -⟩ := id hi
  obtain ⟨nj, dj, kj, haj, hmj, -⟩ := id hj
  have hd' : di ≠ dj := by
    rw [At.portDirection h.inv hai, At.portDirection h.inv haj] at hd
    simpa using hd
  obtain ⟨g', h1, h2, h3, h4⟩ := link_flat h.inv hai haj hd' li lj
  obtain ⟨h5, h6⟩ := same_minv h h2 h3 (by
    intro p q hp
    rw [h4]
    constructor
    · rintro (h | ⟨rfl, -⟩ | ⟨rfl, -⟩)
      · exact h
      · rw [hmi] at hp; cases hp
      · rw [hmj] at hp; cases hp
    · exact .inl)
  refine ⟨g', h1, h5, h3, h6, ?_⟩
  intro x y
  unfold ShowsR
  simp only [h6, h4]
  constructor
  · rintro ⟨q, r, a1, a2, a3 | ⟨rfl, rfl⟩ | ⟨rfl, rfl⟩⟩
    · exact .inl ⟨q, r, a1, a2, a3⟩
    · exact .inr (.inl ⟨h.sub_fun a1 hi, h.sub_fun a2 hj⟩)
    · exact .inr (.inr ⟨h.sub_fun a1 hj, h.sub_fun a2 hi⟩)
  · rintro (⟨q, r, a1, a2, a3⟩ | ⟨rfl, rfl⟩ | ⟨rfl, rfl⟩)
    · exact ⟨q, r, a1, a2, .inl a3⟩
    · exact ⟨i, j, hi, hj, .inr (.inl ⟨rfl, rfl⟩)⟩
    · exact ⟨j, i, hj, hi, .inr (.inr ⟨rfl, rfl⟩)⟩

/-- The link of one subport is removed. -/
theorem unlink_sub (h : MInv m D) {i : Nat} {e : Subport} (hi : Sub m i e) :
    ∃ g', m.graph.unlinkPort i = some (m.graph.lk i, g') ∧ MInv { m with graph := g' } D ∧ SameAt m.graph g' ∧
      (∀ q e, Sub { m with graph := g' } q e ↔ Sub m q e) ∧
      (∀ x y, ShowsR { m with graph := g' } x y ↔ ShowsR m x y ∧ x ≠ e ∧ y ≠ e) := by
  obtain ⟨ni, di, ki, hai, hmi, -⟩ := id hi
  obtain ⟨g', h1, h2, h3, h4⟩ := unlink_flat h.inv hai
  obtain ⟨h5, h6⟩ := same_minv h h2 h3 (by
    intro p q hp
    rw [h4]
    constructor
    · exact fun h => h.1
    · intro hl
      refine ⟨hl, ?_, ?_⟩
      · rintro rfl; rw [hmi] at hp; cases hp
      · rintro rfl; rw [h.lk_multi hl, hmi] at hp; cases hp)
  refine ⟨g', h1, h5, h3, h6, ?_⟩
  intro x y
  unfold ShowsR
  simp only [h6, h4]
  constructor
  · rintro ⟨q, r, a1, a2, a3, a4, a5⟩
    refine ⟨⟨q, r, a1, a2, a3⟩, ?_, ?_⟩
    · rintro rfl; exact a4 (h.sub_inj a1 hi)
    · rintro rfl; exact a5 (h.sub_inj a2 hi)
  · rintro ⟨⟨q, r, a1, a2, a3⟩, a4, a5⟩
    refine ⟨q, r, a1, a2, a3, ?_, ?_⟩
    · rintro rfl; exact a4 (h.sub_fun a1 hi)
    · rintro rfl; exact a5 (h.sub_fun a2 hi)

/-! ## `add_node` -/

theorem add_trans (h : MInv m D) {maxOff i o : Nat} (hi : i ≤ maxOff) (ho : o ≤ maxOff) (hmax : maxOff ≤ 32767) :
    ∃ n g', m.addNode maxOff i o = some (n, { m with graph := g' }) ∧ m.graph.addNode maxOff i o = some (n, g') ∧
      m.graph.containsNode n = false ∧ m.copy n = false ∧
      (∀ x, g'.containsNode x = true ↔ x = n ∨ m.graph.containsNode x = true) ∧
      (g'.numPorts n .incoming = i ∧ g'.numPorts n .outgoing = o) ∧
      (∀ p e, e.1 ≠ n → (At g' p e ↔ At m.graph p e)) ∧
      Trans m { m with graph := g' } id id (fun _ => True) (fun e => e.1 = n) := by
  obtain ⟨n, g', h1, h2, h3, h4, h5, h6, h7, h8⟩ := add_flat h.inv hi ho hmax
  have hnc : m.copy n = false := by
    cases hc : m.copy n with
    | false => rfl
    | true => rw [h.copyLive n hc] at h3; cases h3
  have hne : ∀ p e, At m.graph p e → e.1 ≠ n := by
    intro p e he hc
    have := At.contains he
    rw [hc, h3] at this; cases this
  refine ⟨n, g', by rw [MG.addNode, h1]; rfl, h1, h3, hnc, h4, h6, h5, ?_⟩
  refine ⟨h2, fun _ _ _ _ h => h, ?_, ?_, ?_, fun _ _ _ _ => rfl, ?_, ?_, fun _ _ => rfl, ?_, fun _ _ => trivial, ?_⟩
  · intro p e hp _
    exact (h5 p e (hne p e hp)).2 hp
  · rintro p' ⟨n', d, k⟩ hp
    by_cases hc : n' = n
    · subst hc
      right
      refine ⟨rfl, fun q hq => ?_⟩
      have := (h8 p' q).1 hq
      obtain ⟨e, -, he, -⟩ := this.at h.inv
      have := h7 p' d k hp
      rw [he.port h.inv] at this; cases this
    · exact .inl ⟨p', _, (h5 _ _ hc).1 hp, trivial, rfl, rfl⟩
  · intro p e q f _ _ _ _; exact h8 p q
  · rintro p' ⟨n', d, k⟩ hp hc
    simp only at hc
    subst hc
    show m.multi p' = false
    cases hc : m.multi p' with
    | false => rfl
    | true =>
      obtain ⟨e, he⟩ := h.multi_live hc
      have := h7 p' d k hp
      rw [he.port h.inv] at this; cases this
  · intro p' hp'
    obtain ⟨e, he⟩ := h.multi_live hp'
    exact ⟨e, (h5 _ _ (hne _ _ he)).2 he⟩
  · intro x' hx'
    exact ⟨x', h.copyLive x' hx', rfl⟩
  · intro c d k h1 h2
    simp only at h1
    subst h1
    rw [show ({ m with graph := g' } : MG).copy = m.copy from rfl, hnc] at h2; cases h2

/-! ## `remove_copy_node` -/

theorem num_of_at {g g' : PG} {n : Nat} {d : Direction} (h : ∀ q k, At g' q (n, d, k) ↔ At g q (n, d, k)) :
    g'.numPorts n d = g.numPorts n d := by
  have : ∀ k, k < g'.numPorts n d ↔ k < g.numPorts n d := by
    intro k; rw [← at_iff_lt, ← at_iff_lt]; exact exists_congr fun q => h q k
  have h1 := this (g'.numPorts n d)
  have h2 := this (g.numPorts n d)
  omega

theorem counted_dir (g : PG) (n : Nat) (d : Direction) : Counted (fun q => ∃ k, At g q (n, d, k)) (g.ports n d).length :=
  ⟨g.ports n d, ports_nodup g n d, fun _ => mem_ports, rfl⟩

theorem CopyOf.ports_one {c : Nat} {d : Direction} {cp : Nat} (hC : CopyOf m c d cp) :
    m.graph.ports c d.reverse = [cp] := by
  have hl := length_ports m.graph c d.reverse
  rw [hC.one] at hl
  obtain ⟨a, ha⟩ := List.length_eq_one_iff.1 hl
  have := getElem?_ports.2 hC.port
  rw [ha] at this ⊢
  simpa using this

/-- Effect of `remove_copy_node` on a copy node. The flags `f` are those of the state up to ports that
are not on copy nodes. -/
theorem removeCopy_ok {g : PG} {f f0 copy : Nat → Bool} {cc sc : Nat} (h : MInv ⟨g, f0, copy, cc, sc⟩ D)
    (hag : ∀ q e, At g q e → copy e.1 = true → f q = f0 q) {p cp c : Nat} {d : Direction}
    (hC : CopyOf ⟨g, f0, copy, cc, sc⟩ c d cp) (hp : Lk g p cp ∨ (D cp ∧ f0 p = false)) :
    ∃ r g' sc', MG.removeCopyNode ⟨g, f, copy, cc, sc⟩ p cp =
        some (r, ⟨g', setFlag (setFlag f cp false) p false, setFlag copy c false, cc - 1, sc'⟩) ∧
      MInv ⟨g', setFlag (setFlag f0 cp false) p false, setFlag copy c false, cc - 1, sc'⟩ (fun x => D x ∧ x ≠ cp) ∧
      (∀ q e, At g' q e ↔ At g q e ∧ e.1 ≠ c) ∧
      (∀ x, g'.containsNode x = true ↔ x ≠ c ∧ g.containsNode x = true) ∧
      (∀ x y, ShowsR ⟨g', setFlag (setFlag f0 cp false) p false, setFlag copy c false, cc - 1, sc'⟩ x y ↔
        ShowsR ⟨g, f0, copy, cc, sc⟩ x y ∧ (Lk g p cp → x.1 ≠ p ∧ y.1 ≠ p)) ∧
      (Lk g p cp → r = some (p, 0)) ∧
      (∀ x, (∃ q, Sub ⟨g', setFlag (setFlag f0 cp false) p false, setFlag copy c false, cc - 1, sc'⟩ q x) ↔
        (∃ q, Sub ⟨g, f0, copy, cc, sc⟩ q x) ∧ (Lk g p cp → x.1 = p → x.2 = 0)) := by
  have hI : Inv g := h.inv
  have hport : At g cp (c, d.reverse, 0) := hC.port
  have hcc : copy c = true := hC.copy
  have hfcp : f0 cp = true := hC.flag
  obtain ⟨g', r1, r2, r3, r4, r5⟩ := remove_flat hI (At.contains hport)
  simp only at r1 r3 r4 r5
  -- links that stay
  have hlk : ∀ x y e e', At g x e → At g y e' → (Lk g' x y ↔ Lk g x y ∧ e.1 ≠ c ∧ e'.1 ≠ c) := by
    intro x y e e' hx hy
    rw [r5, At.portNode hI hx, At.portNode hI hy]; simp
  have hlk' : ∀ x y, Lk g' x y → Lk g x y := fun x y h => ((r5 x y).1 h).1
  -- the main port
  have hpv : Lk g p cp → ∃ e, At g p e ∧ copy e.1 = false ∧ f0 p = true := by
    intro hl
    obtain ⟨h1, x, k, h2, h3⟩ := h.main_vis hC (hl.sym hI)
    exact ⟨_, h2, h3, h1⟩
  have hun : D cp → ∀ q, ¬ Lk g cp q := fun hD => by
    obtain ⟨e, -, -, -, h1⟩ := h.orphan cp hD; exact h1
  have honc : ∀ q e, At g q e → e.1 = c → f0 q = true → q = cp := by
    rintro q ⟨n, d', k⟩ hq rfl hf
    rcases hC.classify hq with ⟨-, h1⟩ | ⟨-, -, h1⟩
    · simp only at h1; rw [hf] at h1; cases h1
    · exact h1
  have hf' : ∀ q, setFlag (setFlag f0 cp false) p false q = true ↔ f0 q = true ∧ q ≠ cp ∧ q ≠ p := by
    intro q; unfold setFlag
    by_cases h1 : q = p <;> by_cases h2 : q = cp <;> simp [h1, h2]
  have hf'0 : ∀ q, f0 q = false → setFlag (setFlag f0 cp false) p false q = false := by
    intro q hq; unfold setFlag; split
    · rfl
    · split
      · rfl
      · exact hq
  have hc' : ∀ x, setFlag copy c false x = true ↔ copy x = true ∧ x ≠ c := by
    intro x; unfold setFlag; by_cases h1 : x = c <;> simp [h1]
  have hc'n : ∀ x, x ≠ c → setFlag copy c false x = copy x := by
    intro x hx; simp [setFlag, hx]
  -- counts
  obtain ⟨k1, k2⟩ := h.copies.diff (Counted.single c) (by rintro x rfl; exact hcc)
  obtain ⟨s1, s2⟩ := h.subs.diff (counted_dir g c d) (by
    rintro q ⟨k, hk⟩
    exact ⟨hC.subs q k hk, _, hk, hcc⟩)
  simp only at k1 k2 s1 s2
  -- marked ports of other copy nodes
  have hother : ∀ q e, At g q e → copy e.1 = true → f0 q = true → q ≠ p := by
    rintro q e hq hce hfq rfl
    rcases hp with hl | ⟨-, h1⟩
    · obtain ⟨e', h1, h2, -⟩ := hpv hl
      rw [hq.inj hI h1, h2] at hce; cases hce
    · rw [h1] at hfq; cases hfq
  have back0 : ∀ q x, Sub ⟨g', setFlag (setFlag f0 cp false) p false, setFlag copy c false, cc - 1, sc - (g.ports c d).length⟩ q x →
      (Lk g p cp → q ≠ p) → Sub ⟨g, f0, copy, cc, sc⟩ q x ∧ (Lk g p cp → x.1 ≠ p) := by
    rintro q x ⟨n, d', k, h1, h2, h3⟩ hqp
    simp only at h1 h2 h3
    obtain ⟨h4, n1⟩ := (r4 _ _).1 h1
    simp only at n1
    have hq0 : f0 q = false := by
      cases hq : f0 q with
      | false => rfl
      | true =>
        have h5 : q ≠ cp := by
          rintro rfl
          exact n1 (by have := h4.inj hI hport; simp only [Prod.mk.injEq] at this; exact this.1)
        have h6 : q ≠ p := by
          rintro rfl
          rcases hp with hl | ⟨-, h5⟩
          · exact hqp hl rfl
          · rw [h5] at hq; cases hq
        rw [(hf' q).2 ⟨hq, h5, h6⟩] at h2; cases h2
    rw [hc'n n n1] at h3
    rcases h3 with ⟨h5, rfl⟩ | ⟨h5, cp1, p1, h6, h7, rfl⟩
    · exact ⟨⟨n, d', k, h4, hq0, .inl ⟨h5, rfl⟩⟩, hqp⟩
    · refine ⟨⟨n, d', k, h4, hq0, .inr ⟨h5, cp1, p1, ((r4 _ _).1 h6).1, hlk' _ _ h7, rfl⟩⟩, ?_⟩
      rintro hpc rfl
      simp only at hpc h7
      obtain rfl := (hlk' _ _ h7).inj hI (hpc.sym hI)
      have := ((r4 _ _).1 h6).1.inj hI hport
      simp only [Prod.mk.injEq] at this
      exact n1 this.1
  have fwd : ∀ q x, Sub ⟨g, f0, copy, cc, sc⟩ q x → (Lk g p cp → x.1 ≠ p) →
      Sub ⟨g', setFlag (setFlag f0 cp false) p false, setFlag copy c false, cc - 1, sc - (g.ports c d).length⟩ q x ∧
        ∃ e, At g q e ∧ e.1 ≠ c := by
    intro q x hs hx
    rcases h.sub_iff.1 hs with ⟨h1, ⟨⟨n, d', k⟩, h2, h3, h4⟩ | ⟨c1, d1, cp1, h2, h3, h4⟩⟩
    · have n1 : n ≠ c := by
        rintro rfl
        simp only at h3; rw [hcc] at h3; cases h3
      exact ⟨⟨n, d', k, (r4 _ _).2 ⟨h2, n1⟩, hf'0 q h1, .inl ⟨by show setFlag copy c false n = false; rw [hc'n n n1]; exact h3, h4⟩⟩, _, h2, n1⟩
    · have n1 : c1 ≠ c := by
        rintro rfl
        obtain ⟨-, rfl⟩ := h3.fun hC
        simp only at h4
        rcases hp with hl | ⟨hd, -⟩
        · exact hx hl (h4.fun (hl.sym hI))
        · exact hun hd _ h4
      obtain ⟨-, y, k', h5, h6⟩ := h.main_vis h3 h4
      simp only at h5 h6
      have n2 : y ≠ c := by rintro rfl; rw [hcc] at h6; cases h6
      refine ⟨⟨c1, d1, x.2, (r4 _ _).2 ⟨h2, n1⟩, hf'0 q h1, .inr ⟨?_, cp1, x.1, (r4 _ _).2 ⟨h3.port, n1⟩, ?_, rfl⟩⟩, _, h2, n1⟩
      · exact (hc' _).2 ⟨h3.copy, n1⟩
      · exact (hlk _ _ _ _ h3.port h5).2 ⟨h4, n1, n2⟩
  have back : ∀ q x r, Sub ⟨g', setFlag (setFlag f0 cp false) p false, setFlag copy c false, cc - 1, sc - (g.ports c d).length⟩ q x →
      Lk g' q r → Sub ⟨g, f0, copy, cc, sc⟩ q x ∧ (Lk g p cp → x.1 ≠ p) := by
    intro q x r hs hl
    refine back0 q x hs ?_
    rintro hpc rfl
    obtain ⟨e, e', h5, h6, -⟩ := hl.at r2
    obtain rfl := (hlk' _ _ hl).fun hpc
    exact ((r4 _ _).1 h6).2 (by rw [((r4 _ _).1 h6).1.inj hI hport])
  refine ⟨if g.lk cp = none then none else some (p, 0), g', sc - (g.ports c d).length, ?_, ?_, r4, r3, ?_, ?_, ?_⟩
  · unfold MG.removeCopyNode
    simp only
    rw [hport.port hI]
    simp only
    rw [if_pos hcc, show g.ports c d.reverse = [cp] from hC.ports_one]
    have hm : [cp].mapM g.portLink? = some [g.lk cp] := mapM_some (k := g.lk) (by
      intro x hx
      rw [List.mem_singleton] at hx
      subst hx
      exact unlinked hI hport)
    rw [hm]
    simp only [reverse_reverse]
    have hgo : 1 ≤ cc ∧ (g.ports c d).length ≤ sc ∧
        ((g.ports c d).all fun q => !setFlag (setFlag f cp false) p false q) = true := by
      refine ⟨k1, s1, ?_⟩
      rw [List.all_eq_true]
      intro q hq
      obtain ⟨k, hk⟩ := mem_ports.1 hq
      have h1 : f q = false := by rw [hag q _ hk hcc]; exact hC.subs q k hk
      have : setFlag (setFlag f cp false) p false q = false := by
        unfold setFlag; split
        · rfl
        · split
          · rfl
          · exact h1
      rw [this]; rfl
    cases hl : g.lk cp with
    | none =>
      simp only [List.filterMap_cons, List.filterMap_nil, id, List.head?_nil]
      rw [r1]
      simp only
      rw [if_pos hgo]
      rfl
    | some t =>
      have hl' : Lk g cp t := by unfold Lk; rw [unlinked hI hport, hl]
      have hpc : Lk g p cp := by
        rcases hp with h1 | ⟨h1, -⟩
        · exact h1
        · exact absurd hl' (hun h1 t)
      obtain rfl := hl'.fun (hpc.sym hI)
      obtain ⟨e, h1, h2, -⟩ := hpv hpc
      have hfi : MG.fromIndex ⟨g, f, copy, cc, sc⟩ t = some (some (t, 0)) := by
        simp [MG.fromIndex, At.portNode hI h1, h2]
      simp only [List.filterMap_cons, List.filterMap_nil, id, List.head?_cons, hfi, Option.bind_some, Option.map_some]
      rw [r1]
      simp only
      rw [if_pos hgo]
      rfl
  · refine ⟨r2, ?_, ?_, ?_, ?_, ?_, ?_⟩
    · intro x hx
      obtain ⟨h1, h2⟩ := (hc' x).1 hx
      exact (r3 x).2 ⟨h2, h.copyLive x h1⟩
    · intro q hq hD
      obtain ⟨h1, h2, h3⟩ := (hf' q).1 hq
      have hDq : ¬ D q := fun hd => hD ⟨hd, h2⟩
      obtain ⟨r, e, e', g1, g2, g3, g4, g5⟩ := h.partner q h1 hDq
      simp only at g1 g2 g3 g4 g5
      have n1 : e.1 ≠ c := fun hc => h2 (honc q e g1 hc h1)
      have hrcp : r ≠ cp := by
        rintro rfl
        rcases hp with hl | ⟨hd, -⟩
        · exact h3 (g3.inj hI hl)
        · exact hun hd _ (g3.sym hI)
      have n2 : e'.1 ≠ c := fun hc => hrcp (honc r e' g2 hc g4)
      refine ⟨r, e, e', (r4 _ _).2 ⟨g1, n1⟩, (r4 _ _).2 ⟨g2, n2⟩, (hlk _ _ _ _ g1 g2).2 ⟨g3, n1, n2⟩, (hf' r).2 ⟨g4, hrcp, ?_⟩, ?_⟩
      · rintro rfl
        rcases hp with hl | ⟨-, h5⟩
        · exact h2 (g3.inj hI (hl.sym hI))
        · rw [h5] at g4; cases g4
      · show setFlag copy c false _ = !setFlag copy c false _
        rw [hc'n _ n1, hc'n _ n2, g5]
    · rintro x ⟨hD, hne⟩
      obtain ⟨e, g1, g2, g3, g4⟩ := h.orphan x hD
      simp only at g1 g2 g3 g4
      have n1 : e.1 ≠ c := fun hc => hne (honc x e g1 hc g3)
      refine ⟨e, (r4 _ _).2 ⟨g1, n1⟩, (hc' _).2 ⟨g2, n1⟩, (hf' x).2 ⟨g3, hne, hother x e g1 g2 g3⟩, fun q hq => g4 q (hlk' _ _ hq)⟩
    · intro x hx
      obtain ⟨h1, h2⟩ := (hc' x).1 hx
      obtain ⟨d1, cp1, hC1⟩ := h.shape x h1
      have hat : ∀ q d' k, At g' q (x, d', k) ↔ At g q (x, d', k) := by
        intro q d' k
        rw [r4]; exact ⟨fun h => h.1, fun h => ⟨h, h2⟩⟩
      have p1 : At g cp1 (x, d1.reverse, 0) := hC1.port
      refine ⟨d1, cp1, ⟨hx, (hat _ _ _).2 p1, (hf' cp1).2 ⟨hC1.flag, ?_, hother _ _ p1 h1 hC1.flag⟩, ?_, ?_, ?_⟩⟩
      · rintro rfl
        have := p1.inj hI hport
        simp only [Prod.mk.injEq] at this
        exact h2 this.1
      · show g'.numPorts _ _ = 1
        rw [num_of_at fun q k => hat q _ k]; exact hC1.one
      · show 2 ≤ g'.numPorts _ _
        rw [num_of_at fun q k => hat q _ k]; exact hC1.two
      · intro q k hq
        exact hf'0 q (hC1.subs q k ((hat _ _ _).1 hq))
    · refine k2.congr fun x => ?_
      exact hc' x
    · refine s2.congr fun q => ?_
      constructor
      · rintro ⟨h1, e, h2, h3⟩
        obtain ⟨h4, h5⟩ := (r4 _ _).1 h2
        obtain ⟨h6, -⟩ := (hc' _).1 h3
        refine ⟨⟨?_, e, h4, h6⟩, ?_⟩
        · cases hq : f0 q with
          | false => exact hq
          | true =>
            have := (hf' q).2 ⟨hq, ?_, hother q e h4 h6 hq⟩
            · rw [show setFlag (setFlag f0 cp false) p false q = false from h1] at this; cases this
            · rintro rfl
              exact h5 (by rw [h4.inj hI hport])
        · rintro ⟨k, hk⟩
          exact h5 (by rw [h4.inj hI hk])
      · rintro ⟨⟨h1, ⟨n, d', k⟩, h2, h3⟩, h4⟩
        have n1 : n ≠ c := by
          rintro rfl
          rcases hC.classify h2 with ⟨rfl, -⟩ | ⟨-, -, rfl⟩
          · exact h4 ⟨k, h2⟩
          · rw [hC.flag] at h1; cases h1
        exact ⟨hf'0 q h1, _, (r4 _ _).2 ⟨h2, n1⟩, (hc' _).2 ⟨h3, n1⟩⟩
  · intro x y
    constructor
    · rintro ⟨q, r, h1, h2, h3⟩
      obtain ⟨a1, a2⟩ := back q x r h1 h3
      obtain ⟨b1, b2⟩ := back r y q h2 (h3.sym r2)
      exact ⟨⟨q, r, a1, b1, hlk' _ _ h3⟩, fun hl => ⟨a2 hl, b2 hl⟩⟩
    · rintro ⟨⟨q, r, h1, h2, h3⟩, h4⟩
      obtain ⟨a1, e, a2, a3⟩ := fwd q x h1 fun hl => (h4 hl).1
      obtain ⟨b1, e', b2, b3⟩ := fwd r y h2 fun hl => (h4 hl).2
      exact ⟨q, r, a1, b1, (hlk _ _ _ _ a2 b2).2 ⟨h3, a3, b3⟩⟩
  · intro hl
    have := ((lk_iff hI).1 (hl.sym hI)).2
    simp [this]
  · rintro ⟨x1, x2⟩
    constructor
    · rintro ⟨q, hs⟩
      by_cases hq : Lk g p cp ∧ q = p
      · obtain ⟨hl, rfl⟩ := hq
        obtain ⟨e, h1, h2, -⟩ := hpv hl
        obtain ⟨n, d', k, h3, -, h4⟩ := hs
        have h5 := ((r4 _ _).1 h3).1.inj hI h1
        subst h5
        have hn : setFlag copy c false n = false := by
          unfold setFlag; split
          · rfl
          · exact h2
        rcases h4 with ⟨-, h4⟩ | ⟨h4, -⟩
        · cases h4
          obtain ⟨s, hs⟩ := at_iff_lt.2 (Nat.lt_of_lt_of_le (show 0 < 2 by omega) hC.two)
          exact ⟨⟨s, (h.sub_multi hC hl).2 hs⟩, fun _ _ => rfl⟩
        · rw [show setFlag copy c false n = true from h4] at hn; cases hn
      · obtain ⟨h1, h2⟩ := back0 q _ hs fun hl he => hq ⟨hl, he⟩
        exact ⟨⟨q, h1⟩, fun hl he => absurd he (h2 hl)⟩
    · rintro ⟨⟨q, hs⟩, h1⟩
      by_cases hx : Lk g p cp ∧ x1 = p
      · obtain ⟨hl, rfl⟩ := hx
        have := h1 hl rfl
        simp only at this
        subst this
        obtain ⟨⟨n, d', k⟩, h2, h3, -⟩ := hpv hl
        simp only at h3
        have n1 : n ≠ c := by rintro rfl; rw [hcc] at h3; cases h3
        refine ⟨x1, n, d', k, (r4 _ _).2 ⟨h2, n1⟩, ?_, .inl ⟨?_, rfl⟩⟩
        · simp [setFlag]
        · show setFlag copy c false n = false
          rw [hc'n n n1, h3]
      · exact ⟨q, (fwd q _ hs fun hl he => hx ⟨hl, he⟩).1⟩

end Verif.Multi
