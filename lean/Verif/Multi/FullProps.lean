import Verif.Multi.FlatCap
import Verif.Multi.Check

/-!
# C39: the flat graph, and how many links a port can have
-/

namespace Verif.Multi

open Verif (Direction)
open Verif.PG Verif.View

variable {maxOff : Nat} {m : MG}

/-- **C39** `as_portgraph` returns a graph that calls on a `PortGraph` make as well, so that all that is
proved of reachable port graphs holds for it. -/
theorem C39_flat_reach (h2m : 2 ≤ maxOff) (hmax : maxOff ≤ 32767) (h : MReach maxOff m) : PG.Reach maxOff m.graph :=
  h.flat h2m hmax

theorem room_iff (h : MOk m) {p : Nat} (hp : m.containsPort p = true) : m.room p ↔ Room m p := by
  refine ⟨room_of h, fun hr L hL => ?_⟩
  obtain ⟨L', h1, h2, h3⟩ := subportsAt_spec h hp
  rw [hL] at h1; cases h1
  rcases hr with hr | ⟨q, j, h4, h5⟩
  · left
    have hsub : L ⊆ (List.range 32766).map fun k => (p, k) := by
      rintro ⟨q, k⟩ hm
      obtain ⟨h4, i, h5⟩ := (h3 _).1 hm
      simp only at h4
      subst h4
      have := hr i k h5
      exact List.mem_map.2 ⟨k, List.mem_range.2 (by omega), rfl⟩
    have := (List.subperm_of_subset h2 hsub).length_le
    simpa using this
  · right
    refine ⟨(p, j), (h3 _).2 ⟨rfl, q, h4⟩, fun f hf => ?_⟩
    obtain ⟨r, hr⟩ := (lk_shows h h4).2 ⟨f, (obs_link h).1 hf⟩
    exact h5 r hr

/-- Without room `get_free_multiport` panics. -/
theorem getFree_none (h : MOk m) {p : Nat} {x : Endpoint} (hp : VAt m p x) (hr : ¬ Room m p)
    (hcap : ∀ c, m.copy c = true → m.graph.nodePortCapacity c ≤ 32768) : m.getFree maxOff p = none := by
  obtain ⟨n, d, k⟩ := x
  have hbig : ∃ q j, Sub m q (p, j) ∧ 32768 < j + 3 := by
    apply Classical.byContradiction
    intro hc
    exact hr (.inl fun q j hs => by
      apply Classical.byContradiction
      intro hc'; exact hc ⟨q, j, hs, by omega⟩)
  have hfull : ∀ q j, Sub m q (p, j) → ∃ r, Lk m.graph q r := by
    intro q j hs
    apply Classical.byContradiction
    intro hc
    exact hr (.inr ⟨q, j, hs, fun r hr => hc ⟨r, hr⟩⟩)
  obtain ⟨q, j, hs, hj⟩ := hbig
  cases hm : m.multi p with
  | false =>
    have := (h.sub_single ⟨_, hp⟩ hm).1 hs
    omega
  | true =>
    obtain ⟨c, cp, hC, hl⟩ := h.copy_of_main hp.1 hp.2 hm
    have hlt := at_iff_lt.1 ⟨q, (h.sub_multi hC hl).1 hs⟩
    have hf : ((m.graph.ports c d).zipIdx.find? fun x => m.graph.portLink? x.1 == some none) = none := by
      cases hf : (m.graph.ports c d).zipIdx.find? fun x => m.graph.portLink? x.1 == some none with
      | none => rfl
      | some y =>
        obtain ⟨s, i⟩ := y
        obtain ⟨h1, h2, -⟩ := (find_free h.inv).1 hf
        obtain ⟨r, hr⟩ := hfull s i ((h.sub_multi hC hl).2 h1)
        exact absurd hr (h2 r)
    have hadd : m.addPort c d = none := by
      have hone := hC.one
      have hcn := h.copyLive c hC.copy
      have hc := hcap c hC.copy
      obtain ⟨nm, hnm⟩ := Option.isSome_iff_exists.1 (containsNode_iff.1 hcn)
      rw [capacity_eq hnm] at hc
      have key : ∀ i o, i + o = m.graph.numPorts c .incoming + m.graph.numPorts c .outgoing + 1 → m.setNumPorts c i o = none := by
        intro i o hio
        have : m.graph.setNumPorts c i o = none := by
          apply setNumPorts_big hnm
          · cases d <;> simp [Direction.reverse] at hone <;> omega
          · rintro ⟨h1, h2⟩
            have e1 : m.graph.numPorts c .incoming = nm.incoming := numPorts_eq hnm
            have e2 : m.graph.numPorts c .outgoing = nm.outgoing := numPorts_eq hnm
            omega
          · cases d <;> simp [Direction.reverse] at hone <;> omega
        unfold MG.setNumPorts
        rw [this]
      unfold MG.addPort
      cases d with
      | incoming => simp only [key _ _ (show m.graph.numPorts c .incoming + 1 + m.graph.numPorts c .outgoing = _ by omega)]
      | outgoing => simp only [key _ _ (show m.graph.numPorts c .incoming + (m.graph.numPorts c .outgoing + 1) = _ by omega)]
    unfold MG.getFree
    rw [At.portDirection h.inv hp.1, hm, show m.graph.portLink? p = _ from hl]
    simp only
    rw [At.portNode h.inv hC.port]
    simp only
    rw [hf]
    simp only
    rw [hadd]

/-- **C39** `link_ports` on two shown ports panics exactly if one of them has more than 32766 subports
which all have a link: a port can have 32767 links. -/
theorem C39_link_returns_iff (h2m : 2 ≤ maxOff) (hmax : maxOff ≤ 32767) (hm : MReach maxOff m) {a b : Nat}
    (ha : m.containsPort a = true) (hb : m.containsPort b = true) :
    (m.linkPorts maxOff a b).isSome = true ↔ m.room a ∧ m.room b := by
  have h := hm.ok h2m hmax
  have hcap := hm.helper_cap h2m hmax
  obtain ⟨x, hx⟩ := (port_vat h).1 ha
  obtain ⟨y, hy⟩ := (port_vat h).1 hb
  constructor
  · intro hs
    rw [room_iff h ha, room_iff h hb]
    have hra : Room m a := by
      apply Classical.byContradiction
      intro hc
      unfold MG.linkPorts at hs
      rw [getFree_none h hx hc hcap] at hs
      cases hs
    refine ⟨hra, ?_⟩
    by_cases hab : b = a
    · rw [hab]; exact hra
    apply Classical.byContradiction
    intro hc
    obtain ⟨e, s, m1, h1, F⟩ := getFree_eff h h2m hmax hx hra
    have hc' : ¬ Room m1 b := by
      intro hr
      apply hc
      rcases hr with hr | ⟨q, j, h3, h4⟩
      · exact .inl fun q k hq => hr q k ((F.subs q _ hab).2 hq)
      · refine .inr ⟨q, j, (F.subs q _ hab).1 h3, fun r hr => ?_⟩
        obtain ⟨z, hz⟩ := (lk_shows h ((F.subs q _ hab).1 h3)).1 ⟨r, hr⟩
        obtain ⟨r', hr'⟩ := (lk_shows F.ok h3).2 ⟨z, (F.shows _ _).2 hz⟩
        exact h4 r' hr'
    have hcap1 : ∀ c, m1.copy c = true → m1.graph.nodePortCapacity c ≤ 32768 := by
      intro c hc
      rcases capRel_getFree h2m hmax (hm.flat h2m hmax) h1 c hc with h5 | ⟨h5, h6⟩
      · exact h5
      · exact Nat.le_trans h6 (hcap c h5)
    unfold MG.linkPorts at hs
    rw [h1] at hs
    simp only at hs
    rw [getFree_none F.ok ((F.at_iff _ _).2 hy) hc' hcap1] at hs
    cases hs
  · rintro ⟨hra, hrb⟩
    obtain ⟨r, m', h1, -⟩ := step_eff h2m hmax h (op := .linkPorts a b) ⟨ha, hb, hra, hrb⟩
    obtain ⟨y, h3, -⟩ := Option.map_eq_some_iff.1 h1
    rw [h3]; rfl

/-- Two nodes, an output and an input. -/
def pairG : PG := (PG.run 32766 PG.empty [.addNode 0 1, .addNode 1 0]).getD PG.empty

theorem pairG_reach : PG.Reach 32766 pairG := by
  refine .step (op := .addNode 1 0) (.step (op := .addNode 0 1) .init ⟨by decide, by decide⟩ rfl) ⟨by decide, by decide⟩ ?_
  decide +kernel

/-- `k` links between ports 0 and 1, and no other subports than their ends. -/
structure Filled (m : MG) (k : Nat) : Prop where
  reach : MReach 32766 m
  out : m.obs.pos 0 (0, .outgoing, 0)
  inp : m.obs.pos 1 (1, .incoming, 0)
  sub0 : ∀ j, m.obs.sub (0, j) ↔ j < max 1 k
  sub1 : ∀ j, m.obs.sub (1, j) ↔ j < max 1 k
  link0 : ∀ j, (∃ z, m.obs.link (0, j) z) ↔ j < k
  link1 : ∀ j, (∃ z, m.obs.link (1, j) z) ↔ j < k

theorem Filled.ports {k : Nat} (F : Filled m k) : m.containsPort 0 = true ∧ m.containsPort 1 = true := by
  have h := F.reach.ok (by decide) (by decide)
  exact ⟨(port_vat h).2 ⟨_, (obs_pos h).1 F.out⟩, (port_vat h).2 ⟨_, (obs_pos h).1 F.inp⟩⟩

theorem filled_zero : Filled (MG.ofGraph pairG) 0 := by
  have hr : MReach 32766 (MG.ofGraph pairG) := .init pairG_reach
  have h := hr.ok (by decide) (by decide)
  have c0 : (MG.ofGraph pairG).containsPort 0 = true := by decide +kernel
  have c1 : (MG.ofGraph pairG).containsPort 1 = true := by decide +kernel
  have hno : ∀ q, q = 0 ∨ q = 1 → ∀ j z, ¬ (MG.ofGraph pairG).obs.link (q, j) z := by
    rintro q hq j z hl
    obtain ⟨s, t, h1, -, h3⟩ := (obs_link h).1 hl
    have hv : ∃ e, VAt (MG.ofGraph pairG) q e := by rcases hq with rfl | rfl <;> exact (port_vat h).1 (by assumption)
    have := (h.sub_single hv (by simp [MG.ofGraph])).1 h1
    obtain ⟨rfl, -⟩ := this
    have h4 : pairG.portLink? s = some (some t) := h3
    have : pairG.portLink? s = some none := by rcases hq with rfl | rfl <;> decide +kernel
    rw [this] at h4; cases h4
  have hsub : ∀ q, (MG.ofGraph pairG).containsPort q = true → ∀ j, (MG.ofGraph pairG).obs.sub (q, j) ↔ j < max 1 0 := by
    intro q hq j
    rw [obs_sub h]
    constructor
    · rintro ⟨s, hs⟩
      have := (h.sub_single ((port_vat h).1 hq) (by simp [MG.ofGraph])).1 hs
      omega
    · intro hj
      obtain rfl : j = 0 := by omega
      obtain ⟨e, he⟩ := (port_vat h).1 hq
      exact sub_zero h he
  refine ⟨hr, ?_, ?_, hsub 0 c0, hsub 1 c1, fun j => ?_, fun j => ?_⟩
  · exact ⟨by decide +kernel, by decide +kernel, by decide +kernel⟩
  · exact ⟨by decide +kernel, by decide +kernel, by decide +kernel⟩
  · exact ⟨fun ⟨z, hz⟩ => absurd hz (hno 0 (.inl rfl) j z), fun hj => absurd hj (by omega)⟩
  · exact ⟨fun ⟨z, hz⟩ => absurd hz (hno 1 (.inr rfl) j z), fun hj => absurd hj (by omega)⟩

theorem filled_room {k : Nat} (F : Filled m k) (hk : k ≤ 32766) : m.room 0 ∧ m.room 1 := by
  have h := F.reach.ok (by decide) (by decide)
  obtain ⟨p0, p1⟩ := F.ports
  rw [room_iff h p0, room_iff h p1]
  constructor
  · left; intro q j hs
    have := (F.sub0 j).1 ((obs_sub h).2 ⟨q, hs⟩); omega
  · left; intro q j hs
    have := (F.sub1 j).1 ((obs_sub h).2 ⟨q, hs⟩); omega

theorem filled_succ {k : Nat} (F : Filled m k) (hk : k ≤ 32766) :
    ∃ m', m.linkPorts 32766 0 1 = some (.ok ((0, k), (1, k)), m') ∧ Filled m' (k + 1) := by
  have h := F.reach.ok (by decide) (by decide)
  obtain ⟨p0, p1⟩ := F.ports
  obtain ⟨r0, r1⟩ := filled_room F hk
  have hok : (MOp.linkPorts 0 1).ok 32766 m := ⟨p0, p1, r0, r1⟩
  obtain ⟨r, m', h1, h2, h3⟩ := step_eff (by decide) (by decide) h hok
  have hreach : MReach 32766 m' := .step F.reach hok h1
  obtain ⟨y, hy, he⟩ := Option.map_eq_some_iff.1 h1
  cases he
  obtain ⟨e1, e2, e3⟩ := h3
  obtain ⟨k', l', h4, h5, h6, h7, h8⟩ := (e3 _ _ F.out F.inp).1 (by simp)
  obtain ⟨a1, a2, a3, a4⟩ := h5
  have hk' : k' = k := by
    rcases Nat.lt_trichotomy k' k with hl | hl | hl
    · obtain ⟨z, hz⟩ := (F.link0 k').2 hl; exact absurd hz (a1 z)
    · exact hl
    · have := (F.link0 k).1 (h6 k hl); omega
  have hl' : l' = k := by
    rcases Nat.lt_trichotomy l' k with hl | hl | hl
    · obtain ⟨z, hz⟩ := (F.link1 l').2 hl; exact absurd hz (a2 z)
    · exact hl
    · have := (F.link1 k).1 (h7 k hl); omega
  subst hk' hl'
  refine ⟨_, by rw [hy, ← h4], hreach, (e2 _ _).2 F.out, (e2 _ _).2 F.inp, ?_, ?_, ?_, ?_⟩
  · intro j; rw [h8, F.sub0]; simp; omega
  · intro j; rw [h8, F.sub1]; simp; omega
  · intro j
    constructor
    · rintro ⟨z, hz⟩
      rcases (a4 _ _).1 hz with hz | ⟨hz, -⟩ | ⟨hz, -⟩
      · have := (F.link0 j).1 ⟨z, hz⟩; omega
      · simp at hz; omega
      · simp at hz
    · intro hj
      by_cases hjk : j = l'
      · subst hjk; exact ⟨_, a3⟩
      · obtain ⟨z, hz⟩ := (F.link0 j).2 (by omega)
        exact ⟨z, (a4 _ _).2 (.inl hz)⟩
  · intro j
    constructor
    · rintro ⟨z, hz⟩
      rcases (a4 _ _).1 hz with hz | ⟨hz, -⟩ | ⟨hz, -⟩
      · have := (F.link1 j).1 ⟨z, hz⟩; omega
      · simp at hz
      · simp at hz; omega
    · intro hj
      by_cases hjk : j = l'
      · subst hjk; exact ⟨_, (a4 _ _).2 (.inr (.inr ⟨rfl, rfl⟩))⟩
      · obtain ⟨z, hz⟩ := (F.link1 j).2 (by omega)
        exact ⟨z, (a4 _ _).2 (.inl hz)⟩

/-- `k` calls of `link_ports` with the same two ports. -/
def linkMany (maxOff : Nat) (m : MG) (a b : Nat) : Nat → Option MG
  | 0 => some m
  | k + 1 => (linkMany maxOff m a b k).bind fun m => (m.linkPorts maxOff a b).map (·.2)

theorem linkMany_filled {k : Nat} (hk : k ≤ 32767) : ∃ m, linkMany 32766 (MG.ofGraph pairG) 0 1 k = some m ∧ Filled m k := by
  induction k with
  | zero => exact ⟨_, rfl, filled_zero⟩
  | succ k ih =>
    obtain ⟨m, h1, F⟩ := ih (by omega)
    obtain ⟨m', h2, F'⟩ := filled_succ F (by omega)
    exact ⟨m', by simp [linkMany, h1, h2], F'⟩

/-- Failure: two ports can be linked 32767 times, and the next `link_ports` panics, though the numbers of
subports are said to go up to `2^16`. -/
theorem C39_witness_full : (∀ k, k ≤ 32767 → (linkMany 32766 (MG.ofGraph pairG) 0 1 k).isSome = true) ∧
    linkMany 32766 (MG.ofGraph pairG) 0 1 32768 = none := by
  constructor
  · intro k hk
    obtain ⟨m, h, -⟩ := linkMany_filled hk
    rw [h]; rfl
  · obtain ⟨m, h1, F⟩ := linkMany_filled (Nat.le_refl 32767)
    obtain ⟨p0, p1⟩ := F.ports
    have hM := F.reach.ok (by decide) (by decide)
    have : m.linkPorts 32766 0 1 = none := by
      cases hl : m.linkPorts 32766 0 1 with
      | none => rfl
      | some r =>
        have hr := ((C39_link_returns_iff (by decide) (by decide) F.reach p0 p1).1 (by rw [hl]; rfl)).1
        rw [room_iff hM p0] at hr
        rcases hr with hr | ⟨q, j, h3, h4⟩
        · obtain ⟨q, hq⟩ := (obs_sub hM).1 ((F.sub0 32766).2 (by omega))
          have := hr q _ hq; omega
        · have h5 := (F.sub0 j).1 ((obs_sub hM).2 ⟨q, h3⟩)
          obtain ⟨z, hz⟩ := (F.link0 j).2 (by omega)
          obtain ⟨r, hr⟩ := (lk_shows hM h3).2 ⟨z, (obs_link hM).1 hz⟩
          exact absurd hr (h4 r)
    rw [linkMany, h1]
    simp [this]

example := C39_link_returns_iff (by decide) (by decide) filled_zero.reach filled_zero.ports.1 filled_zero.ports.2
example := C39_flat_reach (by decide) (by decide) filled_zero.reach

#print axioms C39_flat_reach
#print axioms C39_link_returns_iff
#print axioms C39_witness_full

end Verif.Multi
