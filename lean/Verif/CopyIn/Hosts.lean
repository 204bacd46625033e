import Verif.CopyIn.Run
import Verif.Multi.History
import Verif.PortGraph.PropsOps

/-!
# The two graphs of the library as hosts of `copy_in_parent`
-/

namespace Verif.CopyIn

open Verif (Direction)
open Verif.PG Verif.Multi Verif.View

theorem allLinks_ok {E : Type} {G : GView E} (ok : G.Ok) (n : Nat) : (G.allLinks n).Nodup ∧ ∀ e f, (e, f) ∈ G.allLinks n ↔
    G.Shows e f ∧ G.On e n ∧ ¬ (G.On f n ∧ G.portDirection (G.toPort f) = some .outgoing) := by
  have hall : ∀ p, p ∈ G.allPorts n ↔ G.portNode p = some n := by
    intro p
    rw [ok.all_ports, List.mem_append, ok.mem_ports, ok.mem_ports]
    constructor
    · rintro (h | h) <;> exact h.1
    · intro h
      obtain ⟨d, hd⟩ := ok.port_dir p n h
      cases d
      · exact .inl ⟨h, hd⟩
      · exact .inr ⟨h, hd⟩
  have hnd : (G.allPorts n).Nodup := by
    rw [ok.all_ports, List.nodup_append]
    refine ⟨ok.ports_nodup _ _, ok.ports_nodup _ _, ?_⟩
    intro p hp q hq hpq
    subst hpq
    rw [ok.mem_ports] at hp hq
    rw [hp.2] at hq; cases hq.2
  rw [ok.all_links]
  refine ⟨(ok.flat_nodup _ hnd).filter _, fun e f => ?_⟩
  rw [List.mem_filter, List.mem_flatMap]
  unfold GView.Shows GView.On
  simp only [Bool.not_eq_true', decide_eq_false_iff_not]
  constructor
  · rintro ⟨⟨p, h1, h2⟩, h3⟩
    obtain rfl := ok.from_port p e f h2
    exact ⟨h2, (hall _).1 h1, h3⟩
  · rintro ⟨h1, h2, h3⟩
    exact ⟨⟨_, (hall _).2 h2, h1⟩, h3⟩

/-! ## `PortGraph` -/

theorem pg_pos {g : PG} (hI : Inv g) {p : Nat} {e : Endpoint} : (pgObs g).pos p e ↔ At g p e := by
  show g.portNode p = some e.1 ∧ g.portOffset p = some (some e.2) ↔ _
  constructor
  · rintro ⟨h1, h2⟩
    obtain ⟨e', h3⟩ := (live_at hI).1 (show (g.port? p).isSome by
      cases hp : g.port? p with
      | none => simp [PG.portNode, hp] at h1
      | some x => rfl)
    rw [At.portNode hI h3] at h1
    rw [At.portOffset hI h3] at h2
    simp only [Option.some.injEq] at h1 h2
    have : e' = e := Prod.ext h1 h2
    exact this ▸ h3
  · intro h
    exact ⟨At.portNode hI h, At.portOffset hI h⟩

theorem pg_law {maxOff : Nat} (hmax : maxOff ≤ 32767) :
    Law (pgHost maxOff) (PG.Reach maxOff) pgObs (fun _ _ => True) True maxOff where
  pos_fun g hg p e f he hf := by
    have hI := hg.inv hmax
    rw [pg_pos hI] at he hf
    exact he.inj hI hf
  pos_one g hg p q e hp hq := by
    have hI := hg.inv hmax
    rw [pg_pos hI] at hp hq
    exact hp.unique hq
  pos_node g hg p e hp := by
    rw [pg_pos (hg.inv hmax)] at hp
    exact At.contains hp
  link_sym g hg e f h := Lk.sym (hg.inv hmax) h
  link_one g hg e f f' h h' := Lk.fun h h'
  link_port g hg e f h := by
    obtain ⟨x, y, h1, -⟩ := Lk.at (hg.inv hmax) (show Lk g e f from h)
    exact ⟨x, (pg_pos (hg.inv hmax)).2 h1⟩
  link_dir g hg e f x y h hx hy := by
    have hI := hg.inv hmax
    rw [pg_pos hI] at hx hy
    obtain ⟨x', y', h1, h2, h3⟩ := Lk.at hI (show Lk g e f from h)
    obtain rfl := hx.inj hI h1
    obtain rfl := hy.inj hI h2
    rw [h3]
    exact (reverse_ne _).symm
  num g hg n hn d j := by
    have hI := hg.inv hmax
    simp only [pg_pos hI]
    exact at_iff_lt
  offset g hg p n d k h := ⟨h.2, h.1⟩
  index g hg p n d k h := by
    rw [pg_pos (hg.inv hmax)] at h
    exact at_index.2 h
  all g hg n hn := by
    have hI := hg.inv hmax
    obtain ⟨h1, h2⟩ := allLinks_ok (ofPG_ok hI 0 0) n
    refine ⟨_, rfl, h1, fun e f => ?_⟩
    rw [h2, shows_pg]
    refine and_congr Iff.rfl (and_congr ?_ (not_congr ?_))
    · show g.portNode e = some n ↔ ∃ d k, (pgObs g).pos e (n, d, k)
      constructor
      · intro h
        obtain ⟨⟨n', d, k⟩, h3⟩ := (live_at hI).1 (show (g.port? e).isSome by
          cases hp : g.port? e with
          | none => simp [PG.portNode, hp] at h
          | some x => rfl)
        rw [At.portNode hI h3] at h
        cases h
        exact ⟨d, k, (pg_pos hI).2 h3⟩
      · rintro ⟨d, k, h⟩; exact h.1
    · show (g.portNode f = some n ∧ g.portDirection f = some .outgoing) ↔ ∃ k, (pgObs g).pos f (n, .outgoing, k)
      constructor
      · rintro ⟨h, h'⟩
        obtain ⟨⟨n', d, k⟩, h3⟩ := (live_at hI).1 (show (g.port? f).isSome by
          cases hp : g.port? f with
          | none => simp [PG.portNode, hp] at h
          | some x => rfl)
        rw [At.portNode hI h3] at h
        rw [At.portDirection hI h3] at h'
        cases h
        cases h'
        exact ⟨k, (pg_pos hI).2 h3⟩
      · rintro ⟨k, h⟩
        exact ⟨h.1, At.portDirection hI ((pg_pos hI).1 h)⟩
  add g hg r _ i o hi ho := by
    have hI := hg.inv hmax
    obtain ⟨n, g', h1, h2, h3, h4, h5, h6, -, h8⟩ := add_flat hI hi ho hmax
    refine ⟨n, g', h1, .step hg (op := .addNode i o) ⟨hi, ho⟩ (by simp [PG.step, h1]), trivial, ?_, h4, ?_, ?_, ?_, h8⟩
    · show ¬ g.containsNode n = true
      rw [h3]; simp
    · intro p e he; rw [pg_pos hI, pg_pos h2]; exact h5 p e he
    · intro j; simp only [pg_pos h2]; rw [at_iff_lt, h6.1]
    · intro j; simp only [pg_pos h2]; rw [at_iff_lt, h6.2]
  link_ok g hg r _ a b x y hx hy hd hfree := by
    have hI := hg.inv hmax
    rw [pg_pos hI] at hx hy
    obtain ⟨f1, f2⟩ := hfree trivial
    have la : ∀ q, ¬ Lk g a q := fun q hq => f1 a q rfl hq
    have lb : ∀ q, ¬ Lk g b q := fun q hq => f2 b q rfl hq
    obtain ⟨g', h1, h2, h3, h4⟩ := link_flat hI hx hy hd la lb
    refine ⟨a, b, g', h1, .step hg (op := .linkPorts a b) trivial (by simp [PG.step, h1]), trivial, rfl, rfl, ?_, ?_, la, lb, h4⟩
    · intro n; show g'.containsNode n = true ↔ g.containsNode n = true; rw [h3.node]
    · intro p e; rw [pg_pos hI, pg_pos h2, h3.at_iff]
  link_err _ g hg a b x y hx hy hd hfa hfb := by
    have hI := hg.inv hmax
    rw [pg_pos hI] at hx hy
    obtain ⟨b', z, hb', hz⟩ := hfb
    have hbb : b' = b := hb'
    subst hbb
    obtain ⟨g', h1, h2⟩ := C10_link_ports_outcome_partial hmax hg a b'
    have h3 : linkOutcome g a b' = .error (.alreadyLinked b') := by
      unfold linkOutcome
      rw [At.portDirection hI hx, At.portDirection hI hy, (no_link hI hx).2 fun q hq => hfa a q rfl hq,
        show g.portLink? b' = some (some z) from hz]
      simp [hd]
    rw [h3] at h1 h2
    obtain rfl := h2 rfl
    exact h1
  single_inj _ e f h := h
  remove g hg n hn := by
    have hI := hg.inv hmax
    obtain ⟨g', h1, h2, h3, h4, h5⟩ := remove_flat hI hn
    refine ⟨g', h1, .step hg (op := .removeNode n) trivial (by simp [PG.step, h1]), ?_, ?_, ?_⟩
    · intro x; rw [and_comm]; exact h3 x
    · intro p e; rw [pg_pos hI, pg_pos h2, h4]
    · intro e f
      have := h5 e f
      refine this.trans (and_congr_right fun hl => ?_)
      obtain ⟨x, y, g1, g2, -⟩ := hl.at hI
      rw [At.portNode hI g1, At.portNode hI g2]
      simp only [pg_pos hI]
      constructor
      · rintro ⟨g3, g4⟩
        refine ⟨fun z hz => ?_, fun z hz => ?_⟩
        · rw [hz.inj hI g1]; simpa using g3
        · rw [hz.inj hI g2]; simpa using g4
      · rintro ⟨g3, g4⟩
        exact ⟨by simpa using g3 x g1, by simpa using g4 y g2⟩

/-! ## `MultiPortGraph` -/

/-- Room for `r` more links: no port gets more than 32767 subports. -/
def MgRoom (m : MG) (r : Nat) : Prop := r ≤ 32766 ∧ ∀ p k, m.obs.sub (p, k) → k + r ≤ 32766

theorem sub_lengths {m : MG} (h : MOk m) {p r : Nat} (hp : m.containsPort p = true) (hr : r ≤ 32766) (hroom : ∀ k, m.obs.sub (p, k) → k + (r + 1) ≤ 32766) :
    m.room p := by
  intro l hl
  left
  obtain ⟨l', h1, h2, h3⟩ := subportsAt_spec h hp
  rw [hl] at h1; cases h1
  have hsub : l ⊆ (List.range (32766 - r)).map fun k => (p, k) := by
    rintro ⟨q, k⟩ hm
    obtain ⟨h4, h5⟩ := (h3 _).1 hm
    simp only at h4
    subst h4
    have := hroom k ((obs_sub h).2 h5)
    exact List.mem_map.2 ⟨k, List.mem_range.2 (by omega), rfl⟩
  have := (List.subperm_of_subset h2 hsub).length_le
  simp at this
  omega

theorem mg_law {maxOff : Nat} (h2m : 2 ≤ maxOff) (hmax : maxOff ≤ 32767) :
    Law (mgHost maxOff) (MReach maxOff) mgObs MgRoom False maxOff where
  pos_fun m hm := (obs_wf (hm.ok h2m hmax)).pos_fun
  pos_one m hm := (obs_wf (hm.ok h2m hmax)).pos_one
  pos_node m hm := (obs_wf (hm.ok h2m hmax)).pos_node
  link_sym m hm := (obs_wf (hm.ok h2m hmax)).link_sym
  link_one m hm := (obs_wf (hm.ok h2m hmax)).link_one
  link_port m hm e f h := by
    have W := obs_wf (hm.ok h2m hmax)
    exact W.sub_port _ (W.link_sub _ _ h)
  link_dir m hm := (obs_wf (hm.ok h2m hmax)).link_dir
  num m hm n hn := hasPorts (hm.ok h2m hmax) (obs_node.1 hn).2
  offset m hm p n d k h := ⟨h.2.2, h.2.1⟩
  index m hm p n d k h := at_index.2 ((obs_pos (hm.ok h2m hmax)).1 h).1
  all m hm n hn := by
    have h := hm.ok h2m hmax
    have hc : m.containsNode n = true := hn
    obtain ⟨h1, h2⟩ := allLinks_ok (ofMG_ok h 0 0) n
    have hal : ∃ l, m.allLinks? n = some l := by
      have := linksOf_flatMap (cn := 0) (cp := 0) h (allPorts_vis (contains_iff.1 hc).2)
      exact ⟨_, by rw [MG.allLinks?, this]; rfl⟩
    obtain ⟨l, hl⟩ := hal
    have hle : (ofMG m 0 0).allLinks n = l := by
      show (if m.containsNode n then (m.allLinks? n).getD [] else []) = l
      rw [if_pos hc, hl]; rfl
    rw [hle] at h1 h2
    refine ⟨l, hl, h1, fun e f => ?_⟩
    rw [h2, shows_iff h, ← obs_link h]
    refine and_congr_right fun hs => ?_
    have W := obs_wf h
    obtain ⟨⟨xn, xd, xk⟩, hx⟩ := W.sub_port _ (W.link_sub _ _ hs)
    obtain ⟨⟨yn, yd, yk⟩, hy⟩ := W.sub_port _ (W.link_sub _ _ (W.link_sym _ _ hs))
    have hx' := ((obs_pos h).1 hx)
    have hy' := ((obs_pos h).1 hy)
    refine and_congr ?_ (not_congr ?_)
    · show m.graph.portNode e.1 = some n ↔ ∃ d k, m.obs.pos e.1 (n, d, k)
      rw [At.portNode h.inv hx'.1]
      constructor
      · intro he; cases he; exact ⟨_, _, hx⟩
      · rintro ⟨d, k, he⟩; rw [W.pos_fun _ _ _ hx he]
    · show (m.graph.portNode f.1 = some n ∧ m.graph.portDirection f.1 = some .outgoing) ↔ ∃ k, m.obs.pos f.1 (n, .outgoing, k)
      rw [At.portNode h.inv hy'.1, At.portDirection h.inv hy'.1]
      constructor
      · rintro ⟨he, he'⟩; cases he; cases he'; exact ⟨_, hy⟩
      · rintro ⟨k, he⟩; rw [W.pos_fun _ _ _ hy he]; exact ⟨rfl, rfl⟩
  add m hm r hr i o hi ho := by
    have h := hm.ok h2m hmax
    obtain ⟨res, m', h1, h2, h3⟩ := step_eff h2m hmax h (op := .addNode i o) ⟨hi, ho⟩
    obtain ⟨⟨n, m''⟩, h4, h5⟩ := Option.map_eq_some_iff.1 h1
    obtain ⟨rfl, rfl⟩ := Prod.mk.inj h5
    obtain ⟨e1, e2, e3, e4, e5, e6, e7⟩ := h3
    refine ⟨n, m'', h4, .step hm (op := .addNode i o) ⟨hi, ho⟩ h1, ⟨hr.1, ?_⟩, e1, e2, e3, e4, e5, e6⟩
    intro p k hk
    rcases (e7 _).1 hk with hk | ⟨hk, -⟩
    · exact hr.2 p k hk
    · have := hr.1; simp only at hk; omega
  link_ok m hm r hr a b x y hx hy hd _ := by
    have h := hm.ok h2m hmax
    have hok : MOp.ok maxOff m (.linkPorts a b) :=
      ⟨hx.1, hy.1, sub_lengths h hx.1 (by have := hr.1; omega) (fun k hk => hr.2 a k hk),
        sub_lengths h hy.1 (by have := hr.1; omega) (fun k hk => hr.2 b k hk)⟩
    obtain ⟨res, m', h1, h2, h3⟩ := step_eff h2m hmax h hok
    obtain ⟨⟨r', m''⟩, h4, h5⟩ := Option.map_eq_some_iff.1 h1
    obtain ⟨rfl, rfl⟩ := Prod.mk.inj h5
    obtain ⟨e1, e2, e3⟩ := h3
    obtain ⟨k, l, rfl, ⟨f1, f2, -, f3⟩, -, -, f4⟩ := (e3 x y hx hy).1 hd
    refine ⟨(a, k), (b, l), m'', h4, .step hm hok h1, ⟨by have := hr.1; omega, ?_⟩, rfl, rfl, e1, e2, f1, f2, f3⟩
    have W := obs_wf h2
    intro p j hj
    cases j with
    | zero => have := hr.1; omega
    | succ j =>
      have hab : a ≠ b := by
        rintro rfl
        exact hd (by rw [(obs_wf h).pos_fun _ _ _ hx hy])
      rcases (f4 _).1 hj with hs | hs | hs
      · have := hr.2 p _ hs; omega
      all_goals
        obtain ⟨rfl, rfl⟩ := Prod.mk.inj hs
        rcases (f4 _).1 (W.sub_down p (j + 1) j hj (by omega)) with hs | hs | hs
        · have := hr.2 p _ hs; omega
        · have := Prod.mk.inj hs
          first | exact absurd this.1.symm hab | omega
        · have := Prod.mk.inj hs
          first | exact absurd this.1 hab | omega
  link_err h := h.elim
  single_inj h := h.elim
  remove m hm n hn := by
    have h := hm.ok h2m hmax
    obtain ⟨res, m', h1, h2, h3⟩ := step_eff h2m hmax h (op := .removeNode n) (.inl hn)
    obtain ⟨m'', h4, h5⟩ := Option.map_eq_some_iff.1 h1
    obtain ⟨rfl, rfl⟩ := Prod.mk.inj h5
    obtain ⟨e1, e2, e3, -⟩ := h3
    exact ⟨m'', h4, .step hm (op := .removeNode n) (.inl hn) h1, e1, e2, e3⟩

end Verif.CopyIn
