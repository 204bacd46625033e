import Verif.Multi.Inv

/-!
# The queries of `MultiPortGraph`

Each query about a visible node or port returns, and what it returns is described by `Sub` and
`ShowsR`.
-/

namespace Verif.Multi

open Verif (Direction)
open Verif.PG Verif.View

theorem mapM_some {α β : Type} {f : α → Option β} {k : α → β} {l : List α} (h : ∀ x ∈ l, f x = some (k x)) :
    l.mapM f = some (l.map k) := by
  induction l with
  | nil => rfl
  | cons a l ih =>
    rw [List.mapM_cons, h a (List.mem_cons_self ..), ih fun x hx => h x (List.mem_cons_of_mem _ hx)]
    rfl

theorem range_map_ports (g : PG) (c : Nat) (d : Direction) :
    (g.ports c d).zipIdx = (List.range (g.numPorts c d)).filterMap fun k => (g.portIndex c d k).map fun q => (q, k) := by
  have hmap : ∀ {l : List Nat} (n : Nat), l.length = n →
      (List.range n).filterMap (fun k => (l[k]?).map fun q => (q, k)) = l.zipIdx := by
    intro l n hn
    subst hn
    apply List.ext_getElem?
    intro i
    have : (List.range l.length).filterMap (fun k => (l[k]?).map fun q => (q, k)) =
        (List.range l.length).map (fun k => ((l[k]?).getD 0, k)) := by
      rw [← List.filterMap_eq_map]
      apply List.filterMap_congr
      intro k hk
      rw [List.mem_range] at hk
      simp [List.getElem?_eq_getElem hk]
    rw [this, List.getElem?_map, List.getElem?_zipIdx]
    by_cases hi : i < l.length
    · simp [List.getElem?_range hi, List.getElem?_eq_getElem hi]
    · simp [List.getElem?_eq_none (Nat.le_of_not_lt hi), List.getElem?_eq_none (l := List.range l.length) (by simpa using hi)]
  rw [← hmap (g.numPorts c d) (length_ports g c d)]
  apply List.filterMap_congr
  intro k _
  congr 1
  unfold PG.ports PG.portIndex
  cases g.node? c <;> simp

/-- The subport at the other end, as computed by `subport_link`. -/
def tgt (m : MG) (e : Subport) : Option Subport := (m.subportLink? e).join

namespace MInv

variable {m : MG}

theorem name (h : MOk m) {q r : Nat} {e : Subport} (hs : Sub m q e) (hl : Lk m.graph q r) :
    ∃ f, Sub m r f ∧ m.fromIndex r = some (some f) := by
  obtain ⟨f, hf⟩ := h.lk_sub hl (h.sub_flag hs) (fun _ => not_false)
  exact ⟨f, hf, h.fromIndex_eq hf⟩

/-- `subport_link` of a subport. -/
theorem subportLink_eq (h : MOk m) {q : Nat} {e : Subport} (hs : Sub m q e) :
    m.subportLink? e = some (tgt m e) ∧ ∀ f, tgt m e = some f ↔ ShowsR m e f := by
  unfold tgt
  obtain ⟨n, d, k, hat, -⟩ := id hs
  have hu := unlinked h.inv hat
  unfold MG.subportLink?
  rw [h.index_eq hs]
  simp only
  rw [hu]
  cases hl : m.graph.lk q with
  | none =>
    simp only
    refine ⟨by simp, fun f => ?_⟩
    simp only [Option.join_some, reduceCtorEq, false_iff]
    rintro ⟨q', r, h1, h2, h3⟩
    obtain rfl := h.sub_inj hs h1
    rw [((lk_iff h.inv).1 h3).2] at hl; cases hl
  | some r =>
    simp only
    have hlk : Lk m.graph q r := by unfold Lk; rw [hu, hl]
    obtain ⟨f', hf', hi⟩ := h.name hs hlk
    rw [hi]
    refine ⟨by simp, fun f => ?_⟩
    simp only [Option.join_some, Option.some.injEq]
    constructor
    · rintro rfl; exact ⟨q, r, hs, hf', hlk⟩
    · intro hS; exact ShowsR.fun h ⟨q, r, hs, hf', hlk⟩ hS

theorem linkFrom_eq (h : MOk m) {q : Nat} {e : Subport} (hs : Sub m q e) :
    m.linkFrom (some e) q = some ((tgt m e).map fun f => (e, f)) := by
  obtain ⟨n, d, k, hat, -⟩ := id hs
  have hu := unlinked h.inv hat
  unfold MG.linkFrom
  rw [hu]
  have ht := (h.subportLink_eq hs).2
  cases hl : m.graph.lk q with
  | none =>
    have : tgt m e = none := by
      rw [Option.eq_none_iff_forall_ne_some]
      intro f hf
      obtain ⟨q', r, h1, h2, h3⟩ := (ht f).1 hf
      obtain rfl := h.sub_inj hs h1
      rw [((lk_iff h.inv).1 h3).2] at hl; cases hl
    simp [this]
  | some r =>
    have hlk : Lk m.graph q r := by unfold Lk; rw [hu, hl]
    obtain ⟨f', hf', hi⟩ := h.name hs hlk
    simp only
    rw [hi, (ht f').2 ⟨q, r, hs, hf', hlk⟩]
    rfl

theorem copyNode_eq (h : MOk m) {p c cp : Nat} {d : Direction} (hC : CopyOf m c d cp) (hl : Lk m.graph p cp) :
    m.copyNode p = some (some c) := by
  unfold MG.copyNode
  rw [show m.graph.portLink? p = _ from hl]
  simp only
  rw [At.portNode h.inv hC.port]

/-- `port_links` and the subports of a visible port. -/
theorem portLinks_eq (h : MOk m) {p : Nat} (hv : Vis m p) :
    ∃ S : List Subport, m.subportsAt? p = some S ∧ S.Nodup ∧ (∀ e, e ∈ S ↔ e.1 = p ∧ ∃ q, Sub m q e) ∧
      m.portLinks? p = some (S.filterMap fun e => (tgt m e).map fun f => (e, f)) := by
  cases hm : m.multi p with
  | false =>
    have hs : Sub m p (p, 0) := (h.sub_single hv hm).2 ⟨rfl, rfl⟩
    refine ⟨[(p, 0)], by simp [MG.subportsAt?, hm], by simp, ?_, ?_⟩
    · rintro ⟨p', k⟩
      simp only [List.mem_singleton, Prod.mk.injEq]
      constructor
      · rintro ⟨rfl, rfl⟩; exact ⟨rfl, p', hs⟩
      · rintro ⟨rfl, q, hq⟩; exact ⟨rfl, ((h.sub_single hv hm).1 hq).2⟩
    · unfold MG.portLinks?
      rw [if_neg (by simp [hm]), h.linkFrom_eq hs]
      cases ht : tgt m (p, 0) <;> simp [ht]
  | true =>
    obtain ⟨⟨x, d, k⟩, hp, hx⟩ := hv
    obtain ⟨c, cp, hC, hl⟩ := h.copy_of_main hp hx hm
    have hcn := copyNode_eq h hC hl
    have hdir := At.portDirection h.inv hp
    have hsub : ∀ q j, Sub m q (p, j) ↔ At m.graph q (c, d, j) := fun q j => h.sub_multi hC hl
    have hnm : ∀ j, j < m.graph.numPorts c d → newMulti p j = some (p, j) := by
      intro j hj
      obtain ⟨q, hq⟩ := at_iff_lt.2 hj
      have := h.sub_lt ((hsub q j).2 hq)
      simp only at this
      simp [newMulti, this]
    refine ⟨(List.range (m.graph.numPorts c d)).map fun j => (p, j), ?_, ?_, ?_, ?_⟩
    · unfold MG.subportsAt?
      rw [if_pos hm, hcn, hdir]
      simp only
      exact mapM_some fun j hj => hnm j (List.mem_range.1 hj)
    · apply List.Nodup.map_on _ List.nodup_range
      intro a _ b _ hab
      simpa using hab
    · rintro ⟨p', j⟩
      simp only [List.mem_map, List.mem_range, Prod.mk.injEq]
      constructor
      · rintro ⟨j', h1, rfl, rfl⟩
        obtain ⟨q, hq⟩ := at_iff_lt.2 h1
        exact ⟨rfl, q, (hsub q j').2 hq⟩
      · rintro ⟨rfl, q, hq⟩
        exact ⟨j, at_iff_lt.1 ⟨q, (hsub q j).1 hq⟩, rfl, rfl⟩
    · unfold MG.portLinks?
      rw [if_pos hm, hcn]
      simp only
      rw [hdir]
      simp only
      have hget : ∀ x ∈ (m.graph.ports c d).zipIdx, At m.graph x.1 (c, d, x.2) := by
        rintro ⟨q, j⟩ hx
        rw [List.mem_zipIdx_iff_getElem?] at hx
        exact getElem?_ports.1 hx
      rw [mapM_some (k := fun x => (tgt m (p, x.2)).map fun f => ((p, x.2), f))]
      · simp only [Option.map_some]
        rw [range_map_ports, List.filterMap_map, List.filterMap_map, List.filterMap_filterMap]
        congr 1
        apply List.filterMap_congr
        intro j hj
        obtain ⟨q, hq⟩ := at_iff_lt.2 (List.mem_range.1 hj)
        rw [at_index.2 hq]
        simp
      · rintro ⟨q, j⟩ hx
        have hq := hget _ hx
        simp only at hq ⊢
        rw [hnm j (at_iff_lt.1 ⟨q, hq⟩)]
        exact h.linkFrom_eq ((hsub q j).2 hq)

/-- The subports of a list of visible ports. -/
theorem subports_eq (h : MOk m) {ps : List Nat} (hv : ∀ p ∈ ps, Vis m p) (hnd : ps.Nodup) :
    ∃ S : List Subport, m.subportsOf? ps = some S ∧ S.Nodup ∧ (∀ e, e ∈ S ↔ e.1 ∈ ps ∧ ∃ q, Sub m q e) ∧
      m.linksOf? ps = some (S.filterMap fun e => (tgt m e).map fun f => (e, f)) := by
  induction ps with
  | nil => exact ⟨[], rfl, by simp, by simp, rfl⟩
  | cons p ps ih =>
    obtain ⟨hp, hnd'⟩ := List.nodup_cons.1 hnd
    obtain ⟨S, h1, h2, h3, h4⟩ := ih (fun q hq => hv q (List.mem_cons_of_mem _ hq)) hnd'
    obtain ⟨T, t1, t2, t3, t4⟩ := h.portLinks_eq (hv p (List.mem_cons_self ..))
    unfold MG.subportsOf? at h1 ⊢
    unfold MG.linksOf? at h4 ⊢
    rw [Option.map_eq_some_iff] at h1 h4
    obtain ⟨a, ha, rfl⟩ := h1
    obtain ⟨b, hb, hb'⟩ := h4
    refine ⟨T ++ a.flatten, ?_, ?_, ?_, ?_⟩
    · rw [List.mapM_cons, t1, ha]; rfl
    · rw [List.nodup_append]
      refine ⟨t2, h2, ?_⟩
      rintro e he e' he' rfl
      have e1 := ((t3 e).1 he).1
      have e2 := ((h3 e).1 he').1
      rw [e1] at e2
      exact hp e2
    · intro e
      rw [List.mem_append, t3, h3, List.mem_cons]
      constructor
      · rintro (⟨h5, h6⟩ | ⟨h5, h6⟩)
        · exact ⟨.inl h5, h6⟩
        · exact ⟨.inr h5, h6⟩
      · rintro ⟨h5 | h5, h6⟩
        · exact .inl ⟨h5, h6⟩
        · exact .inr ⟨h5, h6⟩
    · rw [List.mapM_cons, t4, hb]
      simp only [Option.pure_def, Option.bind_eq_bind, Option.bind_some, Option.map_some, List.flatten_cons]
      rw [List.filterMap_append, hb']

/-- The node of a subport. -/
theorem sub_node (h : MOk m) {q : Nat} {e : Subport} (hs : Sub m q e) :
    ∃ n d, m.graph.portNode e.1 = some n ∧ m.graph.portDirection e.1 = some d ∧ m.graph.containsNode n = true ∧
      m.copy n = false ∧ m.graph.portDirection q = some d := by
  obtain ⟨n, c, d, k, l, h1, h2, h3⟩ := h.sub_vis hs
  exact ⟨n, d, At.portNode h.inv h1, At.portDirection h.inv h1, At.contains h1, h2, At.portDirection h.inv h3⟩

theorem subportTarget_eq (h : MOk m) {q : Nat} {e : Subport} (hs : Sub m q e) :
    m.subportTarget? e = m.graph.portLink? q := by
  unfold MG.subportTarget?
  rcases h.sub_iff.1 hs with ⟨h1, ⟨x, h2, h3, h4⟩ | ⟨c, d, cp, h2, h3, h4⟩⟩
  · rw [h4]; simp [h1]
  · obtain ⟨h5, x, k, h6, h7⟩ := h.main_vis h3 h4
    rw [if_neg (by simp [h5]), copyNode_eq h h3 (h4.sym h.inv), At.portDirection h.inv h6]
    simp only
    rw [at_index.2 h2]

/-- The node listed by the iterators over neighbours. -/
theorem neighbourAt_eq (h : MOk m) {q : Nat} {e : Subport} (hs : Sub m q e) (n : Nat) (ig : Bool) :
    m.neighbourAt? n ig e = some ((tgt m e).bind fun f =>
      if ig && decide (m.graph.portNode f.1 = some n ∧ m.graph.portDirection f.1 = some .outgoing) then none
      else m.graph.portNode f.1) := by
  unfold MG.neighbourAt?
  rw [h.subportTarget_eq hs]
  obtain ⟨x, d, k, hat, -⟩ := id hs
  have hu := unlinked h.inv hat
  have ht := (h.subportLink_eq hs).2
  rw [hu]
  cases hl : m.graph.lk q with
  | none =>
    have : tgt m e = none := by
      rw [Option.eq_none_iff_forall_ne_some]
      intro f hf
      obtain ⟨q', r, h1, h2, h3⟩ := (ht f).1 hf
      obtain rfl := h.sub_inj hs h1
      rw [((lk_iff h.inv).1 h3).2] at hl; cases hl
    simp [this]
  | some r =>
    have hlk : Lk m.graph q r := by unfold Lk; rw [hu, hl]
    obtain ⟨f', hf', hi⟩ := h.name hs hlk
    simp only
    rw [hi, (ht f').2 ⟨q, r, hs, hf', hlk⟩]
    simp only
    obtain ⟨n', d', h1, h2, -⟩ := h.sub_node hf'
    rw [h1, h2]
    simp only [Option.bind_some]
    cases ig <;> by_cases hn : n' = n <;> cases d' <;> simp [hn, h1, h2]

end MInv

/-- The flat ports of a visible node are visible. -/
theorem ports_vis {m : MG} {n : Nat} {d : Direction} (hn : m.copy n = false) : ∀ p ∈ m.graph.ports n d, Vis m p := by
  intro p hp
  obtain ⟨k, hk⟩ := mem_ports.1 hp
  exact ⟨_, hk, hn⟩

theorem allPorts_vis {m : MG} {n : Nat} (hn : m.copy n = false) : ∀ p ∈ m.graph.allPorts n, Vis m p := by
  intro p hp
  obtain ⟨d, k, hk⟩ := mem_allPorts.1 hp
  exact ⟨_, hk, hn⟩

theorem ports_nodup (g : PG) (n : Nat) (d : Direction) : (g.ports n d).Nodup := by
  unfold PG.ports
  cases g.node? n with
  | none => simp
  | some m => exact List.nodup_range' (step := 1) ..

theorem allPorts_nodup (g : PG) (n : Nat) : (g.allPorts n).Nodup := by
  unfold PG.allPorts
  cases g.node? n with
  | none => simp
  | some m => exact List.nodup_range' (step := 1) ..

theorem vis_iff {m : MG} (hI : Inv m.graph) {p : Nat} : Vis m p ↔ m.containsPort p = true := by
  unfold MG.containsPort
  constructor
  · rintro ⟨e, h1, h2⟩
    rw [At.portNode hI h1]; simp [h2]
  · intro h
    cases hp : m.graph.port? p with
    | none => simp [PG.portNode, hp] at h
    | some x =>
      obtain ⟨e, he⟩ := (live_at hI).1 (by rw [hp]; rfl)
      rw [At.portNode hI he] at h
      exact ⟨e, he, by simpa using h⟩

end Verif.Multi
