import Verif.Multi.View

/-!
# The view of a `MultiPortGraph` is well formed, and its counts
-/

namespace Verif.Multi

open Verif (Direction)
open Verif.PG Verif.View

/-- Counting along a one-to-one relation. -/
theorem Counted.bij {P Q : Nat → Prop} {n : Nat} (h : Counted P n) (R : Nat → Nat → Prop)
    (h1 : ∀ x, P x → ∃ y, Q y ∧ R x y) (h2 : ∀ y, Q y → ∃ x, P x ∧ R x y)
    (h3 : ∀ x y y', R x y → R x y' → y = y') (h4 : ∀ x x' y, R x y → R x' y → x = x') : Counted Q n := by
  have hc : ∀ x, ∃ y, P x → Q y ∧ R x y := by
    intro x
    by_cases hx : P x
    · obtain ⟨y, hy⟩ := h1 x hx; exact ⟨y, fun _ => hy⟩
    · exact ⟨0, fun h => absurd h hx⟩
  obtain ⟨π, hπ⟩ := Classical.axiomOfChoice hc
  refine (h.image (π := π) ?_).congr ?_
  · intro x y hx hy he
    have e1 := (hπ x hx).2
    have e2 := (hπ y hy).2
    rw [he] at e1
    exact h4 _ _ _ e1 e2
  · intro y
    constructor
    · intro hy
      obtain ⟨x, hx, hr⟩ := h2 y hy
      exact ⟨x, hx, h3 _ _ _ hr (hπ x hx).2⟩
    · rintro ⟨x, hx, rfl⟩; exact (hπ x hx).1

theorem counted_nodes {g : PG} (hI : Inv g) : Counted (fun n => g.containsNode n = true) g.nodeCount := by
  have ok := ofPG_ok hI 0 0
  exact ⟨_, ok.nodes_nodup, ok.mem_nodes, ok.node_count.symm⟩

theorem counted_ports {g : PG} (hI : Inv g) : Counted (fun p => ∃ e, At g p e) g.portCount := by
  have ok := ofPG_ok hI 0 0
  refine ⟨_, ok.iter_nodup, fun p => ?_, ok.port_count.symm⟩
  rw [ok.mem_iter]
  exact containsPort_iff.trans (live_at hI)

theorem counted_links {g : PG} (hI : Inv g) :
    Counted (fun p => (∃ q, Lk g p q) ∧ g.portDirection p = some .outgoing) g.linkCount := by
  obtain ⟨l, hl, hc⟩ := ofPG_count hI 0 0
  refine ⟨l.map Prod.fst, ?_, ?_, by rw [List.length_map]; exact hc.symm⟩
  · apply List.Nodup.map_on _ hl.nodup
    rintro ⟨a, b⟩ hx ⟨a', b'⟩ hy h
    simp only at h
    subst h
    have h1 := ((hl.mem _ _).1 hx).1
    have h2 := ((hl.mem _ _).1 hy).1
    rw [(ofPG_ok hI 0 0).shows_one _ _ _ h1 h2]
  · intro p
    simp only [List.mem_map, Prod.exists, exists_and_right, exists_eq_right]
    constructor
    · rintro ⟨q, hq⟩
      obtain ⟨h1, h2⟩ := (hl.mem _ _).1 hq
      exact ⟨⟨q, (shows_pg (cn := 0) (cp := 0)).1 h1⟩, h2⟩
    · rintro ⟨⟨q, hq⟩, h2⟩
      exact ⟨q, (hl.mem _ _).2 ⟨(shows_pg (cn := 0) (cp := 0)).2 hq, h2⟩⟩

variable {m : MG} {cn cp : Nat}

/-- The marked ports of copy nodes: one for each copy node. -/
theorem counted_copy_ports {D : Nat → Prop} (h : MInv m D) :
    Counted (fun p => m.multi p = true ∧ ∃ e, At m.graph p e ∧ m.copy e.1 = true) m.copyCount := by
  refine h.copies.bij (fun c p => ∃ d, CopyOf m c d p) ?_ ?_ ?_ ?_
  · intro c hc
    obtain ⟨d, p, hC⟩ := h.shape c hc
    exact ⟨p, ⟨hC.flag, _, hC.port, hC.copy⟩, d, hC⟩
  · rintro p ⟨h1, ⟨c, d, k⟩, h2, h3⟩
    exact ⟨c, h3, _, h.copy_port h3 h2 h1⟩
  · rintro c p p' ⟨d, h1⟩ ⟨d', h2⟩
    exact (h1.fun h2).2
  · rintro c c' p ⟨d, h1⟩ ⟨d', h2⟩
    have := h1.port.inj h.inv h2.port
    simp only [Prod.mk.injEq] at this
    exact this.1

/-- The outgoing ports of the links between main ports and copy nodes. -/
theorem counted_copy_links (h : MOk m) :
    Counted (fun p => m.multi p = true ∧ m.graph.portDirection p = some .outgoing) m.copyCount := by
  refine (counted_copy_ports h).bij (fun cp p => m.graph.portDirection p = some .outgoing ∧
    ((p = cp ∧ ∃ e, At m.graph p e ∧ m.copy e.1 = true) ∨ (Lk m.graph cp p ∧ m.multi cp = true ∧ ∃ e, At m.graph p e ∧ m.copy e.1 = false))) ?_ ?_ ?_ ?_
  · rintro cp ⟨h1, ⟨c, d, k⟩, h2, h3⟩
    have hC := h.copy_port h3 h2 h1
    obtain ⟨p, f, g1, g2, g3, g4⟩ := h.multi_at h1 not_false h2
    cases d with
    | outgoing => exact ⟨cp, ⟨h1, At.portDirection h.inv h2⟩, At.portDirection h.inv h2, .inl ⟨rfl, _, h2, h3⟩⟩
    | incoming =>
      have hd := g2.dir h.inv h2 g1
      have hd' := At.portDirection h.inv g1
      rw [hd] at hd'
      exact ⟨p, ⟨g3, hd'⟩, hd', .inr ⟨g2, h1, f, g1, by simpa [h3] using g4⟩⟩
  · rintro p ⟨h1, h2⟩
    obtain ⟨e, he⟩ := h.multi_live h1
    cases hc : m.copy e.1 with
    | true => exact ⟨p, ⟨h1, e, he, hc⟩, h2, .inl ⟨rfl, e, he, hc⟩⟩
    | false =>
      obtain ⟨q, f, g1, g2, g3, g4⟩ := h.multi_at h1 not_false he
      exact ⟨q, ⟨g3, f, g1, by simpa [hc] using g4⟩, h2, .inr ⟨g2.sym h.inv, g3, e, he, hc⟩⟩
  · rintro cp p p' ⟨d1, ⟨rfl, e, e1, e2⟩ | ⟨l1, -, e, e1, e2⟩⟩ ⟨d2, ⟨rfl, e', e1', e2'⟩ | ⟨l1', -, e', e1', e2'⟩⟩
    · rfl
    · have h1 := l1'.dir h.inv e1 e1'
      rw [At.portDirection h.inv e1] at d1
      rw [At.portDirection h.inv e1'] at d2
      simp only [Option.some.injEq] at d1 d2
      rw [d1, d2] at h1; simp [Direction.reverse] at h1
    · have h1 := l1.dir h.inv e1' e1
      rw [At.portDirection h.inv e1'] at d2
      rw [At.portDirection h.inv e1] at d1
      simp only [Option.some.injEq] at d1 d2
      rw [d1, d2] at h1; simp [Direction.reverse] at h1
    · exact l1.fun l1'
  · rintro cp cp' p ⟨d1, ⟨rfl, e, e1, e2⟩ | ⟨l1, -, e, e1, e2⟩⟩ ⟨d2, ⟨rfl, e', e1', e2'⟩ | ⟨l1', -, e', e1', e2'⟩⟩
    · rfl
    · rw [e1.inj h.inv e1', e2'] at e2; cases e2
    · rw [e1.inj h.inv e1', e2'] at e2; cases e2
    · exact l1.inj h.inv l1'

/-- `node_count` counts the visible nodes, and the subtraction does not underflow. -/
theorem nodeCount_ok (h : MOk m) : m.copyCount ≤ m.graph.nodeCount ∧
    Counted (fun n => m.containsNode n = true) m.nodeCount := by
  obtain ⟨h1, h2⟩ := (counted_nodes h.inv).diff h.copies h.copyLive
  refine ⟨h1, h2.congr fun n => ?_⟩
  rw [contains_iff]; simp

/-- `port_count` counts the visible ports, and the subtractions do not underflow. -/
theorem portCount_ok (h : MOk m) : m.subCount + m.copyCount ≤ m.graph.portCount ∧
    Counted (fun p => m.containsPort p = true) m.portCount := by
  have hu := h.subs.union (counted_copy_ports h) (by
    rintro x ⟨h1, -⟩ ⟨h2, -⟩; rw [h1] at h2; cases h2)
  obtain ⟨h1, h2⟩ := (counted_ports h.inv).diff hu (by
    rintro p (⟨-, e, h1, -⟩ | ⟨-, e, h1, -⟩) <;> exact ⟨e, h1⟩)
  refine ⟨h1, ?_⟩
  have : m.portCount = m.graph.portCount - (m.subCount + m.copyCount) := by unfold MG.portCount; omega
  rw [this]
  refine h2.congr fun p => ?_
  rw [← vis_iff h.inv]
  constructor
  · rintro ⟨e, h3, h4⟩
    refine ⟨⟨e, h3⟩, ?_⟩
    rintro (⟨-, e', h5, h6⟩ | ⟨-, e', h5, h6⟩)
    · rw [h5.inj h.inv h3, h4] at h6; cases h6
    · rw [h5.inj h.inv h3, h4] at h6; cases h6
  · rintro ⟨⟨e, h3⟩, h4⟩
    refine ⟨e, h3, ?_⟩
    cases hc : m.copy e.1 with
    | false => rfl
    | true =>
      exfalso; apply h4
      cases hm : m.multi p with
      | false => exact .inl ⟨hm, e, h3, hc⟩
      | true => exact .inr ⟨rfl, e, h3, hc⟩

/-- `link_count` counts the flat links between unmarked ports. -/
theorem linkCount_ok (h : MOk m) : m.copyCount ≤ m.graph.linkCount ∧
    Counted (fun p => ((∃ q, Lk m.graph p q) ∧ m.graph.portDirection p = some .outgoing) ∧ m.multi p = false) m.linkCount := by
  obtain ⟨h1, h2⟩ := (counted_links h.inv).diff (counted_copy_links h) (by
    rintro p ⟨h1, h2⟩
    obtain ⟨q, -, -, -, -, h3, -⟩ := h.partner p h1 not_false
    exact ⟨⟨q, h3⟩, h2⟩)
  refine ⟨h1, h2.congr fun p => ?_⟩
  refine and_congr_right fun h3 => ?_
  simp [h3.2]

theorem mem_nodes_mg (n : Nat) : n ∈ m.nodes ↔ m.containsNode n = true := by
  unfold MG.nodes
  rw [List.mem_filter, List.mem_filter, List.mem_range, contains_iff]
  simp only [Bool.not_eq_true']
  constructor
  · exact fun h => ⟨h.1.2, h.2⟩
  · exact fun h => ⟨⟨PG.node?_lt (containsNode_iff.1 h.1), h.1⟩, h.2⟩

theorem mem_portsIter_mg (p : Nat) : p ∈ m.portsIter ↔ m.containsPort p = true := by
  have e : m.portsIter = ((List.range m.graph.portMeta.length).filter m.graph.containsPort).filter m.containsPort := by
    unfold MG.portsIter
    congr 1
    funext p
    unfold MG.containsPort
    cases m.graph.portNode p <;> rfl
  rw [e]
  rw [List.mem_filter, List.mem_filter, List.mem_range]
  constructor
  · exact fun h => h.2
  · intro h
    refine ⟨?_, h⟩
    unfold MG.containsPort at h
    have h1 : (m.graph.port? p).isSome := by
      cases hp : m.graph.port? p with
      | none => simp [PG.portNode, hp] at h
      | some x => rfl
    exact ⟨PG.port?_lt h1, containsPort_iff.2 h1⟩

theorem takeWhile_all {α : Type} {p : α → Bool} {l : List α} (h : ∀ x ∈ l, p x = true) : l.takeWhile p = l := by
  induction l with
  | nil => rfl
  | cons a l ih =>
    rw [List.takeWhile_cons_of_pos (h a (List.mem_cons_self ..)), ih fun x hx => h x (List.mem_cons_of_mem _ hx)]

/-- All queries of the multigraph describe the same graph. -/
theorem ofMG_ok (h : MOk m) (cn cp : Nat) : (ofMG m cn cp).Ok where
  nodes_nodup := List.Nodup.filter _ (List.Nodup.filter _ List.nodup_range)
  mem_nodes n := mem_nodes_mg n
  node_count := (nodeCount_ok h).2.unique ⟨m.nodes, List.Nodup.filter _ (List.Nodup.filter _ List.nodup_range), mem_nodes_mg, rfl⟩
  iter_nodup := List.Nodup.filter _ (List.Nodup.filter _ List.nodup_range)
  mem_iter p := mem_portsIter_mg p
  port_iff p := by
    show m.containsPort p = true ↔ ∃ n, m.graph.portNode p = some n ∧ m.containsNode n = true
    rw [← vis_iff h.inv]
    constructor
    · rintro ⟨e, h1, h2⟩
      exact ⟨e.1, At.portNode h.inv h1, contains_iff.2 ⟨At.contains h1, h2⟩⟩
    · rintro ⟨n, h1, h2⟩
      cases hp : m.graph.port? p with
      | none => simp [PG.portNode, hp] at h1
      | some x =>
        obtain ⟨e, he⟩ := (live_at h.inv).1 (by rw [hp]; rfl)
        rw [At.portNode h.inv he] at h1
        cases h1
        exact ⟨e, he, (contains_iff.1 h2).2⟩
  port_count := (portCount_ok h).2.unique ⟨m.portsIter, List.Nodup.filter _ (List.Nodup.filter _ List.nodup_range), mem_portsIter_mg, rfl⟩
  ports_nodup n d := ports_nodup m.graph n d
  mem_ports n d p := mem_ports_iff h.inv
  port_dir p n hn := (ofPG_ok h.inv 0 0).port_dir p n hn
  all_ports n := all_eq m.graph n
  num_ports n d := (length_ports m.graph n d).symm
  from_port p e f he := ((mem_portLinks h).1 he).1
  links_nodup p := by
    show (if m.containsPort p = true then _ else _ : List _).Nodup
    split
    · rename_i hp
      obtain ⟨L, h1, h2, -⟩ := portLinks_spec h hp
      rw [h1]; exact h2
    · exact List.nodup_nil
  shows_sym e f hs := (shows_iff h).2 (((shows_iff h).1 hs).sym h)
  shows_dir e f hs := by
    obtain ⟨q, r, h1, h2, h3⟩ := (shows_iff h).1 hs
    obtain ⟨n, d, a1, a2, a3, a4, a5⟩ := h.sub_node h1
    obtain ⟨n', d', b1, b2, b3, b4, b5⟩ := h.sub_node h2
    obtain ⟨x, y, c1, c2, c3⟩ := h3.at h.inv
    rw [At.portDirection h.inv c1] at a5
    rw [At.portDirection h.inv c2] at b5
    cases a5; cases b5
    exact ⟨n, _, n', a1, a2, contains_iff.2 ⟨a3, a4⟩, b1, by rw [← c3]; exact b2, contains_iff.2 ⟨b3, b4⟩⟩
  shows_one e f f' h1 h2 := ShowsR.fun h ((shows_iff h).1 h1) ((shows_iff h).1 h2)
  links_eq n d := links_eq h n d
  all_links n := all_links_eq h n
  neighbours_eq n d hn := by
    obtain ⟨S, h1, h2, h3, h4, h5⟩ := subports_spec (cn := cn) (cp := cp) h hn d
    obtain ⟨L, h6, h7⟩ := neighbours_list h (fun e he => ((h4 e).1 he).2) n false
    have : (ofMG m cn cp).neighbours n d = L.filterMap id := by
      show (if m.containsNode n = true then _ else _) = _
      rw [if_pos (show m.containsNode n = true from hn), MG.neighbours?, h1]
      simp only
      rw [h6]; rfl
    rw [this, h7, h5]
    simp only [Bool.false_and, Bool.not_false, List.filter_true]
    rfl
  all_neighbours n hn := by
    obtain ⟨S, h1, h3, h4, h5⟩ := allSubports_spec h hn
    obtain ⟨L, h6, h7⟩ := neighbours_list h (fun e he => ((h4 e).1 he).2) n true
    have : (ofMG m cn cp).allNeighbours n = L.filterMap id := by
      show (if m.containsNode n = true then _ else _) = _
      rw [if_pos (show m.containsNode n = true from hn), MG.allNeighbours?, h1]
      simp only
      rw [h6]; rfl
    rw [this, h7, all_links_eq h n]
    have h8 := linksOf_flatMap (cn := cn) (cp := cp) h (allPorts_vis (contains_iff.1 hn).2)
    rw [h5] at h8
    simp only [Option.some.injEq] at h8
    rw [← h8]
    simp only [Bool.true_and]
    rfl
  connections a b := by
    show (if m.containsNode a = true then _ else _) = (if m.containsNode a = true then _ else _ : List _).filter _
    split
    · rename_i hn
      obtain ⟨S, -, -, -, h4, -⟩ := subports_spec (cn := cn) (cp := cp) h hn .outgoing
      have h5 := linksOf_flatMap (cn := cn) (cp := cp) h (ports_vis (d := .outgoing) (contains_iff.1 hn).2)
      rw [MG.connections?, MG.links?, h5]
      simp only [Option.map_some, Option.getD_some]
      rw [takeWhile_all]
      · rfl
      · rintro ⟨e, f⟩ hx
        obtain ⟨p, -, hp⟩ := List.mem_flatMap.1 hx
        obtain ⟨-, q, r, -, h6, -⟩ := (mem_portLinks h).1 hp
        obtain ⟨n, -, h7, -⟩ := h.sub_node h6
        simp [h7]
    · rfl

theorem ofMG_empty (h : MOk m) (cn cp : Nat) : (ofMG m cn cp).EmptyOk := by
  show decide (m.nodeCount = 0) = true ↔ _
  have ok := ofMG_ok h cn cp
  rw [decide_eq_true_iff, show m.nodeCount = m.nodes.length from ok.node_count, List.length_eq_zero_iff,
    List.eq_nil_iff_forall_not_mem]
  refine forall_congr' fun n => ?_
  rw [mem_nodes_mg]
  show _ ↔ m.containsNode n = false
  simp

theorem ofMG_multi (h : MOk m) (cn cp : Nat) : (ofMG m cn cp).MultiOk where
  sub_link e f := by
    rw [shows_iff h]
    show (if m.containsPort e.1 = true ∧ (m.multi e.1 = true ∨ e.2 = 0) then tgt m e else none) = some f ↔ _
    by_cases hs : ∃ q, Sub m q e
    · obtain ⟨q, hq⟩ := hs
      rw [if_pos, (h.subportLink_eq hq).2]
      obtain ⟨n, c, d, k, l, h1, h2, -⟩ := h.sub_vis hq
      refine ⟨(vis_iff h.inv).1 ⟨_, h1, h2⟩, ?_⟩
      cases hm : m.multi e.1 with
      | true => exact .inl rfl
      | false => exact .inr ((h.sub_single ⟨_, h1, h2⟩ hm).1 hq).2
    · have : ¬ ShowsR m e f := by rintro ⟨q, -, h1, -⟩; exact hs ⟨q, h1⟩
      simp only [this, iff_false]
      split
      · rename_i hc
        obtain ⟨h1, h2⟩ := hc
        obtain ⟨⟨x, d, k⟩, h3, h4⟩ := (vis_iff h.inv).2 h1
        cases hm : m.multi e.1 with
        | false =>
          have h5 : e.2 = 0 := by rcases h2 with h2 | h2; · rw [hm] at h2; cases h2
                                  · exact h2
          exfalso; apply hs
          refine ⟨e.1, ?_⟩
          have := (h.sub_single (q := e.1) (k := 0) ⟨_, h3, h4⟩ hm).2 ⟨rfl, rfl⟩
          rw [← h5] at this; exact this
        | true =>
          obtain ⟨c, cp', hC, hl⟩ := h.copy_of_main h3 h4 hm
          have hidx : m.graph.portIndex c d e.2 = none := by
            cases hp : m.graph.portIndex c d e.2 with
            | none => rfl
            | some q =>
              exfalso; apply hs
              exact ⟨q, (h.sub_multi hC hl (k := e.2)).2 (at_index.1 hp)⟩
          unfold tgt MG.subportLink? MG.index
          rw [if_pos hm, MInv.copyNode_eq h hC hl]
          simp only
          rw [At.portDirection h.inv h3]
          simp only [hidx]
          simp
      · simp
  sub_port n d e he := by
    have hn : m.containsNode n = true := by
      apply Classical.byContradiction
      intro hn
      rw [show (ofMG m cn cp).subports n d = if m.containsNode n = true then _ else _ from rfl, if_neg hn] at he
      exact absurd he (by simp)
    obtain ⟨S, h1, h2, h3, h4, -⟩ := subports_spec (cn := cn) (cp := cp) h hn d
    rw [h2] at he
    exact (mem_ports_iff h.inv).1 ((h4 e).1 he).1
  sub_linked n d e f hs h1 h2 := by
    have ok := ofMG_ok h cn cp
    obtain ⟨n', d', -, h3, -, h4, -⟩ := ok.shows_dir _ _ hs
    have : n' = n := by
      unfold GView.On at h1 h3; rw [h1] at h3; simpa using h3.symm
    subst this
    obtain ⟨S, -, g2, g3, g4, -⟩ := subports_spec (cn := cn) (cp := cp) h h4 d
    rw [g2, g4]
    obtain ⟨q, -, h5, -⟩ := (shows_iff h).1 hs
    exact ⟨(mem_ports_iff h.inv).2 ⟨h1, h2⟩, q, h5⟩
  sub_nodup n d := by
    by_cases hn : m.containsNode n = true
    · obtain ⟨S, -, g2, g3, g4, -⟩ := subports_spec (cn := cn) (cp := cp) h hn d
      rw [g2]; exact g3
    · rw [show (ofMG m cn cp).subports n d = if m.containsNode n = true then _ else _ from rfl, if_neg hn]
      exact List.nodup_nil
  sub_all n := by
    show (if m.containsNode n = true then _ else _) =
      (if m.containsNode n = true then _ else _ : List _) ++ (if m.containsNode n = true then _ else _)
    split
    · rename_i hn
      obtain ⟨S, g1, -⟩ := subports_spec (cn := cn) (cp := cp) h hn .incoming
      obtain ⟨T, g2, -⟩ := subports_spec (cn := cn) (cp := cp) h hn .outgoing
      rw [g1, g2, all_eq]
      unfold MG.subportsOf? at *
      rw [Option.map_eq_some_iff] at g1 g2
      obtain ⟨a, ha, rfl⟩ := g1
      obtain ⟨b, hb, rfl⟩ := g2
      rw [List.mapM_append, ha, hb]
      simp
    · rfl

theorem ofMG_count (h : MOk m) (cn cp : Nat) : (ofMG m cn cp).CountOk := by
  obtain ⟨-, L, h1, h2, h3⟩ := linkCount_ok h
  have hq : ∀ q ∈ L, ∃ e f, Sub m q e ∧ m.fromIndex q = some (some e) ∧ tgt m e = some f := by
    intro q hq
    obtain ⟨⟨⟨r, h4⟩, h5⟩, h6⟩ := (h2 q).1 hq
    obtain ⟨x, -, h7, -⟩ := h4.at h.inv
    obtain ⟨e, he⟩ := h.sub_exists h7 h6 (fun _ _ _ _ _ => not_false)
    obtain ⟨f, hf, -⟩ := h.name he h4
    exact ⟨e, f, he, h.fromIndex_eq he, ((h.subportLink_eq he).2 f).2 ⟨q, r, he, hf, h4⟩⟩
  let k : Nat → Subport × Subport := fun q => ((m.fromIndex q).join.getD (0, 0), (tgt m ((m.fromIndex q).join.getD (0, 0))).getD (0, 0))
  have hk : ∀ q e f, m.fromIndex q = some (some e) → tgt m e = some f → k q = (e, f) := by
    intro q e f h4 h5
    simp [k, h4, h5]
  refine ⟨L.map k, ⟨?_, ?_⟩, by rw [List.length_map]; exact h3.symm⟩
  · apply List.Nodup.map_on _ h1
    intro a ha b hb hab
    obtain ⟨e, f, s1, s2, s3⟩ := hq a ha
    obtain ⟨e', f', s1', s2', s3'⟩ := hq b hb
    rw [hk _ _ _ s2 s3, hk _ _ _ s2' s3'] at hab
    cases hab
    exact h.sub_inj s1 s1'
  · intro e f
    rw [shows_iff h]
    show _ ↔ _ ∧ m.graph.portDirection e.1 = some .outgoing
    constructor
    · intro hx
      obtain ⟨q, hq', he⟩ := List.mem_map.1 hx
      obtain ⟨e', f', s1, s2, s3⟩ := hq q hq'
      rw [hk _ _ _ s2 s3] at he
      cases he
      refine ⟨((h.subportLink_eq s1).2 f).1 s3, ?_⟩
      obtain ⟨n, d, -, g2, -, -, g3⟩ := h.sub_node s1
      rw [((h2 q).1 hq').1.2] at g3
      rw [g2, ← g3]
    · rintro ⟨hs, hd⟩
      obtain ⟨q, r, s1, s2, s3⟩ := id hs
      refine List.mem_map.2 ⟨q, (h2 q).2 ⟨⟨⟨r, s3⟩, ?_⟩, h.sub_flag s1⟩, hk _ _ _ (h.fromIndex_eq s1) (((h.subportLink_eq s1).2 f).2 hs)⟩
      obtain ⟨n, d, -, g2, -, -, g3⟩ := h.sub_node s1
      rw [g3, ← g2, hd]

end Verif.Multi
