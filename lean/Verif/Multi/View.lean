import Verif.Multi.Query

/-!
# The view of a `MultiPortGraph`
-/

namespace Verif.Multi

open Verif (Direction)
open Verif.PG Verif.View

/-- The queries of a `MultiPortGraph` as a view. Queries about the links of helper ports and nodes
(for which the code asserts or answers about the helpers) and about subports that do not exist are
masked: they answer nothing. `capN` and `capP` are the capacities of the flat graph;
`src/multiportgraph.rs` lines 118–190 and 280–301, 335–345. -/
def ofMG (m : MG) (capN capP : Nat) : GView Subport where
  toPort := Prod.fst
  containsNode := m.containsNode
  containsPort := m.containsPort
  isEmpty := m.nodeCount = 0
  nodeCount := m.nodeCount
  portCount := m.portCount
  linkCount := m.linkCount
  nodes := m.nodes
  portsIter := m.portsIter
  nodeCapacity := capN - m.copyCount
  portCapacity := capP - m.subCount - m.copyCount
  portDirection := m.graph.portDirection
  portNode := m.graph.portNode
  portOffset p := (m.graph.portOffset p).join
  portIndex := m.graph.portIndex
  ports := m.graph.ports
  allPorts := m.graph.allPorts
  numPorts := m.graph.numPorts
  getConnections a b := if m.containsNode a then (m.connections? a b).getD [] else []
  portLinks p := if m.containsPort p then (m.portLinks? p).getD [] else []
  links n d := if m.containsNode n then (m.links? n d).getD [] else []
  allLinks n := if m.containsNode n then (m.allLinks? n).getD [] else []
  neighbours n d := if m.containsNode n then (m.neighbours? n d).getD [] else []
  allNeighbours n := if m.containsNode n then (m.allNeighbours? n).getD [] else []
  subports n d := if m.containsNode n then (m.subportsOf? (m.graph.ports n d)).getD [] else []
  allSubports n := if m.containsNode n then (m.subportsOf? (m.graph.allPorts n)).getD [] else []
  subportLink e := if m.containsPort e.1 ∧ (m.multi e.1 = true ∨ e.2 = 0) then (m.subportLink? e).join else none

variable {m : MG} {cn cp : Nat}

theorem portLinks_spec (h : MOk m) {p : Nat} (hp : m.containsPort p = true) :
    ∃ L, m.portLinks? p = some L ∧ L.Nodup ∧ ∀ e f, (e, f) ∈ L ↔ e.1 = p ∧ ShowsR m e f := by
  obtain ⟨S, -, h2, h3, h4⟩ := h.portLinks_eq ((vis_iff h.inv).2 hp)
  refine ⟨_, h4, ?_, ?_⟩
  · apply List.Nodup.filterMap _ h2
    intro a b c ha hb
    simp only [Option.mem_def, Option.map_eq_some_iff] at ha hb
    obtain ⟨x, -, rfl⟩ := ha
    obtain ⟨y, -, hy⟩ := hb
    cases hy; rfl
  · intro e f
    rw [List.mem_filterMap]
    constructor
    · rintro ⟨a, ha, hb⟩
      rw [Option.map_eq_some_iff] at hb
      obtain ⟨x, hx, hy⟩ := hb
      cases hy
      obtain ⟨h5, q, hq⟩ := (h3 _).1 ha
      exact ⟨h5, ((h.subportLink_eq hq).2 f).1 hx⟩
    · rintro ⟨h5, h6⟩
      obtain ⟨q, r, h7, h8, h9⟩ := id h6
      refine ⟨e, (h3 _).2 ⟨h5, q, h7⟩, ?_⟩
      rw [((h.subportLink_eq h7).2 f).2 h6]; rfl

theorem mem_portLinks (h : MOk m) {p : Nat} {e f : Subport} :
    (e, f) ∈ (ofMG m cn cp).portLinks p ↔ e.1 = p ∧ ShowsR m e f := by
  show (e, f) ∈ (if m.containsPort p = true then _ else _) ↔ _
  split
  · rename_i hp
    obtain ⟨L, h1, -, h2⟩ := portLinks_spec h hp
    rw [h1]; exact h2 e f
  · rename_i hp
    simp only [List.not_mem_nil, false_iff]
    rintro ⟨rfl, q, r, h1, -⟩
    obtain ⟨n, c, d, k, l, h2, h3, -⟩ := h.sub_vis h1
    exact hp ((vis_iff h.inv).1 ⟨_, h2, h3⟩)

/-- The view shows exactly the links between subports. -/
theorem shows_iff (h : MOk m) {e f : Subport} : (ofMG m cn cp).Shows e f ↔ ShowsR m e f := by
  unfold GView.Shows
  rw [mem_portLinks h]
  constructor
  · exact fun h => h.2
  · exact fun h => ⟨rfl, h⟩

theorem copy_of_not_contains (hn : m.containsNode n ≠ true) (d : Direction) : ∀ p ∈ m.graph.ports n d, m.copy n = true := by
  intro p hp
  obtain ⟨k, hk⟩ := mem_ports.1 hp
  have := At.contains hk
  simp only at this
  unfold MG.containsNode at hn
  rw [this] at hn
  simpa using hn

theorem contains_iff {n : Nat} : m.containsNode n = true ↔ m.graph.containsNode n = true ∧ m.copy n = false := by
  unfold MG.containsNode; simp

theorem flatMap_hidden (h : MOk m) {n : Nat} (hn : m.containsNode n ≠ true) {ps : List Nat}
    (hps : ∀ p ∈ ps, ∃ d k, At m.graph p (n, d, k)) : ps.flatMap (ofMG m cn cp).portLinks = [] := by
  rw [List.flatMap_eq_nil_iff]
  intro p hp
  obtain ⟨d, k, hk⟩ := hps p hp
  show (if m.containsPort p = true then _ else _) = _
  rw [if_neg]
  intro hc
  obtain ⟨e, h1, h2⟩ := (vis_iff h.inv).2 hc
  rw [h1.inj h.inv hk] at h2
  exact hn (contains_iff.2 ⟨At.contains hk, h2⟩)

theorem linksOf_flatMap (h : MOk m) {ps : List Nat} (hv : ∀ p ∈ ps, Vis m p) :
    m.linksOf? ps = some (ps.flatMap (ofMG m cn cp).portLinks) := by
  unfold MG.linksOf?
  rw [mapM_some (k := (ofMG m cn cp).portLinks)]
  · rfl
  · intro p hp
    have hc := (vis_iff h.inv).1 (hv p hp)
    obtain ⟨L, h1, -⟩ := portLinks_spec h hc
    show _ = some (if m.containsPort p = true then _ else _)
    rw [if_pos hc, h1]; rfl

theorem all_eq (g : PG) (n : Nat) : g.allPorts n = g.ports n .incoming ++ g.ports n .outgoing := by
  unfold PG.allPorts PG.ports
  cases g.node? n with
  | none => rfl
  | some m =>
    simp only [NodeMeta.allPorts, NodeMeta.ports, NodeMeta.start, NodeMeta.numPorts]
    rw [List.range'_append_1]

theorem links_eq (h : MOk m) (n : Nat) (d : Direction) :
    (ofMG m cn cp).links n d = (m.graph.ports n d).flatMap (ofMG m cn cp).portLinks := by
  show (if m.containsNode n = true then _ else _) = _
  split
  · rename_i hn
    rw [MG.links?, linksOf_flatMap h (ports_vis (contains_iff.1 hn).2)]; rfl
  · rename_i hn
    rw [flatMap_hidden h hn]
    intro p hp
    obtain ⟨k, hk⟩ := mem_ports.1 hp
    exact ⟨d, k, hk⟩

theorem mem_ports_iff (hI : Inv m.graph) {n p : Nat} {d : Direction} :
    p ∈ m.graph.ports n d ↔ m.graph.portNode p = some n ∧ m.graph.portDirection p = some d := by
  rw [mem_ports]
  constructor
  · rintro ⟨k, hk⟩; exact ⟨At.portNode hI hk, At.portDirection hI hk⟩
  · rintro ⟨h1, h2⟩
    cases hp : m.graph.port? p with
    | none => simp [PG.portNode, hp] at h1
    | some x =>
      obtain ⟨⟨n', d', k⟩, he⟩ := (live_at hI).1 (by rw [hp]; rfl)
      rw [At.portNode hI he] at h1
      rw [At.portDirection hI he] at h2
      cases h1; cases h2
      exact ⟨k, he⟩

theorem all_links_eq (h : MOk m) (n : Nat) :
    (ofMG m cn cp).allLinks n = ((m.graph.allPorts n).flatMap (ofMG m cn cp).portLinks).filter fun l =>
      !decide (m.graph.portNode l.2.1 = some n ∧ m.graph.portDirection l.2.1 = some .outgoing) := by
  show (if m.containsNode n = true then _ else _) = _
  split
  · rename_i hn
    rw [MG.allLinks?, linksOf_flatMap (cn := cn) (cp := cp) h (allPorts_vis (contains_iff.1 hn).2)]
    simp only [Option.map_some, Option.getD_some]
    congr 1
    funext l
    congr 1
    rw [Bool.eq_iff_iff, List.contains_iff_mem, mem_ports_iff h.inv, decide_eq_true_iff]
  · rename_i hn
    rw [flatMap_hidden h hn]
    · rfl
    · intro p hp
      exact mem_allPorts.1 hp

/-- The subports as listed by the view. -/
theorem subports_spec (h : MOk m) {n : Nat} (hn : m.containsNode n = true) (d : Direction) :
    ∃ S, m.subportsOf? (m.graph.ports n d) = some S ∧ (ofMG m cn cp).subports n d = S ∧ S.Nodup ∧
      (∀ e, e ∈ S ↔ e.1 ∈ m.graph.ports n d ∧ ∃ q, Sub m q e) ∧
      (ofMG m cn cp).links n d = S.filterMap fun e => (tgt m e).map fun f => (e, f) := by
  obtain ⟨S, h1, h2, h3, h4⟩ := h.subports_eq (ports_vis (d := d) (contains_iff.1 hn).2) (ports_nodup m.graph n d)
  refine ⟨S, h1, ?_, h2, h3, ?_⟩
  · show (if m.containsNode n = true then _ else _) = _
    rw [if_pos hn, h1]; rfl
  · show (if m.containsNode n = true then _ else _) = _
    rw [if_pos hn, MG.links?, h4]; rfl

theorem allSubports_spec (h : MOk m) {n : Nat} (hn : m.containsNode n = true) :
    ∃ S, m.subportsOf? (m.graph.allPorts n) = some S ∧ S.Nodup ∧
      (∀ e, e ∈ S ↔ e.1 ∈ m.graph.allPorts n ∧ ∃ q, Sub m q e) ∧
      m.linksOf? (m.graph.allPorts n) = some (S.filterMap fun e => (tgt m e).map fun f => (e, f)) :=
  h.subports_eq (allPorts_vis (contains_iff.1 hn).2) (allPorts_nodup m.graph n)

theorem tgt_node (h : MOk m) {q : Nat} {e f : Subport} (hs : Sub m q e) (ht : tgt m e = some f) :
    ∃ n, m.graph.portNode f.1 = some n := by
  obtain ⟨-, r, -, h2, -⟩ := ((h.subportLink_eq hs).2 f).1 ht
  obtain ⟨n, -, h3, -⟩ := h.sub_node h2
  exact ⟨n, h3⟩

theorem neighbours_list (h : MOk m) {S : List Subport} (hS : ∀ e ∈ S, ∃ q, Sub m q e) (n : Nat) (ig : Bool) :
    ∃ L, S.mapM (m.neighbourAt? n ig) = some L ∧
      (L.filterMap id).map some = ((S.filterMap fun e => (tgt m e).map fun f => (e, f)).filter fun l =>
        !(ig && decide (m.graph.portNode l.2.1 = some n ∧ m.graph.portDirection l.2.1 = some .outgoing))).map
          fun l => m.graph.portNode l.2.1 := by
  refine ⟨_, mapM_some (k := fun e => (tgt m e).bind fun f =>
      if ig && decide (m.graph.portNode f.1 = some n ∧ m.graph.portDirection f.1 = some .outgoing) then none
      else m.graph.portNode f.1) ?_, ?_⟩
  · intro e he
    obtain ⟨q, hq⟩ := hS e he
    exact h.neighbourAt_eq hq n ig
  · induction S with
    | nil => rfl
    | cons e S ih =>
      have ih := ih fun x hx => hS x (List.mem_cons_of_mem _ hx)
      obtain ⟨q, hq⟩ := hS e (List.mem_cons_self ..)
      cases ht : tgt m e with
      | none => simpa [ht] using ih
      | some f =>
        obtain ⟨x, hx⟩ := tgt_node h hq ht
        simp only [List.map_cons, ht, Option.bind_some]
        rw [List.filterMap_cons_some (b := (e, f)) (by simp [ht])]
        by_cases hb : (ig && decide (m.graph.portNode f.1 = some n ∧ m.graph.portDirection f.1 = some .outgoing)) = true
        · rw [if_pos hb, List.filter_cons_of_neg (by simp only [hb]; decide)]
          simpa using ih
        · rw [if_neg hb, List.filter_cons_of_pos (by simp only [Bool.not_eq_true] at hb; simp only [hb]; decide)]
          rw [List.filterMap_cons_some (b := x) (by simpa using hx)]
          simp only [List.map_cons, hx]
          rw [ih]

end Verif.Multi
