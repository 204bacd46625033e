import Verif.Equality.Spec
import Verif.PortGraph.PropsCompact
import Verif.PortGraph.NodeSlots
import Verif.PortGraph.OpsAdd
import Verif.PortGraph.History

/-!
# Graphs without unused slots
-/

namespace Verif.Equality

open Verif (Direction)
open Verif.PG

/-- No slot is unused, and no list of free slabs was ever made. -/
structure Packed (g : PG) : Prop where
  nodes : g.nodeMeta.length = g.nodeCount
  ports : g.portMeta.length = g.portCount
  free : g.portFree = []

theorem cnt_full {n : Nat} {P : Nat → Bool} (h : cnt n P = n) : ∀ i, i < n → P i = true := by
  induction n with
  | zero => intro i hi; omega
  | succ n ih =>
    rw [cnt_succ] at h
    have := cnt_le n P
    intro i hi
    by_cases hP : P n = true
    · rw [if_pos hP] at h
      by_cases e : i = n
      · subst e; exact hP
      · exact ih (by omega) i (by omega)
    · rw [if_neg hP] at h; omega

theorem Packed.node {g : PG} (hI : PG.Inv g) (hp : Packed g) {n : Nat} (hn : n < g.nodeMeta.length) :
    ∃ m, g.nodeMeta[n]? = some (.node m) := by
  obtain ⟨fn, hN⟩ := hI.nodes
  have := cnt_full (hN.count.symm.trans hp.nodes.symm) n hn
  revert this
  cases e : g.nodeMeta[n]? with
  | none => intro h; simp at h
  | some x =>
    cases x with
    | node m => intro _; exact ⟨m, rfl⟩
    | free a b => intro h; simp at h

theorem Packed.port {g : PG} (hI : PG.Inv g) (hp : Packed g) {p : Nat} (hn : p < g.portMeta.length) :
    ∃ n d, g.port? p = some (n, d) := by
  have := cnt_full (hI.portCount.symm.trans hp.ports.symm) p hn
  obtain ⟨⟨n, d⟩, h⟩ := Option.isSome_iff_exists.1 this
  exact ⟨n, d, h⟩

theorem Packed.nodeFree {g : PG} (hI : PG.Inv g) (hp : Packed g) : g.nodeFree = none := by
  obtain ⟨fn, hN⟩ := hI.nodes
  have hfn : fn = [] := by
    cases fn with
    | nil => rfl
    | cons x l =>
      obtain ⟨a, b, h⟩ := (hN.exact x).1 (by simp)
      obtain ⟨m, hm⟩ := hp.node hI (List.getElem?_eq_some_iff.1 h).1
      rw [h] at hm; cases hm
  have := hN.chain
  rw [hfn] at this
  cases hf : g.nodeFree with
  | none => rfl
  | some x => rw [hf] at this; exact this.elim

theorem Packed.capacity {g : PG} (hI : PG.Inv g) (hp : Packed g) {n : Nat} {m : NodeMeta} (hm : g.node? n = some m) :
    m.capacity = m.incoming + m.outgoing := by
  obtain ⟨own, fs, hP, hfull⟩ := hI.slots
  have hb := hP.bound n m hm
  apply Classical.byContradiction
  intro hne
  have hlt : m.incoming + m.outgoing < m.capacity := by omega
  obtain ⟨n', d, h⟩ := hp.port hI (p := m.first + m.incoming + m.outgoing) (by omega)
  have := hP.pt_slab hm (by omega) (by omega) h
  omega

theorem node?_get {g : PG} {n : Nat} {m : NodeMeta} (h : g.node? n = some m) : g.nodeMeta[n]? = some (.node m) := by
  unfold PG.node? at h
  split at h
  · cases h; assumption
  · cases h

theorem get_node? {g : PG} {n : Nat} {m : NodeMeta} (h : g.nodeMeta[n]? = some (.node m)) : g.node? n = some m := by
  unfold PG.node?; rw [h]

theorem port?_get {g : PG} {p n : Nat} {d : Direction} (h : g.port? p = some (n, d)) : g.portMeta[p]? = some (.port n d) := by
  unfold PG.port? at h
  split at h
  · cases h; assumption
  · cases h

/-- The numbers of ports can be read off the ports. -/
theorem numPorts_of_index {a b : PG} (h : ∀ n d k, a.portIndex n d k = b.portIndex n d k) (n : Nat) (d : Direction) :
    a.numPorts n d = b.numPorts n d := by
  have key : ∀ g : PG, ∀ k, k < g.numPorts n d ↔ (g.portIndex n d k).isSome := by
    intro g k
    unfold PG.numPorts PG.portIndex
    cases g.node? n with
    | none => simp
    | some m => simp [NodeMeta.ports]
  have h1 := key a
  have h2 := key b
  simp only [h] at h1
  have : ∀ k, k < a.numPorts n d ↔ k < b.numPorts n d := fun k => (h1 k).trans (h2 k).symm
  rcases Nat.lt_trichotomy (a.numPorts n d) (b.numPorts n d) with e | e | e
  · have := (this _).2 e; omega
  · exact e
  · have := (this _).1 e; omega

theorem length_of_lt {m n : Nat} (h : ∀ i, i < m ↔ i < n) : m = n := by
  rcases Nat.lt_trichotomy m n with e | e | e
  · have := (h _).2 e; omega
  · exact e
  · have := (h _).1 e; omega

/-- Packed graphs that look the same are the same. -/
theorem Packed.ext {a b : PG} (ha : PG.Inv a) (hb : PG.Inv b) (pa : Packed a) (pb : Packed b) (h : SameShape a b) : a = b := by
  have hnl : a.nodeMeta.length = b.nodeMeta.length := by
    apply length_of_lt
    intro i
    have key : ∀ g : PG, PG.Inv g → Packed g → (i < g.nodeMeta.length ↔ g.containsNode i = true) := by
      intro g hI hp
      constructor
      · intro hi
        obtain ⟨m, hm⟩ := hp.node hI hi
        exact containsNode_eq (get_node? hm)
      · intro hc
        unfold PG.containsNode at hc
        obtain ⟨m, hm⟩ := Option.isSome_iff_exists.1 hc
        exact (List.getElem?_eq_some_iff.1 (node?_get hm)).1
    rw [key a ha pa, key b hb pb, h.node]
  have hnd : ∀ n, a.node? n = b.node? n := by
    intro n
    cases e : a.node? n with
    | none =>
      have := h.node n
      unfold PG.containsNode at this
      rw [e] at this
      cases e' : b.node? n with
      | none => rfl
      | some m => rw [e'] at this; simp at this
    | some m =>
      have := h.node n
      unfold PG.containsNode at this
      rw [e] at this
      cases e' : b.node? n with
      | none => rw [e'] at this; simp at this
      | some m' =>
        have i1 := numPorts_of_index h.port n .incoming
        have i2 := numPorts_of_index h.port n .outgoing
        rw [numPorts_eq e, numPorts_eq e'] at i1 i2
        have c1 := pa.capacity ha e
        have c2 := pb.capacity hb e'
        obtain ⟨m1, m2, m3, m4⟩ := m
        obtain ⟨k1, k2, k3, k4⟩ := m'
        simp only [NodeMeta.numPorts] at i1 i2 c1 c2
        subst i1 i2 c1 c2
        obtain ⟨_, _, hP, hfull⟩ := ha.slots
        obtain ⟨_, _, hQ, hfull⟩ := hb.slots
        have b1 := (hP.bound n _ e).2.2.1
        have b2 := (hQ.bound n _ e').2.2.1
        simp only at b1 b2
        have hf : m1 = k1 := by
          by_cases z : m2 + m3 = 0
          · rw [b1 z, b2 z]
          · by_cases z' : m2 = 0
            · have := h.port n .outgoing 0
              simp only [PG.portIndex, e, e', NodeMeta.ports, NodeMeta.numPorts, NodeMeta.start] at this
              rw [List.getElem?_range' (by omega), List.getElem?_range' (by omega)] at this
              simp at this; omega
            · have := h.port n .incoming 0
              simp only [PG.portIndex, e, e', NodeMeta.ports, NodeMeta.numPorts, NodeMeta.start] at this
              rw [List.getElem?_range' (by omega), List.getElem?_range' (by omega)] at this
              simpa using this
        subst hf
        rfl
  have hpt : ∀ p, a.port? p = b.port? p := by
    intro p
    obtain ⟨_, _, hP, hfull⟩ := ha.slots
    obtain ⟨_, _, hQ, hfull⟩ := hb.slots
    have : a.node? = b.node? := funext hnd
    apply Option.ext
    rintro ⟨n, d⟩
    rw [hP.ports, hQ.ports, this]
  have hpl : a.portMeta.length = b.portMeta.length := by
    apply length_of_lt
    intro i
    have key : ∀ g : PG, PG.Inv g → Packed g → (i < g.portMeta.length ↔ (g.port? i).isSome) := by
      intro g hI hp
      constructor
      · intro hi
        obtain ⟨n, d, hm⟩ := hp.port hI hi
        rw [hm]; rfl
      · intro hc
        obtain ⟨⟨n, d⟩, hm⟩ := Option.isSome_iff_exists.1 hc
        exact (List.getElem?_eq_some_iff.1 (port?_get hm)).1
    rw [key a ha pa, key b hb pb, hpt]
  have e1 : a.nodeMeta = b.nodeMeta := by
    apply List.ext_getElem?
    intro n
    by_cases hn : n < a.nodeMeta.length
    · obtain ⟨m, hm⟩ := pa.node ha hn
      rw [hm]
      have := hnd n
      rw [get_node? hm] at this
      exact (node?_get this.symm).symm
    · rw [List.getElem?_eq_none (by omega), List.getElem?_eq_none (by omega)]
  have e2 : a.portMeta = b.portMeta := by
    apply List.ext_getElem?
    intro p
    by_cases hn : p < a.portMeta.length
    · obtain ⟨n, d, hm⟩ := pa.port ha hn
      rw [port?_get hm]
      have := hpt p
      rw [hm] at this
      exact (port?_get this.symm).symm
    · rw [List.getElem?_eq_none (by omega), List.getElem?_eq_none (by omega)]
  have e3 : a.portLink = b.portLink := by
    apply List.ext_getElem?
    intro p
    by_cases hn : p < a.portMeta.length
    · obtain ⟨n, d, hm⟩ := pa.port ha hn
      have := h.link p
      unfold PG.portLink? at this
      rw [← hpt p, hm] at this
      exact this
    · rw [List.getElem?_eq_none (by rw [ha.len]; omega), List.getElem?_eq_none (by rw [hb.len]; omega)]
  have e4 : a.linkCount = b.linkCount := by
    rw [ha.outCount, hb.outCount]
    have h1 : a.port? = b.port? := funext hpt
    have h2 : a.lk = b.lk := by funext p; unfold PG.lk; rw [e3]
    rw [h1, h2, e2]
  have e5 : a.nodeCount = b.nodeCount := by rw [← pa.nodes, ← pb.nodes, e1]
  have e6 : a.portCount = b.portCount := by rw [← pa.ports, ← pb.ports, e2]
  have e7 : a.nodeFree = b.nodeFree := by rw [pa.nodeFree ha, pb.nodeFree hb]
  have e8 : a.portFree = b.portFree := by rw [pa.free, pb.free]
  obtain ⟨a1, a2, a3, a4, a5, a6, a7, a8⟩ := a
  obtain ⟨b1, b2, b3, b4, b5, b6, b7, b8⟩ := b
  simp only at *
  subst e1 e2 e3 e4 e5 e6 e7 e8
  rfl

end Verif.Equality
