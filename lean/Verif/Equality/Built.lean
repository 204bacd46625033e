import Verif.Equality.Graph

/-!
# The layout of graphs built without removals
-/

namespace Verif.Equality

open Verif (Direction)
open Verif.PG

/-- Number of ports of a node slot. -/
def size : NodeEntry → Nat
  | .node m => m.incoming + m.outgoing
  | .free _ _ => 0

/-- Number of ports of the slots. -/
def sizes (l : List NodeEntry) : Nat := (l.map size).sum

/-- The ports of the nodes follow one another in the order of the nodes. -/
structure Layout (g : PG) : Prop where
  inv : PG.Inv g
  packed : Packed g
  first : ∀ n m, g.nodeMeta[n]? = some (.node m) → 0 < m.incoming + m.outgoing → m.first = sizes (g.nodeMeta.take n)
  total : g.portMeta.length = sizes g.nodeMeta

theorem addNode_packed {maxOff : Nat} (hmax : maxOff ≤ 32767) {g : PG} (hl : g.portLink.length = g.portMeta.length)
    (hf : g.nodeFree = none) (hp : g.portFree = []) {i o : Nat} {r : Nat × PG} (h : g.addNode maxOff i o = some r) :
    r.2.nodeMeta = g.nodeMeta ++ [.node ⟨if i + o = 0 then 0 else g.portMeta.length, i, o, i + o⟩] ∧
      r.2.portMeta.length = g.portMeta.length + (i + o) ∧ r.2.nodeCount = g.nodeCount + 1 ∧
      r.2.portCount = g.portCount + (i + o) ∧ r.2.portFree = [] := by
  unfold PG.addNode at h
  split at h
  · rename_i hio
    unfold PG.allocNode at h
    rw [hf] at h
    simp only [PG.allocPorts, Nat.add_zero] at h
    by_cases hz : i + o = 0
    · obtain ⟨rfl, rfl⟩ : i = 0 ∧ o = 0 := by omega
      simp at h
      subst h
      simp [hp]
    · rw [if_neg hz, hp] at h
      simp only [List.getElem?_nil, Option.join_none] at h
      unfold NodeMeta.new? at h
      rw [Nat.mod_eq_of_lt (by omega), Nat.mod_eq_of_lt (by omega), Nat.mod_eq_of_lt (by omega), if_pos (by omega)] at h
      simp at h
      subst h
      simp [hp, Nat.add_assoc]
      intro _ _; omega
  · cases h

theorem Layout.init : Layout PG.empty :=
  ⟨PG.Inv.empty, ⟨rfl, rfl, rfl⟩, by simp [PG.empty], rfl⟩

theorem Layout.add {maxOff : Nat} (hmax : maxOff ≤ 32767) {g : PG} (L : Layout g) {i o : Nat} {r : Nat × PG}
    (h : g.addNode maxOff i o = some r) : Layout r.2 := by
  have hio : i ≤ maxOff ∧ o ≤ maxOff := by
    unfold PG.addNode at h
    split at h
    · assumption
    · cases h
  obtain ⟨n, f, g', h1, h2, -⟩ := addNode_ok L.inv hio.1 hio.2 (by omega) (by omega)
  rw [h] at h1
  cases h1
  obtain ⟨a1, a2, a3, a4, a5⟩ := addNode_packed hmax L.inv.len (L.packed.nodeFree L.inv) L.packed.free h
  simp only at *
  refine ⟨h2, ⟨?_, ?_, a5⟩, ?_, ?_⟩
  · rw [a1, a3, ← L.packed.nodes]; simp
  · rw [a2, a4, ← L.packed.ports]
  · intro n m hm hpos
    rw [a1] at hm ⊢
    rw [List.getElem?_append] at hm
    split at hm
    · rename_i hn
      rw [List.take_append_of_le_length (by omega)]
      exact L.first n m hm hpos
    · rename_i hn
      have : n - g.nodeMeta.length = 0 := by
        apply Classical.byContradiction
        intro hne
        rw [List.getElem?_eq_none (by simp; omega)] at hm
        cases hm
      rw [this] at hm
      simp at hm
      subst hm
      have : n = g.nodeMeta.length := by omega
      subst this
      simp only at hpos
      rw [if_neg (by omega), List.take_left, L.total]
  · rw [a1, a2, L.total]
    simp [sizes, size]

theorem Layout.congr {g g' : PG} (L : Layout g) (hI : PG.Inv g') (h1 : g'.nodeMeta = g.nodeMeta) (h2 : g'.portMeta = g.portMeta)
    (h3 : g'.nodeCount = g.nodeCount) (h4 : g'.portCount = g.portCount) (h5 : g'.portFree = g.portFree) : Layout g' := by
  refine ⟨hI, ⟨?_, ?_, ?_⟩, ?_, ?_⟩
  · rw [h1, h3]; exact L.packed.nodes
  · rw [h2, h4]; exact L.packed.ports
  · rw [h5]; exact L.packed.free
  · rw [h1]; exact L.first
  · rw [h1, h2]; exact L.total

theorem linkPorts_keeps {g : PG} {a b : Nat} {r : Except LinkError (Nat × Nat) × PG} (h : g.linkPorts a b = some r) :
    r.2.nodeMeta = g.nodeMeta ∧ r.2.portMeta = g.portMeta ∧ r.2.nodeCount = g.nodeCount ∧ r.2.portCount = g.portCount ∧
      r.2.portFree = g.portFree := by
  unfold PG.linkPorts at h
  repeat' split at h
  all_goals first | (cases h; exact ⟨rfl, rfl, rfl, rfl, rfl⟩) | cases h

theorem unlinkPort_keeps {g : PG} {p : Nat} {r : Option Nat × PG} (h : g.unlinkPort p = some r) :
    r.2.nodeMeta = g.nodeMeta ∧ r.2.portMeta = g.portMeta ∧ r.2.nodeCount = g.nodeCount ∧ r.2.portCount = g.portCount ∧
      r.2.portFree = g.portFree := by
  unfold PG.unlinkPort at h
  repeat' split at h
  all_goals first | (cases h; exact ⟨rfl, rfl, rfl, rfl, rfl⟩) | cases h

theorem Built.reach {maxOff : Nat} {g : PG} (h : Built maxOff g) : PG.Reach maxOff g := by
  induction h with
  | init => exact .init
  | @step g g' op _ hb hs ih =>
    refine .step ih ?_ hs
    cases op with
    | addNode i o =>
      simp only [PG.step, PG.addNode] at hs
      split at hs
      · assumption
      · cases hs
    | linkPorts => trivial
    | unlinkPort => trivial
    | clear => trivial
    | removeNode => exact hb.elim
    | setNumPorts => exact hb.elim
    | compactNodes => exact hb.elim
    | compactPorts => exact hb.elim
    | swapNodes => exact hb.elim

theorem Built.layout {maxOff : Nat} (hmax : maxOff ≤ 32767) {g : PG} (h : Built maxOff g) : Layout g := by
  induction h with
  | init => exact .init
  | @step g g' op hg hb hs ih =>
    have hI : PG.Inv g' := (Built.step hg hb hs).reach.inv hmax
    cases op with
    | addNode i o =>
      simp only [PG.step] at hs
      obtain ⟨r, h1, rfl⟩ := Option.map_eq_some_iff.1 hs
      exact ih.add hmax h1
    | linkPorts a b =>
      simp only [PG.step] at hs
      obtain ⟨r, h1, rfl⟩ := Option.map_eq_some_iff.1 hs
      obtain ⟨k1, k2, k3, k4, k5⟩ := linkPorts_keeps h1
      exact ih.congr hI k1 k2 k3 k4 k5
    | unlinkPort p =>
      simp only [PG.step] at hs
      obtain ⟨r, h1, rfl⟩ := Option.map_eq_some_iff.1 hs
      obtain ⟨k1, k2, k3, k4, k5⟩ := unlinkPort_keeps h1
      exact ih.congr hI k1 k2 k3 k4 k5
    | clear => cases hs; exact Layout.init
    | removeNode => exact hb.elim
    | setNumPorts => exact hb.elim
    | compactNodes => exact hb.elim
    | compactPorts => exact hb.elim
    | swapNodes => exact hb.elim

theorem node?_counts {g : PG} {n : Nat} {m : NodeMeta} (h : g.node? n = some m) : g.abs.counts n = some (m.incoming, m.outgoing) := by
  simp [PG.abs, containsNode_eq h, numPorts_eq h, NodeMeta.numPorts]

theorem counts_node? {g : PG} {n : Nat} {c : Nat × Nat} (h : g.abs.counts n = some c) :
    ∃ m, g.node? n = some m ∧ (m.incoming, m.outgoing) = c := by
  cases e : g.node? n with
  | none => simp [PG.abs, PG.containsNode, e] at h
  | some m => rw [node?_counts e] at h; exact ⟨m, rfl, Option.some.inj h⟩

/-- Graphs laid out in order with the same nodes, numbers of ports and links look the same. -/
theorem Layout.shape {a b : PG} (La : Layout a) (Lb : Layout b) (h : a.abs = b.abs) : SameShape a b := by
  have hnode : ∀ n, a.containsNode n = b.containsNode n := by
    intro n
    have := congrArg (fun A : AGraph => (A.counts n).isSome) h
    cases e1 : a.containsNode n <;> cases e2 : b.containsNode n <;> simp [PG.abs, e1, e2] at this ⊢
  have hsz : ∀ n : Nat, (a.nodeMeta[n]?).map size = (b.nodeMeta[n]?).map size := by
    have key : ∀ g : PG, Layout g → ∀ n : Nat, (g.nodeMeta[n]?).map size = (g.abs.counts n).map fun c => c.1 + c.2 := by
      intro g L n
      by_cases hn : n < g.nodeMeta.length
      · obtain ⟨m, hm⟩ := L.packed.node L.inv hn
        rw [hm, node?_counts (get_node? hm)]; rfl
      · have : g.node? n = none := by
          unfold PG.node?
          rw [List.getElem?_eq_none (by omega)]
        rw [List.getElem?_eq_none (by omega)]
        simp [PG.abs, PG.containsNode, this]
    intro n
    rw [key a La, key b Lb, h]
  have hmap : a.nodeMeta.map size = b.nodeMeta.map size := by
    apply List.ext_getElem?
    intro n
    rw [List.getElem?_map, List.getElem?_map]
    exact hsz n
  have hat : ∀ p e, At a p e ↔ At b p e := by
    suffices H : ∀ a b : PG, Layout a → Layout b → a.abs = b.abs → a.nodeMeta.map size = b.nodeMeta.map size →
        ∀ p e, At a p e → At b p e from
      fun p e => ⟨H a b La Lb h hmap p e, H b a Lb La h.symm hmap.symm p e⟩
    rintro a b La Lb h hmap p ⟨n, d, k⟩ ⟨m, h1, h2, h3⟩
    simp only at h1 h2 h3
    have hc := node?_counts h1
    rw [h] at hc
    obtain ⟨m', e1, e2⟩ := counts_node? hc
    simp only [Prod.mk.injEq] at e2
    have hpos : 0 < m.incoming + m.outgoing := by cases d <;> simp [NodeMeta.numPorts] at h2 <;> omega
    have f1 := La.first n m (node?_get h1) hpos
    have f2 := Lb.first n m' (node?_get e1) (by omega)
    have : m'.first = m.first := by
      rw [f1, f2]
      unfold sizes
      rw [List.map_take, List.map_take, hmap]
    refine ⟨m', e1, ?_, ?_⟩
    · cases d <;> simp [NodeMeta.numPorts] at h2 ⊢ <;> omega
    · cases d <;> simp [NodeMeta.start] at h3 ⊢ <;> omega
  refine ⟨hnode, fun n d k => ?_, fun p => ?_⟩
  · apply Option.ext
    intro p
    rw [at_index, at_index]; exact hat p _
  · cases ep : a.port? p with
    | none =>
      have : b.port? p = none := by
        cases eb : b.port? p with
        | none => rfl
        | some x =>
          obtain ⟨m, -, -, h3⟩ := port_at Lb.inv eb
          rw [((hat _ _).2 h3).port La.inv] at ep
          cases ep
      simp [PG.portLink?, ep, this]
    | some x =>
      obtain ⟨m, -, -, h3⟩ := port_at La.inv ep
      have h3' := (hat _ _).1 h3
      rw [portLink?_eq La.inv (by rw [ep]; rfl), portLink?_eq Lb.inv (by rw [h3'.port Lb.inv]; rfl)]
      congr 1
      have key : ∀ a b : PG, Layout a → Layout b → a.abs = b.abs → (∀ p e, At a p e ↔ At b p e) → ∀ q, At a p (x.1, x.2, p - m.start x.2) →
          a.lk p = some q → b.lk p = some q := by
        intro a b La Lb h hat q hp hq
        obtain ⟨hl, n', hq'⟩ := lk_at La.inv (hp.port La.inv) hq
        obtain ⟨m', -, -, h4⟩ := port_at La.inv hq'
        have hlink := (abs_link La.inv).2 ⟨p, q, hp, hq, h4⟩
        rw [h] at hlink
        obtain ⟨p', q', j1, j2, j3⟩ := (abs_link Lb.inv).1 hlink
        have := j1.unique ((hat _ _).1 hp); subst this
        have := j3.unique ((hat _ _).1 h4); subst this
        exact j2
      apply Option.ext
      intro q
      exact ⟨key a b La Lb h hat q h3, key b a Lb La h.symm (fun p e => (hat p e).symm) q h3'⟩

end Verif.Equality
