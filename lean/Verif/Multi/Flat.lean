import Verif.Multi.Model

/-!
# The port graph by positions and links

The effects of the operations of the port graph, stated with `At` (the position of a port) and the
link relation `Lk`.
-/

namespace Verif.Multi

open Verif (Direction)
open Verif.PG Verif.View

/-- The ports `p` and `q` of the port graph are linked. -/
def Lk (g : PG) (p q : Nat) : Prop := g.portLink? p = some (some q)

theorem lk_iff {g : PG} (hI : Inv g) {p q : Nat} : Lk g p q ↔ (g.port? p).isSome ∧ g.lk p = some q := by
  constructor
  · intro h
    have hp : (g.port? p).isSome := by
      cases e : g.port? p with
      | none => simp [Lk, PG.portLink?, e] at h
      | some x => rfl
    refine ⟨hp, ?_⟩
    have := portLink?_eq hI hp
    rw [Lk, this] at h
    simpa using h
  · rintro ⟨h1, h2⟩
    rw [Lk, portLink?_eq hI h1, h2]

theorem live_at {g : PG} (hI : Inv g) {p : Nat} : (g.port? p).isSome ↔ ∃ e, At g p e := by
  constructor
  · intro h
    obtain ⟨⟨n, d⟩, hx⟩ := Option.isSome_iff_exists.1 h
    obtain ⟨m, -, -, h3⟩ := port_at hI hx
    exact ⟨_, h3⟩
  · rintro ⟨e, h⟩; rw [h.port hI]; rfl

theorem Lk.fun {g : PG} {p q r : Nat} (h : Lk g p q) (h' : Lk g p r) : q = r := by
  unfold Lk at *; rw [h] at h'; simpa using h'

theorem Lk.at {g : PG} (hI : Inv g) {p q : Nat} (h : Lk g p q) :
    ∃ e f, At g p e ∧ At g q f ∧ f.2.1 = e.2.1.reverse := by
  obtain ⟨h1, h2⟩ := (lk_iff hI).1 h
  obtain ⟨e, he⟩ := (live_at hI).1 h1
  obtain ⟨-, n', h3⟩ := lk_at hI (he.port hI) h2
  obtain ⟨m, -, -, h4⟩ := port_at hI h3
  exact ⟨e, _, he, h4, rfl⟩

theorem Lk.sym {g : PG} (hI : Inv g) {p q : Nat} (h : Lk g p q) : Lk g q p := by
  obtain ⟨h1, h2⟩ := (lk_iff hI).1 h
  obtain ⟨e, he⟩ := (live_at hI).1 h1
  obtain ⟨h5, n', h3⟩ := lk_at hI (he.port hI) h2
  exact (lk_iff hI).2 ⟨by rw [h3]; rfl, h5⟩

theorem Lk.inj {g : PG} (hI : Inv g) {p q r : Nat} (h : Lk g p r) (h' : Lk g q r) : p = q :=
  (h.sym hI).fun (h'.sym hI)

theorem Lk.dir {g : PG} (hI : Inv g) {p q : Nat} {e f : Endpoint} (h : Lk g p q) (he : At g p e) (hf : At g q f) :
    f.2.1 = e.2.1.reverse := by
  obtain ⟨e', f', h1, h2, h3⟩ := h.at hI
  rw [he.inj hI h1, hf.inj hI h2]; exact h3

theorem unlinked {g : PG} (hI : Inv g) {p : Nat} {e : Endpoint} (h : At g p e) : g.portLink? p = some (g.lk p) :=
  portLink?_eq hI (by rw [h.port hI]; rfl)

theorem no_link {g : PG} (hI : Inv g) {p : Nat} {e : Endpoint} (h : At g p e) :
    g.portLink? p = some none ↔ ∀ q, ¬ Lk g p q := by
  rw [unlinked hI h]
  unfold Lk
  rw [unlinked hI h]
  cases g.lk p with
  | none => simp
  | some q => simp

theorem lk_none {g : PG} (hI : Inv g) {p : Nat} {e : Endpoint} (h : At g p e) (hn : ∀ q, ¬ Lk g p q) : g.lk p = none := by
  have := (no_link hI h).2 hn
  rw [unlinked hI h] at this
  simpa using this

/-! ## Queries at a position -/

theorem At.portNode {g : PG} (hI : Inv g) {p : Nat} {e : Endpoint} (h : At g p e) : g.portNode p = some e.1 := by
  simp [PG.portNode, h.port hI]

theorem At.portDirection {g : PG} (hI : Inv g) {p : Nat} {e : Endpoint} (h : At g p e) :
    g.portDirection p = some e.2.1 := by
  simp [PG.portDirection, h.port hI]

theorem At.portOffset {g : PG} (hI : Inv g) {p : Nat} {e : Endpoint} (h : At g p e) :
    g.portOffset p = some (some e.2) := by
  have he := h.endpoint hI
  obtain ⟨n, d, k⟩ := e
  unfold PG.endpoint at he
  rw [At.portNode hI h] at he
  split at he
  · next h1 h2 => rw [h2]; simp_all
  · cases he

theorem mem_ports {g : PG} {n : Nat} {d : Direction} {q : Nat} : q ∈ g.ports n d ↔ ∃ k, At g q (n, d, k) := by
  rw [List.mem_iff_getElem?]
  apply exists_congr
  intro k
  rw [← at_index]
  unfold PG.ports PG.portIndex
  cases g.node? n <;> simp

theorem getElem?_ports {g : PG} {n : Nat} {d : Direction} {q k : Nat} :
    (g.ports n d)[k]? = some q ↔ At g q (n, d, k) := by
  rw [← at_index]
  unfold PG.ports PG.portIndex
  cases g.node? n <;> simp

theorem length_ports (g : PG) (n : Nat) (d : Direction) : (g.ports n d).length = g.numPorts n d := by
  unfold PG.ports PG.numPorts
  cases g.node? n <;> simp [NodeMeta.ports]

theorem at_iff_lt {g : PG} {n : Nat} {d : Direction} {k : Nat} : (∃ q, At g q (n, d, k)) ↔ k < g.numPorts n d := by
  rw [← length_ports]
  constructor
  · rintro ⟨q, h⟩
    exact (List.getElem?_eq_some_iff.1 (getElem?_ports.2 h)).1
  · intro h
    exact ⟨_, getElem?_ports.1 (List.getElem?_eq_getElem h)⟩

theorem At.contains {g : PG} {p : Nat} {e : Endpoint} (h : At g p e) : g.containsNode e.1 = true :=
  containsNode_iff.2 h.node

theorem mem_allPorts {g : PG} {n q : Nat} : q ∈ g.allPorts n ↔ ∃ d k, At g q (n, d, k) := by
  have : g.allPorts n = g.ports n .incoming ++ g.ports n .outgoing := by
    unfold PG.allPorts PG.ports
    cases g.node? n with
    | none => rfl
    | some m =>
      simp only [NodeMeta.allPorts, NodeMeta.ports, NodeMeta.start, NodeMeta.numPorts]
      rw [← List.range'_append_1]
  rw [this, List.mem_append, mem_ports, mem_ports]
  constructor
  · rintro (⟨k, h⟩ | ⟨k, h⟩)
    · exact ⟨_, _, h⟩
    · exact ⟨_, _, h⟩
  · rintro ⟨d, k, h⟩
    cases d
    · exact .inl ⟨k, h⟩
    · exact .inr ⟨k, h⟩

/-- Sizes are bounded. -/
theorem numPorts_le {g : PG} (hI : Inv g) (n : Nat) :
    g.numPorts n .incoming + g.numPorts n .outgoing ≤ 65535 := by
  obtain ⟨own, fs, hP, hfull⟩ := hI.slots
  unfold PG.numPorts
  cases h : g.node? n with
  | none => simp
  | some m =>
    have := hP.bound n m h
    simp only [NodeMeta.numPorts]; omega

/-! ## Effects -/

/-- Effect of `add_node`. -/
theorem add_flat {g : PG} (hI : Inv g) {maxOff i o : Nat} (hi : i ≤ maxOff) (ho : o ≤ maxOff) (hmax : maxOff ≤ 32767) :
    ∃ n g', g.addNode maxOff i o = some (n, g') ∧ Inv g' ∧ g.containsNode n = false ∧
      (∀ x, g'.containsNode x = true ↔ x = n ∨ g.containsNode x = true) ∧
      (∀ p e, e.1 ≠ n → (At g' p e ↔ At g p e)) ∧
      (g'.numPorts n .incoming = i ∧ g'.numPorts n .outgoing = o) ∧
      (∀ p d k, At g' p (n, d, k) → g.port? p = none) ∧ (∀ p q, Lk g' p q ↔ Lk g p q) := by
  obtain ⟨n, f, g', h1, h2, h3, h4, h5, h6, h7, -⟩ := addNode_ok hI hi ho (by omega) (by omega)
  have hfresh : ∀ p d k, At g' p (n, d, k) → f ≤ p ∧ p < f + (i + o) := by
    intro p d k hp
    obtain ⟨m, hm, h8, h9⟩ := hp
    simp only [h4, upd, if_true] at hm
    cases hm
    cases d <;> simp [NodeMeta.start, NodeMeta.numPorts] at h8 h9 <;> omega
  refine ⟨n, g', h1, h2, by simp [PG.containsNode, h3], ?_, ?_, ?_, ?_, ?_⟩
  · intro x
    unfold PG.containsNode
    rw [h4]
    by_cases hx : x = n <;> simp [upd, hx]
  · rintro p ⟨n', d, k⟩ hne
    exact at_congr (by rw [h4]; simp [upd, show n' ≠ n from hne])
  · have : g'.node? n = some ⟨f, i, o, i + o⟩ := by rw [h4]; simp [upd]
    constructor <;> simp [PG.numPorts, this, NodeMeta.numPorts]
  · intro p d k hp
    have := hfresh p d k hp
    exact h7 p this.1 this.2
  · intro p q
    rw [lk_iff hI, lk_iff h2]
    by_cases hr : f ≤ p ∧ p < f + (i + o)
    · have hnone := h7 p hr.1 hr.2
      have : g'.lk p = none := by rw [h6]; simp [hr]
      rw [hnone, this]; simp
    · have e1 : g'.lk p = g.lk p := by rw [h6]; simp; omega
      have e2 : (g'.port? p).isSome ↔ (g.port? p).isSome := by
        rw [live_at hI, live_at h2]
        constructor
        · rintro ⟨⟨n', d, k⟩, he⟩
          by_cases hn : n' = n
          · subst hn; exact absurd (hfresh p d k he) hr
          · exact ⟨_, (at_congr (by rw [h4]; simp [upd, hn])).1 he⟩
        · rintro ⟨⟨n', d, k⟩, he⟩
          have hn : n' ≠ n := by
            rintro rfl
            obtain ⟨m, hm, -⟩ := he
            simp [h3] at hm
          exact ⟨_, (at_congr (by rw [h4]; simp [upd, hn])).2 he⟩
      rw [e1, e2]

theorem cut_iff {pt : Nat → Option (Nat × Direction)} {lk : Nat → Option Nat} {R : Nat → Bool} {p q : Nat}
    (hp : (pt p).isSome) : cut pt lk R p = some q ↔ lk p = some q ∧ R p = false ∧ R q = false := by
  unfold cut
  rw [hp]
  cases hl : lk p with
  | none => split <;> simp
  | some r =>
    simp only [Bool.true_and, Option.some.injEq]
    cases hR : R p
    · simp only [Bool.false_eq_true, if_false, true_and]
      constructor
      · intro h; split at h
        · cases h
        · next h' => cases h; exact ⟨rfl, by simpa using h'⟩
      · rintro ⟨rfl, h⟩; simp [h]
    · simp

/-- Effect of `remove_node`. -/
theorem remove_flat {g : PG} (hI : Inv g) {n : Nat} (hn : g.containsNode n = true) :
    ∃ g', g.removeNode n = some g' ∧ Inv g' ∧ (∀ x, g'.containsNode x = true ↔ x ≠ n ∧ g.containsNode x = true) ∧
      (∀ p e, At g' p e ↔ At g p e ∧ e.1 ≠ n) ∧
      (∀ p q, Lk g' p q ↔ Lk g p q ∧ g.portNode p ≠ some n ∧ g.portNode q ≠ some n) := by
  obtain ⟨m, hm⟩ := Option.isSome_iff_exists.1 (containsNode_iff.1 hn)
  obtain ⟨g', h1, h2, h3, h4, h5, -⟩ := removeNode_ok hI hm
  have hat : ∀ p e, At g' p e ↔ At g p e ∧ e.1 ≠ n := by
    rintro p ⟨n', d, k⟩
    by_cases hne : n' = n
    · subst hne
      constructor
      · rintro ⟨m', hm', -⟩; rw [h3] at hm'; simp [upd] at hm'
      · rintro ⟨-, h⟩; exact absurd rfl h
    · have hc : g'.node? n' = g.node? n' := by rw [h3]; simp [upd, hne]
      rw [at_congr hc]
      simp [hne]
  refine ⟨g', h1, h2, ?_, hat, ?_⟩
  · intro x
    unfold PG.containsNode
    rw [h3]
    by_cases hx : x = n <;> simp [upd, hx]
  · have hr : ∀ p e, At g p e → (inRange m.first m.capacity p = true ↔ e.1 = n) := fun p e he =>
      slab_iff hI hm (he.port hI)
    intro p q
    constructor
    · intro h
      obtain ⟨h6, h7⟩ := (lk_iff h2).1 h
      rw [h5 p h6] at h7
      obtain ⟨e, he⟩ := (live_at h2).1 h6
      have he0 := ((hat p e).1 he).1
      have hp0 : (g.port? p).isSome := (live_at hI).2 ⟨e, he0⟩
      obtain ⟨h8, h9, h10⟩ := (cut_iff hp0).1 h7
      have hl : Lk g p q := (lk_iff hI).2 ⟨hp0, h8⟩
      refine ⟨hl, ?_, ?_⟩
      · rw [At.portNode hI he0]
        intro hc; simp only [Option.some.injEq] at hc
        rw [(hr p e he0).2 hc] at h9; simp at h9
      · obtain ⟨-, f, -, hf, -⟩ := hl.at hI
        rw [At.portNode hI hf]
        intro hc; simp only [Option.some.injEq] at hc
        rw [(hr q f hf).2 hc] at h10; simp at h10
    · rintro ⟨hl, h6, h7⟩
      obtain ⟨e, f, he, hf, -⟩ := hl.at hI
      rw [At.portNode hI he] at h6
      rw [At.portNode hI hf] at h7
      have he' := (hat p e).2 ⟨he, by simpa using h6⟩
      have hp' := (live_at h2).2 ⟨e, he'⟩
      rw [lk_iff h2, h5 p hp']
      refine ⟨hp', (cut_iff ((live_at hI).2 ⟨e, he⟩)).2 ⟨((lk_iff hI).1 hl).2, ?_, ?_⟩⟩
      · cases hc : inRange m.first m.capacity p with
        | false => rfl
        | true => exact absurd ((hr p e he).1 hc) (by simpa using h6)
      · cases hc : inRange m.first m.capacity q with
        | false => rfl
        | true => exact absurd ((hr q f hf).1 hc) (by simpa using h7)

/-- Same nodes and ports. -/
structure SameAt (g g' : PG) : Prop where
  at_iff : ∀ p e, At g' p e ↔ At g p e
  node : ∀ x, g'.containsNode x = g.containsNode x
  num : ∀ n d, g'.numPorts n d = g.numPorts n d

theorem sameAt_of {g g' : PG} (h : g'.node? = g.node?) : SameAt g g' where
  at_iff p e := at_congr (by rw [h])
  node x := by simp [PG.containsNode, h]
  num n d := by simp [PG.numPorts, h]

/-- Effect of a successful `link_ports`. -/
theorem link_flat {g : PG} (hI : Inv g) {a b : Nat} {ea eb : Endpoint} (ha : At g a ea) (hb : At g b eb)
    (hd : ea.2.1 ≠ eb.2.1) (la : ∀ q, ¬ Lk g a q) (lb : ∀ q, ¬ Lk g b q) :
    ∃ g', g.linkPorts a b = some (.ok (a, b), g') ∧ Inv g' ∧ SameAt g g' ∧
      (∀ p q, Lk g' p q ↔ Lk g p q ∨ (p = a ∧ q = b) ∨ (p = b ∧ q = a)) := by
  obtain ⟨g', h1, h2, h3, h4, h5, -⟩ := linkPorts_ok hI (ha.port hI) (hb.port hI) hd (lk_none hI ha la) (lk_none hI hb lb)
  refine ⟨g', h1, h2, sameAt_of h3, ?_⟩
  have hab : a ≠ b := by rintro rfl; exact hd (by rw [ha.inj hI hb])
  intro p q
  rw [lk_iff h2, lk_iff hI, h4, h5]
  have pa : (g.port? a).isSome := (live_at hI).2 ⟨_, ha⟩
  have pb : (g.port? b).isSome := (live_at hI).2 ⟨_, hb⟩
  by_cases h6 : p = b
  · subst h6
    simp only [upd, if_true, pb, true_and, Option.some.injEq, lk_none hI hb lb, Ne.symm hab, false_and, false_or]
    simp [eq_comm]
  · by_cases h7 : p = a
    · subst h7
      simp [upd, h6, pa, lk_none hI ha la, eq_comm]
    · simp [upd, h6, h7]

/-- Effect of `unlink_port`. -/
theorem unlink_flat {g : PG} (hI : Inv g) {p : Nat} {e : Endpoint} (hp : At g p e) :
    ∃ g', g.unlinkPort p = some (g.lk p, g') ∧ Inv g' ∧ SameAt g g' ∧
      (∀ x y, Lk g' x y ↔ Lk g x y ∧ x ≠ p ∧ y ≠ p) := by
  obtain ⟨g', h1, h2, h3, h4, h5, -⟩ := unlinkPort_ok hI ((live_at hI).2 ⟨e, hp⟩)
  have hnode : g'.node? = g.node? := by funext x; simp [PG.node?, h3]
  have hport : g'.port? = g.port? := by funext x; simp [PG.port?, h4]
  refine ⟨g', h1, h2, sameAt_of hnode, ?_⟩
  intro x y
  rw [lk_iff h2, lk_iff hI, hport, h5]
  constructor
  · rintro ⟨h6, h7⟩
    obtain ⟨h8, h9, h10⟩ := (cut_iff h6).1 h7
    exact ⟨⟨h6, h8⟩, by simpa using h9, by simpa using h10⟩
  · rintro ⟨⟨h6, h7⟩, h8, h9⟩
    exact ⟨h6, (cut_iff h6).2 ⟨h7, by simpa using h8, by simpa using h9⟩⟩

end Verif.Multi
