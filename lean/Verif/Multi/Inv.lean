import Verif.Multi.Flags

/-!
# The invariant of `MultiPortGraph`

Names of the flat ports, the shown links and the invariant.
-/

namespace Verif.Multi

open Verif (Direction)
open Verif.PG Verif.View

/-! ## Counting -/

/-- There are exactly `n` numbers with `P`. -/
def Counted (P : Nat → Prop) (n : Nat) : Prop := ∃ L : List Nat, L.Nodup ∧ (∀ x, x ∈ L ↔ P x) ∧ L.length = n

namespace Counted

variable {P Q : Nat → Prop} {n k : Nat}

theorem congr (h : Counted P n) (hpq : ∀ x, Q x ↔ P x) : Counted Q n := by
  obtain ⟨L, h1, h2, h3⟩ := h
  exact ⟨L, h1, fun x => by rw [h2, hpq], h3⟩

theorem unique (h : Counted P n) (h' : Counted P k) : n = k := by
  obtain ⟨L, h1, h2, rfl⟩ := h
  obtain ⟨L', h1', h2', rfl⟩ := h'
  exact ((List.perm_ext_iff_of_nodup h1 h1').2 fun x => by rw [h2, h2']).length_eq

theorem union (h : Counted P n) (h' : Counted Q k) (hd : ∀ x, P x → ¬ Q x) : Counted (fun x => P x ∨ Q x) (n + k) := by
  obtain ⟨L, h1, h2, rfl⟩ := h
  obtain ⟨L', h1', h2', rfl⟩ := h'
  refine ⟨L ++ L', ?_, ?_, by simp⟩
  · rw [List.nodup_append]
    refine ⟨h1, h1', ?_⟩
    rintro a ha b hb rfl
    exact hd a ((h2 a).1 ha) ((h2' a).1 hb)
  · intro x; rw [List.mem_append, h2, h2']

theorem single (a : Nat) : Counted (fun x => x = a) 1 := ⟨[a], by simp, by simp, rfl⟩

theorem zero (h : ∀ x, ¬ P x) : Counted P 0 := ⟨[], by simp, by simpa using h, rfl⟩

theorem diff (h : Counted P n) (h' : Counted Q k) (hs : ∀ x, Q x → P x) :
    k ≤ n ∧ Counted (fun x => P x ∧ ¬ Q x) (n - k) := by
  obtain ⟨L, h1, h2, rfl⟩ := h
  obtain ⟨L', h1', h2', rfl⟩ := h'
  have e : Counted (fun x => P x ∧ ¬ Q x) (L.filter fun x => decide (x ∉ L')).length :=
    ⟨_, h1.filter _, fun x => by rw [List.mem_filter, h2, decide_eq_true_iff, h2'], rfl⟩
  have h3 := e.union (k := L'.length) (Q := Q) ⟨L', h1', h2', rfl⟩ (fun x hx => hx.2)
  have h4 := unique (n := L.length) ⟨L, h1, h2, rfl⟩ (h3.congr (by
    intro x
    by_cases hq : Q x
    · simp [hq, hs x hq]
    · simp [hq]))
  refine ⟨by omega, ?_⟩
  have : L.length - L'.length = (L.filter fun x => decide (x ∉ L')).length := by omega
  rw [this]; exact e

theorem image (h : Counted P n) {π : Nat → Nat} (hinj : ∀ x y, P x → P y → π x = π y → x = y) :
    Counted (fun y => ∃ x, P x ∧ y = π x) n := by
  obtain ⟨L, h1, h2, rfl⟩ := h
  refine ⟨L.map π, ?_, ?_, by simp⟩
  · apply List.Nodup.map_on _ h1
    intro x hx y hy
    exact hinj x y ((h2 x).1 hx) ((h2 y).1 hy)
  · intro y
    simp only [List.mem_map, h2]
    constructor
    · rintro ⟨x, h3, rfl⟩; exact ⟨x, h3, rfl⟩
    · rintro ⟨x, h3, rfl⟩; exact ⟨x, h3, rfl⟩

end Counted

/-! ## The invariant -/

/-- The flat port `q` is a subport of a copy node. -/
def SubPort (m : MG) (q : Nat) : Prop := m.multi q = false ∧ ∃ e, At m.graph q e ∧ m.copy e.1 = true

/-- `c` is a copy node for ports with direction `d`, and `cp` is its port that faces the main port. -/
structure CopyOf (m : MG) (c : Nat) (d : Direction) (cp : Nat) : Prop where
  copy : m.copy c = true
  port : At m.graph cp (c, d.reverse, 0)
  flag : m.multi cp = true
  one : m.graph.numPorts c d.reverse = 1
  two : 2 ≤ m.graph.numPorts c d
  subs : ∀ q k, At m.graph q (c, d, k) → m.multi q = false

/-- The invariant. `D` are the copy ports whose main port was just dropped. -/
structure MInv (m : MG) (D : Nat → Prop) : Prop where
  inv : Inv m.graph
  copyLive : ∀ c, m.copy c = true → m.graph.containsNode c = true
  partner : ∀ p, m.multi p = true → ¬ D p → ∃ q e f, At m.graph p e ∧ At m.graph q f ∧ Lk m.graph p q ∧
    m.multi q = true ∧ m.copy f.1 = !m.copy e.1
  orphan : ∀ p, D p → ∃ e, At m.graph p e ∧ m.copy e.1 = true ∧ m.multi p = true ∧ ∀ q, ¬ Lk m.graph p q
  shape : ∀ c, m.copy c = true → ∃ d cp, CopyOf m c d cp
  copies : Counted (fun c => m.copy c = true) m.copyCount
  subs : Counted (SubPort m) m.subCount

/-- The invariant between calls. -/
abbrev MOk (m : MG) : Prop := MInv m fun _ => False

/-- The flat port `q` carries the links of the subport `e`. -/
def Sub (m : MG) (q : Nat) (e : Subport) : Prop := ∃ n d k, At m.graph q (n, d, k) ∧ m.multi q = false ∧
  ((m.copy n = false ∧ e = (q, 0)) ∨
    (m.copy n = true ∧ ∃ cp p, At m.graph cp (n, d.reverse, 0) ∧ Lk m.graph cp p ∧ e = (p, k)))

/-- The multigraph shows a link between two subports. -/
def ShowsR (m : MG) (e f : Subport) : Prop := ∃ q r, Sub m q e ∧ Sub m r f ∧ Lk m.graph q r

/-- A port of a node that is not a copy node. -/
def Vis (m : MG) (p : Nat) : Prop := ∃ e, At m.graph p e ∧ m.copy e.1 = false

/-- Without flags a graph satisfies the invariant. -/
theorem ofGraph_ok {g : PG} (hI : Inv g) : MOk (MG.ofGraph g) where
  inv := hI
  copyLive := by simp [MG.ofGraph]
  partner := by simp [MG.ofGraph]
  orphan := by simp
  shape := by simp [MG.ofGraph]
  copies := Counted.zero (by simp [MG.ofGraph])
  subs := Counted.zero (by simp [SubPort, MG.ofGraph])

namespace MInv

variable {m : MG} {D : Nat → Prop}

theorem multi_live (h : MInv m D) {p : Nat} (hp : m.multi p = true) : ∃ e, At m.graph p e := by
  by_cases hd : D p
  · obtain ⟨e, he, -⟩ := h.orphan p hd; exact ⟨e, he⟩
  · obtain ⟨-, e, -, he, -⟩ := h.partner p hp hd; exact ⟨e, he⟩

theorem multi_at (h : MInv m D) {p : Nat} (hp : m.multi p = true) (hd : ¬ D p) {e : Endpoint} (he : At m.graph p e) :
    ∃ q f, At m.graph q f ∧ Lk m.graph p q ∧ m.multi q = true ∧ m.copy f.1 = !m.copy e.1 := by
  obtain ⟨q, e', f, h1, h2, h3, h4, h5⟩ := h.partner p hp hd
  rw [he.inj h.inv h1]
  exact ⟨q, f, h2, h3, h4, h5⟩

/-- Links join ports that are both marked or both not marked. -/
theorem lk_multi (h : MInv m D) {p q : Nat} (hl : Lk m.graph p q) : m.multi p = m.multi q := by
  have key : ∀ p q, Lk m.graph p q → m.multi p = true → m.multi q = true := by
    intro p q hl hp
    by_cases hd : D p
    · obtain ⟨e, he, -, -, hn⟩ := h.orphan p hd
      exact absurd hl (hn q)
    · obtain ⟨q', -, -, -, -, h3, h4, -⟩ := h.partner p hp hd
      rwa [hl.fun h3]
  cases hp : m.multi p with
  | true => exact (key p q hl hp).symm
  | false =>
    cases hq : m.multi q with
    | false => rfl
    | true => rw [key q p (hl.sym h.inv) hq] at hp; cases hp

theorem lk_copy (h : MInv m D) {p q : Nat} {e f : Endpoint} (hl : Lk m.graph p q) (hp : m.multi p = true)
    (he : At m.graph p e) (hf : At m.graph q f) : m.copy f.1 = !m.copy e.1 := by
  have hd : ¬ D p := by
    intro hd
    obtain ⟨e, he, -, -, hn⟩ := h.orphan p hd
    exact hn q hl
  obtain ⟨q', f', h1, h2, -, h4⟩ := h.multi_at hp hd he
  cases hl.fun h2
  rw [hf.inj h.inv h1]; exact h4

end MInv

theorem CopyOf.classify {m : MG} {c : Nat} {d : Direction} {cp : Nat} (h : CopyOf m c d cp) {q k : Nat} {d' : Direction}
    (hq : At m.graph q (c, d', k)) : (d' = d ∧ m.multi q = false) ∨ (d' = d.reverse ∧ k = 0 ∧ q = cp) := by
  by_cases hd : d' = d
  · subst hd; exact .inl ⟨rfl, h.subs q k hq⟩
  · have hd' : d' = d.reverse := by cases d <;> cases d' <;> simp_all [Direction.reverse]
    subst hd'
    have := at_iff_lt.1 ⟨q, hq⟩
    rw [h.one] at this
    obtain rfl : k = 0 := by omega
    exact .inr ⟨rfl, rfl, hq.unique h.port⟩

theorem CopyOf.fun {m : MG} {c : Nat} {d d' : Direction} {cp cp' : Nat} (h : CopyOf m c d cp) (h' : CopyOf m c d' cp') :
    d = d' ∧ cp = cp' := by
  rcases h.classify h'.port with ⟨h1, h2⟩ | ⟨h1, -, h2⟩
  · rw [h'.flag] at h2; cases h2
  · subst h2
    refine ⟨?_, rfl⟩
    cases d <;> cases d' <;> simp_all [Direction.reverse]

theorem reverse_reverse (d : Direction) : d.reverse.reverse = d := by cases d <;> rfl

theorem reverse_ne (d : Direction) : d.reverse ≠ d := by cases d <;> simp [Direction.reverse]

namespace MInv

variable {m : MG} {D : Nat → Prop}

/-- An unmarked port of a copy node. -/
theorem sub_copy (h : MInv m D) {c : Nat} {d : Direction} {q k : Nat} (hc : m.copy c = true)
    (hq : At m.graph q (c, d, k)) (hm : m.multi q = false) : ∃ cp, CopyOf m c d cp := by
  obtain ⟨d', cp, hC⟩ := h.shape c hc
  rcases hC.classify hq with ⟨rfl, -⟩ | ⟨-, -, rfl⟩
  · exact ⟨cp, hC⟩
  · rw [hC.flag] at hm; cases hm

/-- A marked port of a copy node. -/
theorem copy_port (h : MInv m D) {c : Nat} {d : Direction} {q k : Nat} (hc : m.copy c = true)
    (hq : At m.graph q (c, d, k)) (hm : m.multi q = true) : CopyOf m c d.reverse q := by
  obtain ⟨d', cp, hC⟩ := h.shape c hc
  rcases hC.classify hq with ⟨-, h1⟩ | ⟨rfl, rfl, rfl⟩
  · rw [hm] at h1; cases h1
  · rw [reverse_reverse]; exact hC

/-- Normal form of `Sub`. -/
theorem sub_iff (h : MInv m D) {q : Nat} {e : Subport} : Sub m q e ↔
    m.multi q = false ∧ ((∃ x, At m.graph q x ∧ m.copy x.1 = false ∧ e = (q, 0)) ∨
      ∃ c d cp, At m.graph q (c, d, e.2) ∧ CopyOf m c d cp ∧ Lk m.graph cp e.1) := by
  constructor
  · rintro ⟨n, d, k, h1, h2, ⟨h3, h4⟩ | ⟨h3, cp, p, h4, h5, rfl⟩⟩
    · exact ⟨h2, .inl ⟨_, h1, h3, h4⟩⟩
    · refine ⟨h2, .inr ⟨n, d, cp, h1, ?_, h5⟩⟩
      obtain ⟨cp', hC⟩ := h.sub_copy h3 h1 h2
      rwa [h4.unique hC.port]
  · rintro ⟨h1, ⟨⟨n, d, k⟩, h2, h3, rfl⟩ | ⟨c, d, cp, h2, h3, h4⟩⟩
    · exact ⟨n, d, k, h2, h1, .inl ⟨h3, rfl⟩⟩
    · exact ⟨c, d, e.2, h2, h1, .inr ⟨h3.copy, cp, e.1, h3.port, h4, rfl⟩⟩

theorem sub_flag (_ : MInv m D) {q : Nat} {e : Subport} (hs : Sub m q e) : m.multi q = false := by
  obtain ⟨n, d, k, h1, h2, -⟩ := hs; exact h2

/-- The main port of a linked copy port. -/
theorem main_vis (h : MInv m D) {c : Nat} {d : Direction} {cp p : Nat} (hC : CopyOf m c d cp) (hl : Lk m.graph cp p) :
    m.multi p = true ∧ ∃ x k, At m.graph p (x, d, k) ∧ m.copy x = false := by
  obtain ⟨e, f, h1, h2, h3⟩ := hl.at h.inv
  have h4 := h.lk_copy hl hC.flag h1 h2
  rw [h1.inj h.inv hC.port] at h3 h4
  simp only [hC.copy, reverse_reverse] at h3 h4
  refine ⟨by rw [← h.lk_multi hl, hC.flag], f.1, f.2.2, ?_, by simpa using h4⟩
  rw [← h3]; exact h2

/-- The copy node of a marked visible port. -/
theorem copy_of_main (h : MInv m D) {p x k : Nat} {d : Direction} (hp : At m.graph p (x, d, k)) (hv : m.copy x = false)
    (hm : m.multi p = true) : ∃ c cp, CopyOf m c d cp ∧ Lk m.graph p cp := by
  have hd : ¬ D p := by
    intro hd
    obtain ⟨e, he, h1, -⟩ := h.orphan p hd
    rw [he.inj h.inv hp] at h1
    rw [hv] at h1; cases h1
  obtain ⟨q, ⟨c, d', k'⟩, h1, h2, h3, h4⟩ := h.multi_at hm hd hp
  simp only [hv, Bool.not_false] at h4
  have hd := h2.dir h.inv hp h1
  simp only at hd
  subst hd
  have := h.copy_port h4 h1 h3
  rw [reverse_reverse] at this
  exact ⟨c, q, this, h2⟩

theorem sub_fun (h : MInv m D) {q : Nat} {e e' : Subport} (hs : Sub m q e) (hs' : Sub m q e') : e = e' := by
  rcases h.sub_iff.1 hs with ⟨h1, ⟨x, h2, h3, h4⟩ | ⟨c, d, cp, h2, h3, h4⟩⟩ <;>
    rcases h.sub_iff.1 hs' with ⟨-, ⟨x', h2', h3', h4'⟩ | ⟨c', d', cp', h2', h3', h4'⟩⟩
  · rw [h4, h4']
  · rw [h2.inj h.inv h2', h3'.copy] at h3; cases h3
  · rw [h2'.inj h.inv h2, h3.copy] at h3'; cases h3'
  · have := h2.inj h.inv h2'
    simp only [Prod.mk.injEq] at this
    obtain ⟨rfl, rfl, h5⟩ := this
    cases (h3.fun h3').2
    exact Prod.ext (h4.fun h4') h5

theorem sub_inj (h : MInv m D) {q r : Nat} {e : Subport} (hs : Sub m q e) (hs' : Sub m r e) : q = r := by
  rcases h.sub_iff.1 hs with ⟨h1, ⟨x, h2, h3, h4⟩ | ⟨c, d, cp, h2, h3, h4⟩⟩ <;>
    rcases h.sub_iff.1 hs' with ⟨h1', ⟨x', h2', h3', h4'⟩ | ⟨c', d', cp', h2', h3', h4'⟩⟩
  · rw [h4] at h4'; cases h4'; rfl
  · rw [h4] at h4'
    have := (h.main_vis h3' h4').1
    simp only at this
    rw [h1] at this; cases this
  · rw [h4'] at h4
    have := (h.main_vis h3 h4).1
    simp only at this
    rw [h1'] at this; cases this
  · obtain rfl := h4.inj h.inv h4'
    have := h3.port.inj h.inv h3'.port
    simp only [Prod.mk.injEq] at this
    obtain ⟨rfl, h5, -⟩ := this
    obtain rfl : d = d' := by
      have := congrArg Direction.reverse h5
      rwa [reverse_reverse, reverse_reverse] at this
    exact h2.unique h2'

/-- The port of a subport is visible and has the direction of the flat port. -/
theorem sub_vis (h : MInv m D) {q : Nat} {e : Subport} (hs : Sub m q e) :
    ∃ n c d k l, At m.graph e.1 (n, d, k) ∧ m.copy n = false ∧ At m.graph q (c, d, l) := by
  rcases h.sub_iff.1 hs with ⟨h1, ⟨⟨n, d, k⟩, h2, h3, rfl⟩ | ⟨c, d, cp, h2, h3, h4⟩⟩
  · exact ⟨n, n, d, k, k, h2, h3, h2⟩
  · obtain ⟨h5, x, k, h6, h7⟩ := h.main_vis h3 h4
    exact ⟨x, c, d, k, e.2, h6, h7, h2⟩

/-- A port that is not a multiport has one subport. -/
theorem sub_single (h : MInv m D) {p : Nat} (hv : Vis m p) (hm : m.multi p = false) {q k : Nat} :
    Sub m q (p, k) ↔ q = p ∧ k = 0 := by
  constructor
  · intro hs
    rcases h.sub_iff.1 hs with ⟨h1, ⟨x, h2, h3, h4⟩ | ⟨c, d, cp, h2, h3, h4⟩⟩
    · cases h4; exact ⟨rfl, rfl⟩
    · have := (h.main_vis h3 h4).1
      rw [hm] at this; cases this
  · rintro ⟨rfl, rfl⟩
    obtain ⟨e, h1, h2⟩ := hv
    exact h.sub_iff.2 ⟨hm, .inl ⟨e, h1, h2, rfl⟩⟩

/-- The subports of a multiport are the ports of its copy node. -/
theorem sub_multi (h : MInv m D) {p c cp : Nat} {d : Direction} (hC : CopyOf m c d cp) (hl : Lk m.graph p cp) {q k : Nat} :
    Sub m q (p, k) ↔ At m.graph q (c, d, k) := by
  constructor
  · intro hs
    rcases h.sub_iff.1 hs with ⟨h1, ⟨x, h2, h3, h4⟩ | ⟨c', d', cp', h2, h3, h4⟩⟩
    · cases h4
      rw [h.lk_multi hl, hC.flag] at h1; cases h1
    · simp only at h2 h4
      obtain rfl := h4.inj h.inv (hl.sym h.inv)
      have := h3.port.inj h.inv hC.port
      simp only [Prod.mk.injEq] at this
      obtain ⟨rfl, -, -⟩ := this
      obtain ⟨rfl, -⟩ := h3.fun hC
      exact h2
  · intro hq
    exact h.sub_iff.2 ⟨hC.subs q k hq, .inr ⟨c, d, cp, hq, hC, hl.sym h.inv⟩⟩

theorem sub_lt (h : MInv m D) {q : Nat} {e : Subport} (hs : Sub m q e) : e.2 < 65535 := by
  rcases h.sub_iff.1 hs with ⟨h1, ⟨x, h2, h3, h4⟩ | ⟨c, d, cp, h2, h3, h4⟩⟩
  · simp [h4]
  · have h5 := at_iff_lt.1 ⟨_, h2⟩
    have h6 := numPorts_le h.inv c
    have h7 := h3.one
    cases d <;> simp only [Direction.reverse] at h7 <;> omega

/-- Every unmarked port has a name when no copy node is orphaned. -/
theorem sub_exists (h : MInv m D) {q : Nat} {e : Endpoint} (hq : At m.graph q e) (hm : m.multi q = false)
    (hD : ∀ c d cp, e.1 = c → CopyOf m c d cp → ¬ D cp) : ∃ x, Sub m q x := by
  cases hc : m.copy e.1 with
  | false => exact ⟨_, h.sub_iff.2 ⟨hm, .inl ⟨e, hq, hc, rfl⟩⟩⟩
  | true =>
    obtain ⟨c, d, k⟩ := e
    obtain ⟨cp, hC⟩ := h.sub_copy hc hq hm
    obtain ⟨p, f, h1, h2, -⟩ := h.multi_at hC.flag (hD _ _ _ rfl hC) hC.port
    exact ⟨(p, k), h.sub_iff.2 ⟨hm, .inr ⟨c, d, cp, hq, hC, h2⟩⟩⟩

/-! ## Reading helpers -/

theorem mainPort_eq {c : Nat} {d : Direction} {cp : Nat} (hC : CopyOf m c d cp) :
    m.mainPort c = m.graph.portLink? cp := by
  have h1 : m.graph.ports c d.reverse = [cp] := by
    have hl := length_ports m.graph c d.reverse
    rw [hC.one] at hl
    obtain ⟨a, ha⟩ := List.length_eq_one_iff.1 hl
    have := getElem?_ports.2 hC.port
    rw [ha] at this ⊢
    simpa using this
  have h2 := length_ports m.graph c d
  have h3 := hC.two
  rw [← h2] at h3
  obtain ⟨a, b, l, hab⟩ : ∃ a b l, m.graph.ports c d = a :: b :: l := by
    match hp : m.graph.ports c d with
    | [] => rw [hp] at h3; simp at h3
    | [a] => rw [hp] at h3; simp at h3
    | a :: b :: l => exact ⟨a, b, l, rfl⟩
  unfold MG.mainPort
  rw [if_pos hC.copy]
  cases d with
  | incoming => simp only [Direction.reverse] at h1; rw [h1, hab]
  | outgoing => simp only [Direction.reverse] at h1; rw [h1, hab]

theorem fromIndex_eq (h : MInv m D) {q : Nat} {e : Subport} (hs : Sub m q e) : m.fromIndex q = some (some e) := by
  have hlt := h.sub_lt hs
  rcases h.sub_iff.1 hs with ⟨h1, ⟨x, h2, h3, h4⟩ | ⟨c, d, cp, h2, h3, h4⟩⟩
  · unfold MG.fromIndex
    rw [At.portNode h.inv h2]
    simp [h3, h4]
  · unfold MG.fromIndex
    rw [At.portNode h.inv h2]
    simp only [h3.copy, if_true]
    rw [mainPort_eq h3, show m.graph.portLink? cp = _ from h4, At.portOffset h.inv h2]
    simp [newMulti, hlt]

theorem index_eq (h : MInv m D) {q : Nat} {e : Subport} (hs : Sub m q e) : m.index e = some (some q) := by
  rcases h.sub_iff.1 hs with ⟨h1, ⟨x, h2, h3, h4⟩ | ⟨c, d, cp, h2, h3, h4⟩⟩
  · rw [h4]; simp [MG.index, h1]
  · obtain ⟨h5, x, k, h6, h7⟩ := h.main_vis h3 h4
    unfold MG.index MG.copyNode
    rw [if_pos h5, show m.graph.portLink? e.1 = _ from h4.sym h.inv]
    simp only
    rw [At.portNode h.inv h3.port, At.portDirection h.inv h6]
    simp only
    rw [at_index.2 h2]

/-- The other end of the link of an unmarked port. -/
theorem lk_sub (h : MInv m D) {q r : Nat} (hl : Lk m.graph q r) (hq : m.multi q = false)
    (hD : ∀ x, ¬ D x) : ∃ f, Sub m r f := by
  obtain ⟨e, f, -, h2, -⟩ := hl.at h.inv
  exact h.sub_exists h2 (by rw [← h.lk_multi hl, hq]) fun _ _ _ _ _ => hD _

end MInv

theorem ShowsR.sym {m : MG} {D : Nat → Prop} (h : MInv m D) {e f : Subport} (hs : ShowsR m e f) : ShowsR m f e := by
  obtain ⟨q, r, h1, h2, h3⟩ := hs
  exact ⟨r, q, h2, h1, h3.sym h.inv⟩

theorem ShowsR.fun {m : MG} {D : Nat → Prop} (h : MInv m D) {e f f' : Subport} (hs : ShowsR m e f) (hs' : ShowsR m e f') :
    f = f' := by
  obtain ⟨q, r, h1, h2, h3⟩ := hs
  obtain ⟨q', r', h1', h2', h3'⟩ := hs'
  obtain rfl := h.sub_inj h1 h1'
  obtain rfl := h3.fun h3'
  exact h.sub_fun h2 h2'

end Verif.Multi
