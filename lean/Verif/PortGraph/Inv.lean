import Verif.PortGraph.Model
import Verif.Count

/-!
# The representation invariant of the port graph

The invariant is stated on the functions a state induces (`node?`, `port?`, the links and
the heads of the slab lists), so that preservation proofs do not depend on lists.
-/

namespace Verif.PG

open Verif (Direction)

/-- Ghost owner of a port slot. -/
inductive Owner where
  | none
  | node (n : Nat)
  | slab (first size : Nat)
deriving DecidableEq

/-- `Chain lk h l`: following `lk` from the head `h` visits exactly the list `l`. -/
def Chain (lk : Nat → Option Nat) : Option Nat → List Nat → Prop
  | none, [] => True
  | some f, x :: xs => f = x ∧ Chain lk (lk f) xs
  | _, _ => False

/-- Doubly linked list of free node slots. -/
def DChain (nm : Nat → Option NodeEntry) (prev : Option Nat) : Option Nat → List Nat → Prop
  | none, [] => True
  | some f, x :: xs => f = x ∧ ∃ nx, nm f = some (.free prev nx) ∧ DChain nm (some f) nx xs
  | _, _ => False

/-- Port `p` is one of the `d` ports of the live node `n`. -/
def IsPort (nd : Nat → Option NodeMeta) (p n : Nat) (d : Direction) : Prop :=
  ∃ m, nd n = some m ∧ m.start d ≤ p ∧ p < m.start d + m.numPorts d

/-- Invariant of the port part. -/
structure PInv (len : Nat) (nd : Nat → Option NodeMeta) (pt : Nat → Option (Nat × Direction))
    (lk : Nat → Option Nat) (heads : Nat → Option Nat) (own : Nat → Owner)
    (fs : Nat → List Nat) : Prop where
  bound : ∀ n m, nd n = some m → m.incoming + m.outgoing ≤ m.capacity ∧
    m.first + m.capacity ≤ len ∧ (m.capacity = 0 → m.first = 0) ∧
    m.incoming ≤ 65534 ∧ m.capacity ≤ 65535
  ownNode : ∀ n m, nd n = some m → ∀ p, m.first ≤ p → p < m.first + m.capacity → own p = .node n
  ports : ∀ p n d, pt p = some (n, d) ↔ IsPort nd p n d
  links : ∀ p n d q, pt p = some (n, d) → lk p = some q →
    lk q = some p ∧ ∃ n', pt q = some (n', d.reverse)
  unused : ∀ n m, nd n = some m → ∀ p, m.first + m.incoming + m.outgoing ≤ p →
    p < m.first + m.capacity → lk p = none
  slab : ∀ s f, f ∈ fs s → 0 < s ∧ f + s ≤ len
  slabOwn : ∀ s f, f ∈ fs s → ∀ p, f ≤ p → p < f + s → own p = .slab f s
  chain : ∀ s, 0 < s → Chain lk (heads s) (fs s)
  nodup : ∀ s, (fs s).Nodup
  nodeOf : ∀ p n, own p = .node n → ∃ m, nd n = some m ∧ m.first ≤ p ∧ p < m.first + m.capacity
  slabOf : ∀ p f s, own p = .slab f s → f ∈ fs s ∧ f ≤ p ∧ p < f + s ∧ (p ≠ f → lk p = none)
  orphan : ∀ p, own p = .none → lk p = none

/-- A linked port of direction `d`. -/
def linkedDir (pt : Nat → Option (Nat × Direction)) (lk : Nat → Option Nat) (d : Direction)
    (p : Nat) : Bool :=
  match pt p with
  | some (_, d') => decide (d' = d) && (lk p).isSome
  | none => false

/-- Invariant of the node slots. -/
structure NInv (nm : List NodeEntry) (head : Option Nat) (count : Nat) (fn : List Nat) :
    Prop where
  chain : DChain (fun i => nm[i]?) none head fn
  exact : ∀ n, n ∈ fn ↔ ∃ a b, nm[n]? = some (.free a b)
  nodup : fn.Nodup
  count : count = cnt nm.length fun n => match nm[n]? with
    | some (.node _) => true
    | _ => false

namespace PG

/-- The link stored in a slot. -/
def lk (g : PG) (p : Nat) : Option Nat := (g.portLink[p]?).join

/-- Head of the list of free slabs of size `s`. -/
def heads (g : PG) (s : Nat) : Option Nat := if s = 0 then none else (g.portFree[s - 1]?).join

end PG

/-- `fs s` is the list of free slabs of size `s`. -/
def Frees (g : PG) (fs : Nat → List Nat) : Prop := ∀ s, 0 < s → Chain g.lk (g.heads s) (fs s)

/-- The representation invariant. -/
structure Inv (g : PG) : Prop where
  len : g.portLink.length = g.portMeta.length
  nodes : ∃ fn, NInv g.nodeMeta g.nodeFree g.nodeCount fn
  slots : ∃ own fs, PInv g.portMeta.length g.node? g.port? g.lk g.heads own fs ∧ ∀ p < g.portMeta.length, own p ≠ .none
  portCount : g.portCount = cnt g.portMeta.length fun p => (g.port? p).isSome
  outCount : g.linkCount = cnt g.portMeta.length (linkedDir g.port? g.lk .outgoing)
  inCount : g.linkCount = cnt g.portMeta.length (linkedDir g.port? g.lk .incoming)

/-! ## Basic consequences -/

theorem Direction.reverse_ne (d : Direction) : d.reverse ≠ d := by cases d <;> simp [Direction.reverse]
theorem Direction.reverse_reverse (d : Direction) : d.reverse.reverse = d := by
  cases d <;> simp [Direction.reverse]

theorem NodeMeta.range_sub (m : NodeMeta) (d : Direction) (p : Nat)
    (h : m.incoming + m.outgoing ≤ m.capacity) (h1 : m.start d ≤ p)
    (h2 : p < m.start d + m.numPorts d) :
    m.first ≤ p ∧ p < m.first + m.incoming + m.outgoing ∧ p < m.first + m.capacity := by
  cases d <;> simp [NodeMeta.start, NodeMeta.numPorts] at * <;> omega

theorem NodeMeta.range_dir (m : NodeMeta) (p : Nat) (h1 : m.first ≤ p)
    (h2 : p < m.first + m.incoming + m.outgoing) :
    ∃ d, m.start d ≤ p ∧ p < m.start d + m.numPorts d := by
  by_cases h : p < m.first + m.incoming
  · exact ⟨.incoming, by simpa [NodeMeta.start] using h1, by simpa [NodeMeta.start, NodeMeta.numPorts] using h⟩
  · exact ⟨.outgoing, by simp [NodeMeta.start]; omega, by simp [NodeMeta.start, NodeMeta.numPorts]; omega⟩

namespace PInv

variable {len : Nat} {nd : Nat → Option NodeMeta} {pt : Nat → Option (Nat × Direction)}
  {lk : Nat → Option Nat} {heads : Nat → Option Nat} {own : Nat → Owner} {fs : Nat → List Nat}

theorem pt_own (h : PInv len nd pt lk heads own fs) {p n d} (hp : pt p = some (n, d)) :
    own p = .node n := by
  obtain ⟨m, hm, h1, h2⟩ := (h.ports p n d).1 hp
  have hb := h.bound n m hm
  have := m.range_sub d p hb.1 h1 h2
  exact h.ownNode n m hm p this.1 this.2.2

theorem pt_lt (h : PInv len nd pt lk heads own fs) {p n d} (hp : pt p = some (n, d)) : p < len := by
  obtain ⟨m, hm, h1, h2⟩ := (h.ports p n d).1 hp
  have hb := h.bound n m hm
  have := m.range_sub d p hb.1 h1 h2
  omega

/-- Inside the slab of a node. -/
theorem pt_slab (h : PInv len nd pt lk heads own fs) {n m} (hm : nd n = some m) {p n' d}
    (h1 : m.first ≤ p) (h2 : p < m.first + m.capacity) (hp : pt p = some (n', d)) :
    n' = n ∧ m.start d ≤ p ∧ p < m.start d + m.numPorts d ∧ p < m.first + m.incoming + m.outgoing := by
  have e1 := h.ownNode n m hm p h1 h2
  have e2 := h.pt_own hp
  rw [e1] at e2
  cases e2
  obtain ⟨m', hm', h3, h4⟩ := (h.ports p n d).1 hp
  rw [hm] at hm'; cases hm'
  exact ⟨rfl, h3, h4, (m.range_sub d p (h.bound n m hm).1 h3 h4).2.1⟩

theorem pt_used (h : PInv len nd pt lk heads own fs) {n m} (hm : nd n = some m) {p}
    (h1 : m.first ≤ p) (h2 : p < m.first + m.incoming + m.outgoing) :
    ∃ d, pt p = some (n, d) := by
  obtain ⟨d, h3, h4⟩ := m.range_dir p h1 h2
  exact ⟨d, (h.ports p n d).2 ⟨m, hm, h3, h4⟩⟩

/-- A slot that is not owned by a node is not a port. -/
theorem pt_none (h : PInv len nd pt lk heads own fs) {p} (hp : ∀ n, own p ≠ .node n) :
    pt p = none := by
  cases e : pt p with
  | none => rfl
  | some x => obtain ⟨n, d⟩ := x; exact absurd (h.pt_own e) (hp n)

end PInv

/-! ## Chains -/

theorem Chain.congr {lk lk' : Nat → Option Nat} {h l} (hc : Chain lk h l)
    (he : ∀ x, x ∈ l → lk' x = lk x) : Chain lk' h l := by
  induction l generalizing h with
  | nil => cases h <;> simp_all [Chain]
  | cons x xs ih =>
    cases h with
    | none => simp [Chain] at hc
    | some f =>
      obtain ⟨rfl, hc⟩ := hc
      refine ⟨rfl, ?_⟩
      rw [he f (by simp)]
      exact ih hc fun y hy => he y (by simp [hy])

theorem Chain.head {lk : Nat → Option Nat} {f l} (hc : Chain lk (some f) l) :
    ∃ xs, l = f :: xs ∧ Chain lk (lk f) xs := by
  cases l with
  | nil => simp [Chain] at hc
  | cons x xs => obtain ⟨rfl, hc⟩ := hc; exact ⟨xs, rfl, hc⟩

theorem Chain.nil {lk : Nat → Option Nat} {l} (hc : Chain lk none l) : l = [] := by
  cases l with
  | nil => rfl
  | cons => simp [Chain] at hc

theorem DChain.congr {nm nm' : Nat → Option NodeEntry} {pr h l} (hc : DChain nm pr h l)
    (he : ∀ x, x ∈ l → nm' x = nm x) : DChain nm' pr h l := by
  induction l generalizing h pr with
  | nil => cases h <;> simp_all [DChain]
  | cons x xs ih =>
    cases h with
    | none => simp [DChain] at hc
    | some f =>
      obtain ⟨rfl, nx, hf, hc⟩ := hc
      exact ⟨rfl, nx, by rw [he f (by simp)]; exact hf, ih hc fun y hy => he y (by simp [hy])⟩

theorem DChain.head {nm : Nat → Option NodeEntry} {pr f l} (hc : DChain nm pr (some f) l) :
    ∃ xs nx, l = f :: xs ∧ nm f = some (.free pr nx) ∧ DChain nm (some f) nx xs := by
  cases l with
  | nil => simp [DChain] at hc
  | cons x xs => obtain ⟨rfl, nx, h1, h2⟩ := hc; exact ⟨xs, nx, rfl, h1, h2⟩

theorem DChain.nil {nm : Nat → Option NodeEntry} {pr l} (hc : DChain nm pr none l) : l = [] := by
  cases l with
  | nil => rfl
  | cons => simp [DChain] at hc

end Verif.PG
