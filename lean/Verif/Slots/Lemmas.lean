import Verif.Slots.Spec
import Mathlib.Data.List.Perm.Subperm
import Mathlib.Data.List.Nodup

/-! Lemmas on the slots of a port graph. -/

namespace Verif.Slots

open Verif (Direction)
open Verif.PG

theorem walk_chain {g : PG} {l : List Nat} : ∀ {h : Option Nat} {k : Nat}, Chain g.lk h l → l.length ≤ k → walk g k h = l := by
  induction l with
  | nil =>
    intro h k hc hk
    cases h with
    | none => cases k <;> rfl
    | some f => simp [Chain] at hc
  | cons x xs ih =>
    intro h k hc hk
    cases h with
    | none => simp [Chain] at hc
    | some f =>
      obtain ⟨rfl, hc⟩ := hc
      cases k with
      | zero => simp at hk
      | succ k =>
        simp only [walk]
        rw [ih (h := (g.portLink[f]?).join) hc (by simpa using hk)]

theorem fs_length {len : Nat} {nd pt lk heads own fs} (h : PInv len nd pt lk heads own fs) (s : Nat) : (fs s).length ≤ len := by
  have h1 : fs s ⊆ List.range len := by
    intro f hf
    have := h.slab s f hf
    simp; omega
  have := ((h.nodup s).subperm h1).length_le
  simpa using this

theorem freeSlabs_eq {g : PG} {own fs} (h : PInv g.portMeta.length g.node? g.port? g.lk g.heads own fs) {s : Nat} (hs : 0 < s) :
    freeSlabs g s = fs s := by
  have hc := h.chain s hs
  unfold PG.heads at hc
  rw [if_neg (by omega)] at hc
  exact walk_chain hc (fs_length h s)

theorem nodeSlots_eq (g : PG) (n : Nat) : nodeSlots g n = (g.node? n).elim [] fun m => List.range' m.first m.capacity := by
  unfold nodeSlots PG.node?
  rcases g.nodeMeta[n]? with _ | _ | _ <;> rfl

theorem nodeSlots_mem {g : PG} {n p : Nat} :
    p ∈ nodeSlots g n ↔ ∃ m, g.node? n = some m ∧ m.first ≤ p ∧ p < m.first + m.capacity := by
  rw [nodeSlots_eq]
  cases g.node? n with
  | none => simp
  | some m => simp

theorem freeSlots_mem {g : PG} {s p : Nat} : p ∈ freeSlots g s ↔ ∃ f ∈ freeSlabs g s, f ≤ p ∧ p < f + s := by
  simp [freeSlots]

theorem node?_lt {g : PG} {n m} (h : g.node? n = some m) : n < g.nodeMeta.length := by
  unfold PG.node? at h
  rcases Nat.lt_or_ge n g.nodeMeta.length with h1 | h1
  · exact h1
  · rw [List.getElem?_eq_none h1] at h; cases h

theorem nodup_flatMap {α β : Type} {l : List α} {f : α → List Nat} (hl : l.Nodup) (h1 : ∀ x ∈ l, (f x).Nodup) (key : Nat → β)
    (κ : α → β) (hκ : ∀ x ∈ l, ∀ y ∈ l, κ x = κ y → x = y) (h2 : ∀ x ∈ l, ∀ p ∈ f x, key p = κ x) : (l.flatMap f).Nodup := by
  rw [List.nodup_flatMap]
  refine ⟨h1, ?_⟩
  apply List.Pairwise.imp_of_mem ?_ hl
  intro x y hx hy hne p hp hq
  exact hne (hκ x hx y hy ((h2 x hx p hp).symm.trans (h2 y hy p hq)))

/-- In a graph with the representation invariant, the slabs tile the port tables. -/
theorem slots_perm {g : PG} (hI : PG.Inv g) : (slots g).Perm (List.range g.portMeta.length) := by
  obtain ⟨own, fs, hP, hfull⟩ := hI.slots
  have hnode : ∀ n, ∀ p ∈ nodeSlots g n, own p = .node n := by
    intro n p hp
    obtain ⟨m, hm, h1, h2⟩ := nodeSlots_mem.1 hp
    exact hP.ownNode n m hm p h1 h2
  have hfree : ∀ s, 0 < s → ∀ p ∈ freeSlots g s, ∃ f ∈ fs s, own p = .slab f s ∧ f ≤ p ∧ p < f + s := by
    intro s hs p hp
    obtain ⟨f, hf, h1, h2⟩ := freeSlots_mem.1 hp
    rw [freeSlabs_eq hP hs] at hf
    exact ⟨f, hf, hP.slabOwn s f hf p h1 h2, h1, h2⟩
  have hnd : (slots g).Nodup := by
    unfold slots
    rw [List.nodup_append]
    refine ⟨?_, ?_, ?_⟩
    · apply nodup_flatMap List.nodup_range ?_ own Owner.node (by intro x _ y _ e; simpa using e) (fun n _ => hnode n)
      intro n _
      rw [nodeSlots_eq]
      cases g.node? n with
      | none => simp
      | some m => exact List.nodup_range'
    · apply nodup_flatMap List.nodup_range ?_ (fun p => match own p with | .slab _ s => s | _ => 0) (fun k => k + 1)
        (by intro x _ y _ e; simpa using e)
      · intro k _ p hp
        obtain ⟨f, -, e, -⟩ := hfree (k + 1) (by omega) p hp
        simp [e]
      · intro k _
        unfold freeSlots
        rw [freeSlabs_eq hP (by omega)]
        apply nodup_flatMap (hP.nodup _) (fun f _ => List.nodup_range') own (fun f => .slab f (k + 1))
          (by intro x _ y _ e; simpa using e)
        intro f hf p hp
        simp at hp
        exact hP.slabOwn _ f hf p hp.1 (by omega)
    · intro p hp q hq e
      subst e
      simp only [List.mem_flatMap, List.mem_range] at hp hq
      obtain ⟨n, -, hn⟩ := hp
      obtain ⟨k, -, hk⟩ := hq
      obtain ⟨f, -, e, -⟩ := hfree (k + 1) (by omega) p hk
      rw [hnode n p hn] at e
      cases e
  rw [List.perm_ext_iff_of_nodup hnd List.nodup_range]
  intro p
  unfold slots
  simp only [List.mem_append, List.mem_flatMap, List.mem_range]
  constructor
  · rintro (⟨n, -, hn⟩ | ⟨k, -, hk⟩)
    · obtain ⟨m, hm, h1, h2⟩ := nodeSlots_mem.1 hn
      have := hP.bound n m hm
      omega
    · obtain ⟨f, hf, -, h1, h2⟩ := hfree (k + 1) (by omega) p hk
      have := hP.slab _ f hf
      omega
  · intro hp
    cases e : own p with
    | none => exact absurd e (hfull p hp)
    | node n =>
      obtain ⟨m, hm, h1, h2⟩ := hP.nodeOf p n e
      exact Or.inl ⟨n, node?_lt hm, nodeSlots_mem.2 ⟨m, hm, h1, h2⟩⟩
    | slab f s =>
      obtain ⟨hf, h1, h2, -⟩ := hP.slabOf p f s e
      have hs := (hP.slab s f hf).1
      refine Or.inr ⟨s - 1, ?_, ?_⟩
      · have hc := hP.chain s hs
        cases hh : g.heads s with
        | none => rw [hh] at hc; rw [hc.nil] at hf; simp at hf
        | some x =>
          unfold PG.heads at hh
          rw [if_neg (by omega)] at hh
          rcases Nat.lt_or_ge (s - 1) g.portFree.length with h3 | h3
          · exact h3
          · rw [List.getElem?_eq_none h3] at hh; cases hh
      · rw [show s - 1 + 1 = s by omega]
        exact freeSlots_mem.2 ⟨f, by rw [freeSlabs_eq hP hs]; exact hf, h1, h2⟩

theorem slots_length {g : PG} : (slots g).length = ((List.range g.nodeMeta.length).map g.nodePortCapacity).sum +
    ((List.range g.portFree.length).map fun k => (k + 1) * (freeSlabs g (k + 1)).length).sum := by
  unfold slots
  rw [List.length_append, List.length_flatMap, List.length_flatMap]
  congr 2
  · apply List.map_congr_left
    intro n _
    rw [nodeSlots_eq]
    unfold PG.nodePortCapacity
    cases g.node? n <;> simp
  · apply List.map_congr_left
    intro k _
    unfold freeSlots
    rw [List.length_flatMap]
    simp [Nat.mul_comm]

end Verif.Slots
