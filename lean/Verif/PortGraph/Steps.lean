import Verif.PortGraph.Inv

/-! Preservation of `PInv` by the elementary changes of the induced functions. -/

namespace Verif.PG

open Verif (Direction)

/-- `p` lies in `[a, a + k)`. -/
def inRange (a k p : Nat) : Bool := decide (a ≤ p) && decide (p < a + k)

@[simp] theorem inRange_iff {a k p : Nat} : inRange a k p = true ↔ a ≤ p ∧ p < a + k := by
  simp [inRange]

@[simp] theorem inRange_eq_false {a k p : Nat} : inRange a k p = false ↔ ¬ (a ≤ p ∧ p < a + k) := by
  rw [← inRange_iff, Bool.not_eq_true]

@[grind =] theorem inRange_def (a k p : Nat) :
    inRange a k p = (decide (a ≤ p) && decide (p < a + k)) := rfl

/-- Function update. -/
def upd {α : Type} (f : Nat → α) (i : Nat) (x : α) : Nat → α := fun j => if j = i then x else f j

/-- Links after removing every link that touches a slot in `R`. -/
def cut (pt : Nat → Option (Nat × Direction)) (lk : Nat → Option Nat) (R : Nat → Bool) :
    Nat → Option Nat := fun p =>
  if R p then none
  else match lk p with
    | none => none
    | some q => if (pt p).isSome && R q then none else some q

section
variable {len : Nat} {nd : Nat → Option NodeMeta} {pt : Nat → Option (Nat × Direction)}
  {lk : Nat → Option Nat} {heads : Nat → Option Nat} {own : Nat → Owner} {fs : Nat → List Nat}

theorem PInv.slab_notPort (h : PInv len nd pt lk heads own fs) {s f} (hf : f ∈ fs s) :
    pt f = none := by
  have := h.slab s f hf
  exact h.pt_none fun n => by rw [h.slabOwn s f hf f (Nat.le_refl _) (by omega)]; simp

theorem PInv.link (h : PInv len nd pt lk heads own fs) {a b na nb da}
    (ha : pt a = some (na, da)) (hb : pt b = some (nb, da.reverse))
    (la : lk a = none) (lb : lk b = none) :
    PInv len nd pt (upd (upd lk a (some b)) b (some a)) heads own fs := by
  have hab : a ≠ b := by
    rintro rfl; rw [ha] at hb; cases da <;> simp [Direction.reverse] at hb
  refine { h with links := ?_, unused := ?_, chain := ?_, slabOf := ?_, orphan := ?_ }
  · intro p n d q hp hq
    have hl := h.links
    have hrr := Direction.reverse_reverse
    simp only [upd] at hq ⊢
    grind
  · intro n m hm p h1 h2
    have hu := h.unused n m hm p h1 h2
    have hbd := h.bound n m hm
    have e1 : p ≠ a := by
      rintro rfl
      have := (h.pt_slab hm (by omega) h2 ha).2.2.2; omega
    have e2 : p ≠ b := by
      rintro rfl
      have := (h.pt_slab hm (by omega) h2 hb).2.2.2; omega
    simp [upd, e1, e2, hu]
  · intro s hs
    refine (h.chain s hs).congr fun x hx => ?_
    have := h.slab_notPort hx
    have e1 : x ≠ a := by rintro rfl; simp [ha] at this
    have e2 : x ≠ b := by rintro rfl; simp [hb] at this
    simp [upd, e1, e2]
  · intro p f s hp
    have h1 := h.slabOf p f s hp
    have e1 : p ≠ a := by rintro rfl; rw [h.pt_own ha] at hp; cases hp
    have e2 : p ≠ b := by rintro rfl; rw [h.pt_own hb] at hp; cases hp
    simpa [upd, e1, e2] using h1
  · intro p hp
    have e1 : p ≠ a := by rintro rfl; rw [h.pt_own ha] at hp; cases hp
    have e2 : p ≠ b := by rintro rfl; rw [h.pt_own hb] at hp; cases hp
    simpa [upd, e1, e2] using h.orphan p hp

theorem PInv.cut (h : PInv len nd pt lk heads own fs) (R : Nat → Bool)
    (hR : ∀ s f, f ∈ fs s → R f = false) :
    PInv len nd pt (cut pt lk R) heads own fs := by
  refine { h with links := ?_, unused := ?_, chain := ?_, slabOf := ?_, orphan := ?_ }
  · intro p n d q hp hq
    have hl := h.links
    simp only [PG.cut] at hq ⊢
    grind
  · intro n m hm p h1 h2
    have hu := h.unused n m hm p h1 h2
    simp [PG.cut, hu]
  · intro s hs
    refine (h.chain s hs).congr fun x hx => ?_
    have := h.slab_notPort hx
    simp only [PG.cut, hR s x hx, this]
    cases lk x <;> simp
  · intro p f s hp
    obtain ⟨h1, h2, h3, h4⟩ := h.slabOf p f s hp
    exact ⟨h1, h2, h3, fun e => by simp [PG.cut, h4 e]⟩
  · intro p hp
    simp [PG.cut, h.orphan p hp]

/-- Making the slab of a node an orphan. -/
theorem PInv.removeNode (h : PInv len nd pt lk heads own fs) {n m} (hm : nd n = some m) :
    PInv len (upd nd n none) (fun p => if inRange m.first m.capacity p then none else pt p)
      (PG.cut pt lk (inRange m.first m.capacity)) heads
      (fun p => if inRange m.first m.capacity p then .none else own p) fs := by
  have hslab : ∀ s f p, f ∈ fs s → f ≤ p → p < f + s → inRange m.first m.capacity p = false := by
    intro s f p hf h1 h2
    cases e : inRange m.first m.capacity p with
    | false => rfl
    | true =>
      rw [inRange_iff] at e
      have := h.ownNode n m hm p e.1 e.2
      rw [h.slabOwn s f hf p h1 h2] at this; simp at this
  have hc := h.cut (inRange m.first m.capacity)
    (fun s f hf => hslab s f f hf (Nat.le_refl _) (by have := h.slab s f hf; omega))
  constructor
  · intro n' m' hm'
    simp only [upd] at hm'
    split at hm' <;> simp_all
    exact h.bound n' m' hm'
  · intro n' m' hm' p h1 h2
    simp only [upd] at hm'
    split at hm' <;> simp_all
    have := h.ownNode n' m' hm' p h1 h2
    have e2 := h.ownNode n m hm p
    grind
  · intro p n' d'
    have hp := h.ports p n' d'
    constructor
    · intro hq
      split at hq
      · simp at hq
      · rename_i hr
        obtain ⟨m', hm', h1, h2⟩ := hp.1 hq
        refine ⟨m', ?_, h1, h2⟩
        simp only [upd]
        split
        · subst n'
          rw [hm] at hm'; cases hm'
          have := m.range_sub d' p (h.bound n m hm).1 h1 h2
          simp at hr; omega
        · exact hm'
    · rintro ⟨m', hm', h1, h2⟩
      simp only [upd] at hm'
      split at hm' <;> simp_all
      rename_i hne
      have hq := hp.2 ⟨m', hm', h1, h2⟩
      refine ⟨fun h3 => ?_, hp.1 hq⟩
      have e1 := h.pt_own hq
      apply Classical.byContradiction
      intro hcon
      have := h.ownNode n m hm p h3 (by omega)
      rw [this] at e1
      simp at e1
      exact hne e1.symm
  · intro p n' d q hp hq
    split at hp
    · simp at hp
    · rename_i hr
      have := hc.links p n' d q hp hq
      refine ⟨this.1, ?_⟩
      obtain ⟨n'', hn''⟩ := this.2
      refine ⟨n'', ?_⟩
      have hrq : inRange m.first m.capacity q = false := by
        simp only [PG.cut] at hq
        grind
      simp [hrq, hn'']
  · intro n' m' hm' p h1 h2
    simp only [upd] at hm'
    split at hm' <;> simp_all
    exact hc.unused n' m' hm' p h1 h2
  · exact h.slab
  · intro s f hf p h1 h2
    simp [hslab s f p hf h1 h2, h.slabOwn s f hf p h1 h2]
  · exact hc.chain
  · exact h.nodup
  · intro p n' hp
    split at hp
    · cases hp
    · next hr =>
      obtain ⟨m', hm', h1, h2⟩ := h.nodeOf p n' hp
      have hne : n' ≠ n := by
        rintro rfl
        rw [hm] at hm'; cases hm'
        exact hr (inRange_iff.2 ⟨h1, h2⟩)
      exact ⟨m', by simp [upd, hne, hm'], h1, h2⟩
  · intro p f s hp
    split at hp
    · cases hp
    · exact hc.slabOf p f s hp
  · intro p hp
    split at hp
    · next hr => simp [PG.cut, hr]
    · exact hc.orphan p hp

/-- Putting an orphan range on a slab list. -/
theorem PInv.pushSlab (h : PInv len nd pt lk heads own fs) {f s} (hs : 0 < s) (hlen : f + s ≤ len)
    (ho : ∀ p, f ≤ p → p < f + s → own p = .none) :
    PInv len nd pt (upd lk f (heads s)) (upd heads s (some f))
      (fun p => if inRange f s p then .slab f s else own p) (upd fs s (f :: fs s)) := by
  have hpt : pt f = none := h.pt_none fun n => by rw [ho f (by omega) (by omega)]; simp
  have hnot : ∀ s', f ∉ fs s' := by
    intro s' hf
    have h1 := h.slabOwn s' f hf f (Nat.le_refl _) (by have := h.slab s' f hf; omega)
    rw [ho f (by omega) (by omega)] at h1; simp at h1
  have hnd : ∀ n m, nd n = some m → ∀ p, m.first ≤ p → p < m.first + m.capacity →
      ¬ (f ≤ p ∧ p < f + s) := by
    intro n m hm p h1 h2 h3
    have := h.ownNode n m hm p h1 h2
    rw [ho p h3.1 h3.2] at this; simp at this
  constructor
  · exact h.bound
  · intro n m hm p h1 h2
    have := hnd n m hm p h1 h2
    have e := h.ownNode n m hm p h1 h2
    grind
  · exact h.ports
  · intro p n d q hp hq
    have hl := h.links
    simp only [upd] at hq ⊢
    grind
  · intro n m hm p h1 h2
    have := hnd n m hm p (by omega) h2
    have e := h.unused n m hm p h1 h2
    simp only [upd]
    grind
  · intro s' f' hf'
    simp only [upd] at hf'
    split at hf'
    · subst s'
      rcases List.mem_cons.1 hf' with rfl | hf'
      · exact ⟨hs, hlen⟩
      · exact h.slab _ _ hf'
    · exact h.slab _ _ hf'
  · intro s' f' hf' p h1 h2
    by_cases e : f' = f ∧ s' = s
    · obtain ⟨rfl, rfl⟩ := e
      simp [h1, h2]
    · have hf'' : f' ∈ fs s' := by
        simp only [upd] at hf'
        split at hf'
        · subst s'
          rcases List.mem_cons.1 hf' with rfl | hf'
          · simp at e
          · exact hf'
        · exact hf'
      have h3 := h.slabOwn s' f' hf'' p h1 h2
      have h4 : ¬ (f ≤ p ∧ p < f + s) := by
        intro h4; rw [ho p h4.1 h4.2] at h3; simp at h3
      have : inRange f s p = false := by rw [inRange_eq_false]; exact h4
      simp [this, h3]
  · intro s' hs'
    have hcg : Chain (upd lk f (heads s)) (heads s') (fs s') :=
      (h.chain s' hs').congr fun x hx => by
        simp only [upd]; rw [if_neg]; rintro rfl; exact hnot _ hx
    by_cases e : s' = s
    · subst e
      simp only [upd, if_true]
      exact ⟨rfl, by rw [show upd lk f (heads s') f = heads s' by simp [upd]]; exact hcg⟩
    · simp only [upd, e, if_false]; exact hcg
  · intro s'
    simp only [upd]
    split
    · subst s'; exact List.nodup_cons.2 ⟨hnot s, h.nodup s⟩
    · exact h.nodup s'
  · intro p n hp
    split at hp
    · cases hp
    · exact h.nodeOf p n hp
  · intro p f' s' hp
    split at hp
    · next hr =>
      cases hp
      have hr' := inRange_iff.1 hr
      refine ⟨by simp [upd], hr'.1, hr'.2, fun e => ?_⟩
      simp only [upd, if_neg e]
      exact h.orphan p (ho p hr'.1 hr'.2)
    · next hr =>
      obtain ⟨h1, h2, h3, h4⟩ := h.slabOf p f' s' hp
      refine ⟨?_, h2, h3, fun e => ?_⟩
      · simp only [upd]
        split
        · next e => subst e; exact List.mem_cons_of_mem _ h1
        · exact h1
      · have : p ≠ f := by rintro rfl; exact hr (inRange_iff.2 ⟨Nat.le_refl _, by omega⟩)
        simp only [upd, if_neg this]
        exact h4 e
  · intro p hp
    split at hp
    · cases hp
    · next hr =>
      have : p ≠ f := by rintro rfl; exact hr (inRange_iff.2 ⟨Nat.le_refl _, by omega⟩)
      simp only [upd, if_neg this]
      exact h.orphan p hp

/-- Taking the first slab of a list and clearing it. -/
theorem PInv.popSlab (h : PInv len nd pt lk heads own fs) {f s} (hs : 0 < s)
    (hh : heads s = some f) :
    f + s ≤ len ∧ (∀ p, f ≤ p → p < f + s → own p = .slab f s) ∧
    PInv len nd pt (fun p => if inRange f s p then none else lk p) (upd heads s (lk f))
      (fun p => if inRange f s p then .none else own p) (upd fs s (fs s).tail) := by
  have hch := h.chain s hs
  rw [hh] at hch
  obtain ⟨xs, hxs, hch'⟩ := hch.head
  have hmem : f ∈ fs s := by simp [hxs]
  have hsl := h.slab s f hmem
  have ho := h.slabOwn s f hmem
  have hnp : ∀ p, f ≤ p → p < f + s → pt p = none := fun p h1 h2 =>
    h.pt_none fun n => by rw [ho p h1 h2]; simp
  have hnodup := h.nodup s
  rw [hxs] at hnodup
  have hnd : ∀ n m, nd n = some m → ∀ p, m.first ≤ p → p < m.first + m.capacity →
      ¬ (f ≤ p ∧ p < f + s) := by
    intro n m hm p h1 h2 h3
    have := h.ownNode n m hm p h1 h2
    rw [ho p h3.1 h3.2] at this; simp at this
  have hsub : ∀ s' f', f' ∈ upd fs s (fs s).tail s' → f' ∈ fs s' ∧ ¬ (f' = f ∧ s' = s) := by
    intro s' f' hf'
    simp only [upd] at hf'
    split at hf'
    · subst s'
      rw [hxs] at hf' ⊢
      simp at hf'
      refine ⟨by simp [hf'], ?_⟩
      rintro ⟨rfl, -⟩
      exact (List.nodup_cons.1 hnodup).1 hf'
    · rename_i hne
      exact ⟨hf', fun h => hne h.2⟩
  have hsep : ∀ s' f', f' ∈ fs s' → ¬ (f' = f ∧ s' = s) → ∀ p, f' ≤ p → p < f' + s' →
      ¬ (f ≤ p ∧ p < f + s) := by
    intro s' f' hf' hne p h1 h2 h3
    have e := h.slabOwn s' f' hf' p h1 h2
    rw [ho p h3.1 h3.2] at e
    simp at e
    exact hne ⟨e.1.symm, e.2.symm⟩
  refine ⟨hsl.2, ho, ?_⟩
  constructor
  · exact h.bound
  · intro n m hm p h1 h2
    have := hnd n m hm p h1 h2
    have e := h.ownNode n m hm p h1 h2
    grind
  · exact h.ports
  · intro p n d q hp hq
    have hl := h.links
    grind
  · intro n m hm p h1 h2
    have e := h.unused n m hm p h1 h2
    grind
  · intro s' f' hf'
    exact h.slab _ _ (hsub s' f' hf').1
  · intro s' f' hf' p h1 h2
    have ⟨h3, h4⟩ := hsub s' f' hf'
    have h5 := hsep s' f' h3 h4 p h1 h2
    have h6 := h.slabOwn s' f' h3 p h1 h2
    grind
  · intro s' hs'
    have hcg : ∀ hd, Chain lk hd (upd fs s (fs s).tail s') →
        Chain (fun p => if inRange f s p then none else lk p) hd (upd fs s (fs s).tail s') := by
      intro hd hc
      refine hc.congr fun x hx => ?_
      have ⟨h3, h4⟩ := hsub s' x hx
      have h5 := hsep s' x h3 h4 x (Nat.le_refl _) (by have := h.slab s' x h3; omega)
      grind
    apply hcg
    simp only [upd]
    split
    · rw [hxs]; exact hch'
    · exact h.chain s' hs'
  · intro s'
    simp only [upd]
    split
    · rw [hxs]; exact (List.nodup_cons.1 hnodup).2
    · exact h.nodup s'
  · intro p n hp
    split at hp
    · cases hp
    · exact h.nodeOf p n hp
  · intro p f' s' hp
    split at hp
    · cases hp
    · next hr =>
      obtain ⟨h1, h2, h3, h4⟩ := h.slabOf p f' s' hp
      refine ⟨?_, h2, h3, fun e => ?_⟩
      · simp only [upd]
        split
        · next e =>
          subst e
          rw [hxs] at h1 ⊢
          rcases List.mem_cons.1 h1 with rfl | h1
          · exact absurd (inRange_iff.2 ⟨h2, h3⟩) hr
          · exact h1
        · exact h1
      · split
        · rfl
        · exact h4 e
  · intro p hp
    split at hp
    · next hr => simp [hr]
    · next hr => simp only [if_neg hr]; exact h.orphan p hp

/-- Growing the arrays. -/
theorem PInv.extend (h : PInv len nd pt lk heads own fs) {len'} (hl : len ≤ len') :
    PInv len' nd pt (fun p => if len ≤ p then none else lk p) heads
      (fun p => if len ≤ p then .none else own p) fs := by
  constructor
  · intro n m hm; have := h.bound n m hm; grind
  · intro n m hm p h1 h2
    have := h.bound n m hm
    have := h.ownNode n m hm p h1 h2
    grind
  · exact h.ports
  · intro p n d q hp hq
    have hl := h.links
    have := h.pt_lt hp
    have e : ¬ len ≤ p := by omega
    simp only [e, if_false] at hq
    have h1 := hl p n d q hp hq
    obtain ⟨n', hn'⟩ := h1.2
    have := h.pt_lt hn'
    have e : ¬ len ≤ q := by omega
    simp only [e, if_false]
    exact ⟨h1.1, n', hn'⟩
  · intro n m hm p h1 h2
    have := h.unused n m hm p h1 h2
    grind
  · intro s f hf; have := h.slab s f hf; omega
  · intro s f hf p h1 h2
    have := h.slab s f hf
    have := h.slabOwn s f hf p h1 h2
    grind
  · intro s hs
    refine (h.chain s hs).congr fun x hx => ?_
    have := h.slab s x hx
    grind
  · exact h.nodup
  · intro p n hp
    split at hp
    · cases hp
    · exact h.nodeOf p n hp
  · intro p f s hp
    split at hp
    · cases hp
    · next hr =>
      simp only [if_neg hr]
      exact h.slabOf p f s hp
  · intro p hp
    split at hp
    · next hr => simp only [if_pos hr]
    · next hr => simp only [if_neg hr]; exact h.orphan p hp

/-- Port entries of a node on its ranges. -/
def claim (pt : Nat → Option (Nat × Direction)) (n : Nat) (m : NodeMeta) :
    Nat → Option (Nat × Direction) := fun p =>
  if inRange (m.start .incoming) (m.numPorts .incoming) p then some (n, .incoming)
  else if inRange (m.start .outgoing) (m.numPorts .outgoing) p then some (n, .outgoing)
  else pt p

/-- Placing a new node on an orphan range. -/
theorem PInv.placeNode (h : PInv len nd pt lk heads own fs) {n} {m : NodeMeta} (hn : nd n = none)
    (hb : m.incoming + m.outgoing ≤ m.capacity ∧ m.first + m.capacity ≤ len ∧
      (m.capacity = 0 → m.first = 0) ∧ m.incoming ≤ 65534 ∧ m.capacity ≤ 65535)
    (ho : ∀ p, m.first ≤ p → p < m.first + m.capacity → own p = .none)
    (hlk : ∀ p, m.first ≤ p → p < m.first + m.capacity → lk p = none) :
    PInv len (upd nd n (some m)) (claim pt n m) lk heads
      (fun p => if inRange m.first m.capacity p then .node n else own p) fs := by
  have hpt : ∀ p, m.first ≤ p → p < m.first + m.capacity → pt p = none := fun p h1 h2 =>
    h.pt_none fun n => by rw [ho p h1 h2]; simp
  have hcl : ∀ p n' d, claim pt n m p = some (n', d) ↔
      (n' = n ∧ m.start d ≤ p ∧ p < m.start d + m.numPorts d) ∨ pt p = some (n', d) := by
    intro p n' d
    have hr := fun d => m.range_sub d p hb.1
    have hp := hpt p
    simp only [claim]
    constructor
    · intro hq
      split at hq
      · rename_i hi; simp at hi hq; obtain ⟨rfl, rfl⟩ := hq; exact Or.inl ⟨rfl, hi⟩
      · split at hq
        · rename_i hi; simp at hi hq; obtain ⟨rfl, rfl⟩ := hq; exact Or.inl ⟨rfl, hi⟩
        · exact Or.inr hq
    · rintro (⟨rfl, h1, h2⟩ | hq)
      · cases d
        · rw [if_pos (by simp; exact ⟨h1, h2⟩)]
        · rw [if_neg, if_pos (by simp; exact ⟨h1, h2⟩)]
          simp [NodeMeta.start, NodeMeta.numPorts] at *; omega
      · rw [if_neg, if_neg]
        · exact hq
        · intro hi; simp at hi
          have := hr _ hi.1 hi.2
          rw [hp this.1 this.2.2] at hq; simp at hq
        · intro hi; simp at hi
          have := hr _ hi.1 hi.2
          rw [hp this.1 this.2.2] at hq; simp at hq
  have hne : ∀ n' m', nd n' = some m' → n' ≠ n := by rintro n' m' h1 rfl; simp [hn] at h1
  constructor
  · intro n' m' hm'
    simp only [upd] at hm'
    split at hm'
    · cases hm'; exact hb
    · exact h.bound n' m' hm'
  · intro n' m' hm' p h1 h2
    simp only [upd] at hm'
    split at hm'
    · cases hm'; subst n'; simp [h1, h2]
    · have := h.ownNode n' m' hm' p h1 h2
      have e := ho p
      grind
  · intro p n' d
    rw [hcl, h.ports]
    constructor
    · rintro (⟨rfl, h1⟩ | ⟨m', hm', h1⟩)
      · exact ⟨m, by simp [upd], h1⟩
      · exact ⟨m', by simp [upd, hne n' m' hm', hm'], h1⟩
    · rintro ⟨m', hm', h1⟩
      simp only [upd] at hm'
      split at hm'
      · cases hm'; left; exact ⟨by assumption, h1⟩
      · right; exact ⟨m', hm', h1⟩
  · intro p n' d q hp hq
    rcases (hcl p n' d).1 hp with ⟨rfl, h1, h2⟩ | hp
    · have := m.range_sub d p hb.1 h1 h2
      rw [hlk p this.1 this.2.2] at hq; simp at hq
    · obtain ⟨h1, n'', h2⟩ := h.links p n' d q hp hq
      exact ⟨h1, n'', (hcl q n'' d.reverse).2 (Or.inr h2)⟩
  · intro n' m' hm' p h1 h2
    simp only [upd] at hm'
    split at hm'
    · cases hm'; exact hlk p (by omega) h2
    · exact h.unused n' m' hm' p h1 h2
  · exact h.slab
  · intro s f hf p h1 h2
    have := h.slabOwn s f hf p h1 h2
    have e := ho p
    grind
  · exact h.chain
  · exact h.nodup
  · intro p n' hp
    split at hp
    · next hr =>
      cases hp
      have hr' := inRange_iff.1 hr
      exact ⟨m, by simp [upd], hr'.1, hr'.2⟩
    · obtain ⟨m', hm', h1⟩ := h.nodeOf p n' hp
      exact ⟨m', by simp [upd, hne n' m' hm', hm'], h1⟩
  · intro p f s hp
    split at hp
    · cases hp
    · exact h.slabOf p f s hp
  · intro p hp
    split at hp
    · cases hp
    · exact h.orphan p hp

end

end Verif.PG
