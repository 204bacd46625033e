import Verif.PortGraph.IterModel
import Verif.PortGraph.RefineCompact

/-! Lemmas about the iterators. -/

namespace Verif.PG

open Verif (Direction)

/-- What a double ended sequence answers to a sequence of calls. -/
def listSched {X : Type} : List Bool → List X → List (Option X × Nat)
  | [], _ => []
  | false :: bs, l => (l.head?, l.length - 1) :: listSched bs l.tail
  | true :: bs, l => (l.getLast?, l.length - 1) :: listSched bs l.dropLast

theorem runIter_spec {S X : Type} {next back : S → Option (Option X × S)} {len : S → Nat} (R : S → List X → Prop)
    (hnext : ∀ s l, R s l → ∃ s', next s = some (l.head?, s') ∧ R s' l.tail)
    (hback : ∀ s l, R s l → ∃ s', back s = some (l.getLast?, s') ∧ R s' l.dropLast)
    (hlen : ∀ s l, R s l → len s = l.length) (bs : List Bool) {s l} (h : R s l) :
    runIter next back len bs s = some (listSched bs l) := by
  induction bs generalizing s l with
  | nil => rfl
  | cons b bs ih =>
    cases b with
    | false =>
      obtain ⟨s', h1, h2⟩ := hnext s l h
      have h3 := hlen _ _ h2
      simp only [runIter, Bool.false_eq_true, if_false, h1, ih h2, listSched, h3, List.length_tail]
    | true =>
      obtain ⟨s', h1, h2⟩ := hback s l h
      have h3 := hlen _ _ h2
      simp only [runIter, if_true, h1, ih h2, listSched, h3, List.length_dropLast]

theorem runNext_spec {S X : Type} {next : S → Option (Option X × S)} (R : S → List X → Prop)
    (hnext : ∀ s l, R s l → ∃ s', next s = some (l.head?, s') ∧ R s' l.tail) (k : Nat) {s l} (h : R s l) :
    runNext next k s = some ((List.range k).map fun i => l[i]?) := by
  induction k generalizing s l with
  | zero => rfl
  | succ k ih =>
    obtain ⟨s', h1, h2⟩ := hnext s l h
    simp only [runNext, h1, ih h2]
    rw [List.range_succ_eq_map]
    cases l <;> simp

/-! ### Nodes and ports -/

def liveIdx : Nat × NodeEntry → Option Nat
  | (i, .node _) => some i
  | (_, .free _ _) => none

theorem findNode_eq (l : List (Nat × NodeEntry)) :
    match findNode l with
    | none => l.filterMap liveIdx = []
    | some (i, l') => l.filterMap liveIdx = i :: l'.filterMap liveIdx := by
  induction l with
  | nil => rfl
  | cons x l ih =>
    obtain ⟨i, e⟩ := x
    cases e with
    | node m => simp [findNode, liveIdx]
    | free a b =>
      simp only [findNode]
      rw [List.filterMap_cons_none (by rfl)]
      exact ih

def NodesR (s : Nodes) (l : List Nat) : Prop := s.iter.filterMap liveIdx = l ∧ s.len = l.length

theorem nodes_next (s : Nodes) (l) (h : NodesR s l) : ∃ s', s.next = some (l.head?, s') ∧ NodesR s' l.tail := by
  obtain ⟨h1, h2⟩ := h
  have := findNode_eq s.iter
  unfold Nodes.next
  cases hf : findNode s.iter with
  | none =>
    rw [hf] at this
    simp only at this
    rw [h1] at this; subst this
    exact ⟨_, rfl, rfl, h2⟩
  | some x =>
    obtain ⟨i, l'⟩ := x
    rw [hf] at this
    simp only at this
    rw [h1] at this
    subst this
    simp only
    rw [if_neg (by simp at h2; omega)]
    exact ⟨_, rfl, rfl, by simp at h2 ⊢; omega⟩

theorem nodes_back (s : Nodes) (l) (h : NodesR s l) : ∃ s', s.nextBack = some (l.getLast?, s') ∧ NodesR s' l.dropLast := by
  obtain ⟨h1, h2⟩ := h
  have := findNode_eq s.iter.reverse
  rw [List.filterMap_reverse, h1] at this
  unfold Nodes.nextBack
  by_cases h0 : s.len = 0
  · rw [if_pos h0]
    have : l = [] := by rw [h0] at h2; exact List.eq_nil_of_length_eq_zero h2.symm
    subst this
    exact ⟨_, rfl, h1, h2⟩
  · rw [if_neg h0]
    cases hf : findNode s.iter.reverse with
    | none =>
      rw [hf] at this
      simp at this; subst this; simp at h2; omega
    | some x =>
      obtain ⟨i, l'⟩ := x
      rw [hf] at this
      simp only at this
      have hl : l = (l'.reverse.filterMap liveIdx) ++ [i] := by
        rw [← List.reverse_reverse l, this, List.filterMap_reverse]; simp
      subst hl
      refine ⟨⟨l'.reverse, s.len - 1⟩, by simp, ?_, ?_⟩
      · simp
      · simp at h2 ⊢; omega

theorem filterMap_zip_range {α : Type} (es : List α) (f : α → Bool) (F : Nat × α → Option Nat)
    (hF : ∀ i a, F (i, a) = if f a then some i else none) :
    ((List.range es.length).zip es).filterMap F =
      (List.range es.length).filter fun i => (es[i]?).any f := by
  suffices h : ∀ k, ((List.range' k es.length).zip es).filterMap F =
      (List.range' k es.length).filter fun i => (es[i - k]?).any f by
    have := h 0
    simpa [List.range_eq_range'] using this
  intro k
  induction es generalizing k with
  | nil => rfl
  | cons e es ih =>
    simp only [List.length_cons, List.range'_succ, List.zip_cons_cons, List.filterMap_cons, List.filter_cons, hF]
    rw [ih (k + 1)]
    have hc : (List.range' (k + 1) es.length).filter (fun i => (es[i - (k + 1)]?).any f) =
        (List.range' (k + 1) es.length).filter (fun i => ((e :: es)[i - k]?).any f) := by
      apply List.filter_congr
      intro i hi
      simp only [List.mem_range'_1] at hi
      rw [show i - k = (i - (k + 1)) + 1 by omega, List.getElem?_cons_succ]
    rw [hc]
    cases hfe : f e <;> simp [hfe]

theorem nodesIter_R {g : PG} (h : Inv g) :
    NodesR g.nodesIter ((List.range g.nodeMeta.length).filter g.containsNode) := by
  obtain ⟨fn, hN⟩ := h.nodes
  have e : g.nodesIter.iter.filterMap liveIdx = (List.range g.nodeMeta.length).filter g.containsNode := by
    have := filterMap_zip_range g.nodeMeta NodeEntry.isLive liveIdx (by
      intro i a; cases a <;> simp [liveIdx, NodeEntry.isLive])
    refine this.trans ?_
    apply List.filter_congr
    intro i _
    simp only [PG.containsNode]
    rw [show (g.node? i).isSome = g.live i from rfl, PG.live_any]
  refine ⟨e, ?_⟩
  rw [length_filter_range]
  show g.nodeCount = _
  rw [hN.count']
  apply cnt_congr
  intro i _
  rw [PG.containsNode, PG.node?_isSome]

def portIdx : Nat × PortEntry → Option Nat
  | (i, .port _ _) => some i
  | (_, .free) => none

theorem findPort_eq (l : List (Nat × PortEntry)) :
    match findPort l with
    | none => l.filterMap portIdx = []
    | some (i, l') => l.filterMap portIdx = i :: l'.filterMap portIdx := by
  induction l with
  | nil => rfl
  | cons x l ih =>
    obtain ⟨i, e⟩ := x
    cases e with
    | port n d => simp [findPort, portIdx]
    | free =>
      simp only [findPort]
      rw [List.filterMap_cons_none (by rfl)]
      exact ih

def PortsR (s : Ports) (l : List Nat) : Prop := s.iter.filterMap portIdx = l ∧ s.len = l.length

theorem ports_next (s : Ports) (l) (h : PortsR s l) : ∃ s', s.next = some (l.head?, s') ∧ PortsR s' l.tail := by
  obtain ⟨h1, h2⟩ := h
  have := findPort_eq s.iter
  unfold Ports.next
  cases hf : findPort s.iter with
  | none =>
    rw [hf] at this
    simp only at this
    rw [h1] at this; subst this
    exact ⟨_, rfl, rfl, h2⟩
  | some x =>
    obtain ⟨i, l'⟩ := x
    rw [hf] at this
    simp only at this
    rw [h1] at this
    subst this
    simp only
    rw [if_neg (by simp at h2; omega)]
    exact ⟨_, rfl, rfl, by simp at h2 ⊢; omega⟩

theorem ports_back (s : Ports) (l) (h : PortsR s l) : ∃ s', s.nextBack = some (l.getLast?, s') ∧ PortsR s' l.dropLast := by
  obtain ⟨h1, h2⟩ := h
  have := findPort_eq s.iter.reverse
  rw [List.filterMap_reverse, h1] at this
  unfold Ports.nextBack
  cases hf : findPort s.iter.reverse with
  | none =>
    rw [hf] at this
    simp at this; subst this
    exact ⟨_, rfl, rfl, h2⟩
  | some x =>
    obtain ⟨i, l'⟩ := x
    rw [hf] at this
    simp only at this
    have hl : l = (l'.reverse.filterMap portIdx) ++ [i] := by
      rw [← List.reverse_reverse l, this, List.filterMap_reverse]; simp
    subst hl
    simp only
    rw [if_neg (by simp at h2; omega)]
    refine ⟨⟨l'.reverse, s.len - 1⟩, by simp, ?_, ?_⟩
    · simp
    · simp at h2 ⊢; omega

theorem portsIter_R {g : PG} (h : Inv g) :
    PortsR g.portsIter ((List.range g.portMeta.length).filter g.containsPort) := by
  have e : g.portsIter.iter.filterMap portIdx = (List.range g.portMeta.length).filter g.containsPort := by
    have := filterMap_zip_range g.portMeta PortEntry.isPort portIdx (by
      intro i a; cases a <;> simp [portIdx, PortEntry.isPort])
    refine this.trans ?_
    apply List.filter_congr
    intro i _
    simp only [PG.containsPort, PG.port?]
    cases g.portMeta[i]? with
    | none => rfl
    | some x => cases x <;> rfl
  refine ⟨e, ?_⟩
  rw [length_filter_range]
  show g.portCount = _
  rw [h.portCount]
  apply cnt_congr
  intro i _
  rfl

/-! ### Offsets -/

def OffsetsR (s : Offsets) (l : List (Direction × Nat)) : Prop :=
  l = (List.range' s.inStart s.inLen).map (Direction.incoming, ·) ++
      (List.range' s.outStart s.outLen).map (Direction.outgoing, ·)

theorem offsets_next (s : Offsets) (l) (h : OffsetsR s l) :
    ∃ s', s.next = some (l.head?, s') ∧ OffsetsR s' l.tail := by
  obtain ⟨a, i, b, o⟩ := s
  unfold OffsetsR at h; subst h
  simp only at *
  unfold Offsets.next
  simp only
  cases i with
  | zero =>
    cases o with
    | zero => exact ⟨_, rfl, by simp [OffsetsR]⟩
    | succ o =>
      rw [if_neg (by omega), if_pos (by omega)]
      refine ⟨⟨a, 0, b + 1, o⟩, by simp [List.range'_succ], ?_⟩
      unfold OffsetsR; simp [List.range'_succ]
  | succ i =>
    rw [if_pos (by omega)]
    refine ⟨⟨a + 1, i, b, o⟩, by simp [List.range'_succ], ?_⟩
    unfold OffsetsR; simp [List.range'_succ]

theorem offsets_back (s : Offsets) (l) (h : OffsetsR s l) :
    ∃ s', s.nextBack = some (l.getLast?, s') ∧ OffsetsR s' l.dropLast := by
  obtain ⟨a, i, b, o⟩ := s
  unfold OffsetsR at h; subst h
  simp only at *
  unfold Offsets.nextBack
  simp only
  cases o with
  | zero =>
    cases i with
    | zero => exact ⟨_, rfl, by simp [OffsetsR]⟩
    | succ i =>
      rw [if_neg (by omega), if_pos (by omega)]
      refine ⟨⟨a, i, b, 0⟩, by simp [List.range'_concat], ?_⟩
      unfold OffsetsR; simp [List.range'_concat]
  | succ o =>
    rw [if_pos (by omega)]
    refine ⟨⟨a, i, b, o⟩, by simp [List.range'_concat, ← List.append_assoc], ?_⟩
    unfold OffsetsR; simp [List.range'_concat, ← List.append_assoc]

theorem offsets_len (s : Offsets) (l) (h : OffsetsR s l) : s.len = l.length := by
  unfold OffsetsR at h; subst h
  simp [Offsets.len]

/-! ### Links -/

def linkPair (lo hi : Nat) : Nat × Option Nat → Option (Nat × Nat)
  | (_, none) => none
  | (p, some q) => if lo ≤ q ∧ q < hi then none else some (p, q)

theorem nextLink_eq (lo hi : Nat) (l : List (Nat × Option Nat)) :
    match nextLink lo hi l with
    | none => l.filterMap (linkPair lo hi) = []
    | some (x, l') => l.filterMap (linkPair lo hi) = x :: l'.filterMap (linkPair lo hi) := by
  induction l with
  | nil => rfl
  | cons x l ih =>
    obtain ⟨p, o⟩ := x
    cases o with
    | none =>
      simp only [nextLink]
      rw [List.filterMap_cons_none (by rfl)]
      exact ih
    | some q =>
      by_cases hc : lo ≤ q ∧ q < hi
      · simp only [nextLink, if_pos hc]
        rw [List.filterMap_cons_none (by simp only [linkPair, if_pos hc])]
        exact ih
      · simp only [nextLink, if_neg hc]
        rw [List.filterMap_cons_some (b := (p, q)) (by simp only [linkPair, if_neg hc])]

def LinksR (s : NodeLinks) (l : List (Nat × Nat)) : Prop := s.links.filterMap (linkPair s.lo s.hi) = l

theorem links_next (s : NodeLinks) (l) (h : LinksR s l) : ∃ s', s.next = (l.head?, s') ∧ LinksR s' l.tail := by
  unfold LinksR at h
  have := nextLink_eq s.lo s.hi s.links
  unfold NodeLinks.next
  cases hf : nextLink s.lo s.hi s.links with
  | none =>
    rw [hf] at this
    simp only at this
    rw [h] at this; subst this
    exact ⟨_, rfl, rfl⟩
  | some x =>
    rw [hf] at this
    simp only at this
    rw [h] at this
    subst this
    exact ⟨_, rfl, rfl⟩

theorem neighbour_next {g : PG} {s : NodeLinks} {l : List Nat}
    (h : ∃ l', LinksR s l' ∧ l'.mapM (fun x => g.portNode x.2) = some l) :
    ∃ s', g.neighbourNext s = some (l.head?, s') ∧
      ∃ l', LinksR s' l' ∧ l'.mapM (fun x => g.portNode x.2) = some l.tail := by
  obtain ⟨l', h1, h2⟩ := h
  obtain ⟨s', h3, h4⟩ := links_next s l' h1
  unfold PG.neighbourNext
  rw [h3]
  cases l' with
  | nil =>
    simp at h2; subst h2
    exact ⟨s', rfl, [], h4, rfl⟩
  | cons x l' =>
    obtain ⟨p, q⟩ := x
    simp only [List.mapM_cons] at h2
    cases hq : g.portNode q with
    | none => simp [hq] at h2
    | some n =>
      cases hl : List.mapM (fun x => g.portNode x.2) l' with
      | none => simp [hq, hl] at h2
      | some l'' =>
        simp [hq, hl] at h2; subst h2
        simp only [List.head?_cons, hq]
        exact ⟨s', rfl, l', h4, hl⟩

theorem conn_next {g : PG} {t fuel : Nat} {s : NodeLinks} {l} (h : LinksR s l) (hf : l.length < fuel) :
    ∃ s' l', g.connNext t fuel s = ((l.filter fun x => decide (g.portNode x.2 = some t)).head?, s') ∧ LinksR s' l' ∧
      l'.filter (fun x => decide (g.portNode x.2 = some t)) = (l.filter fun x => decide (g.portNode x.2 = some t)).tail ∧
      l'.length ≤ l.length := by
  induction fuel generalizing s l with
  | zero => omega
  | succ fuel ih =>
    obtain ⟨s', h3, h4⟩ := links_next s l h
    unfold PG.connNext
    rw [h3]
    cases l with
    | nil => exact ⟨s', [], rfl, h4, rfl, by simp⟩
    | cons x l =>
      obtain ⟨p, q⟩ := x
      simp only [List.head?_cons]
      by_cases hq : g.portNode q = some t
      · rw [if_pos hq]
        refine ⟨s', l, ?_, h4, ?_, by simp⟩ <;> simp [hq]
      · rw [if_neg hq]
        obtain ⟨s2, l2, a, b, c, d⟩ := ih h4 (by simp at hf ⊢; omega)
        refine ⟨s2, l2, ?_, b, ?_, by simp at d ⊢; omega⟩
        · rw [a]; simp [hq]
        · rw [c]; simp [hq]

end Verif.PG
