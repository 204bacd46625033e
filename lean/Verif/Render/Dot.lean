import Verif.Render.Lemmas
import Verif.Multi.ViewOk
import Mathlib.Data.List.Forall2

/-!
# The dot renderer
-/

namespace Verif.Render

open Verif (Direction)
open Verif.View Verif.Hier Verif.PG Verif.Multi

variable {E : Type}

/-! ## Offsets -/

theorem offsets_at {g : PG} (hI : PG.Inv g) {p n : Nat} {d : Direction} (h1 : g.portNode p = some n)
    (h2 : g.portDirection p = some d) : ∃ k, (g.portOffset p).join = some (d, k) ∧ (g.ports n d)[k]? = some p := by
  have h3 : (g.port? p).isSome := by
    unfold PG.portNode at h1
    cases e : g.port? p with
    | none => rw [e] at h1; cases h1
    | some x => rfl
  obtain ⟨⟨n', d', k⟩, he⟩ := (live_at hI).1 h3
  rw [At.portNode hI he] at h1
  rw [At.portDirection hI he] at h2
  cases h1
  cases h2
  exact ⟨k, by rw [At.portOffset hI he]; rfl, getElem?_ports.2 he⟩

theorem offsets_pg {g : PG} (hI : PG.Inv g) (cn cp : Nat) : OffsetsOk (ofPG g cn cp) := fun _ _ _ h1 h2 => offsets_at hI h1 h2
theorem offsets_mg {m : MG} (h : MOk m) (cn cp : Nat) : OffsetsOk (ofMG m cn cp) := fun _ _ _ h1 h2 => offsets_at h.inv h1 h2
theorem offsets_filtered {G : GView E} (h : OffsetsOk G) (nf lf : Nat → Bool) : OffsetsOk (G.filtered nf lf) := h
theorem offsets_restrict {G : GView E} (h : OffsetsOk G) (i : Nat → Bool) (ns : List Nat) (c : Nat) (b : Bool) :
    OffsetsOk (G.restrict i ns c b) := h

/-! ## The lists -/

theorem shownPorts_ok (G : GView E) (portHidden : Nat → Bool) (n : Nat) (d : Direction) :
    ShowsPorts G portHidden n d (shownPorts G portHidden n d) := by
  unfold shownPorts ShowsPorts
  generalize G.ports n d = l at *
  constructor
  · rw [List.pairwise_map]
    refine List.Pairwise.filter _ ?_
    have : (l.zipIdx.map (·.2)).Pairwise (· < ·) := by
      rw [List.zipIdx_map_snd, List.range'_eq_map_range]
      simpa using List.pairwise_lt_range
    exact List.pairwise_map.1 this
  · intro k
    simp only [List.mem_map, List.mem_filter, Prod.exists, List.mem_zipIdx_iff_getElem?, Bool.not_eq_true']
    constructor
    · rintro ⟨p, i, ⟨h1, h2⟩, rfl⟩
      exact ⟨p, h1, h2⟩
    · rintro ⟨p, h1, h2⟩
      exact ⟨p, k, ⟨h1, h2⟩, rfl⟩

variable {G : GView E} {nodeHidden portHidden : Nat → Bool}

theorem mapM_forall {α β : Type} {f : α → Option β} {R : α → β → Prop} :
    ∀ l : List α, (∀ a ∈ l, ∃ b, f a = some b ∧ R a b) → ∃ r, l.mapM f = some r ∧ List.Forall₂ R l r := by
  intro l
  induction l with
  | nil => exact fun _ => ⟨[], rfl, .nil⟩
  | cons a l ih =>
    intro h
    obtain ⟨b, h1, h2⟩ := h a (by simp)
    obtain ⟨r, h3, h4⟩ := ih fun a ha => h a (List.mem_cons_of_mem _ ha)
    exact ⟨b :: r, by simp [List.mapM_cons, h1, h3], .cons h2 h4⟩

/-- A statement for an edge. -/
def IsEdge (G : GView E) (l : E × E) (s : DStmt) : Prop := ∃ a i b j, s = .edge a i b j ∧ Names G l ((a, i), (b, j))

theorem edges_ok {ls : List (E × E)} {es : List DStmt} (h : List.Forall₂ (IsEdge G) ls es) :
    List.Forall₂ (Names G) ls (dotEdges es) ∧ dotNodes es = [] ∧ dotTree es = [] ∧ dotTreeEdges es = [] := by
  induction h with
  | nil => exact ⟨.nil, rfl, rfl, rfl⟩
  | cons h _ ih =>
    obtain ⟨a, i, b, j, rfl, h⟩ := h
    exact ⟨.cons h ih.1, ih.2⟩

theorem edgeDot_ok (ok : G.Ok) (off : OffsetsOk G) {n : Nat} {l : E × E} (hl : l ∈ G.links n .outgoing) :
    ∃ s, edgeDot G n l = some s ∧ IsEdge G l s := by
  obtain ⟨h1, h2, h3⟩ := ok.mem_links.1 hl
  obtain ⟨a, d, b, h4, h5, -, h6, h7, -⟩ := ok.shows_dir _ _ h1
  rw [h3] at h5
  cases h5
  obtain ⟨i, h8, h9⟩ := off _ _ _ h2 h3
  obtain ⟨j, h10, h11⟩ := off _ _ _ h6 h7
  have h6 : G.portNode (G.toPort l.2) = some b := h6
  exact ⟨.edge n i b j, by simp [edgeDot, h8, h6, h10], n, i, b, j, rfl, h9, h11⟩

theorem nodesDot_ok (ok : G.Ok) (off : OffsetsOk G) : ∀ ns : List Nat,
    ∃ out, nodesDot G nodeHidden portHidden ns = some out ∧
      dotNodes out = (ns.filter fun n => !nodeHidden n).map (fun n =>
        (n, shownPorts G portHidden n .incoming, shownPorts G portHidden n .outgoing)) ∧
      List.Forall₂ (Names G) ((ns.filter fun n => !nodeHidden n).flatMap fun n => G.links n .outgoing) (dotEdges out) ∧
      dotTree out = [] ∧ dotTreeEdges out = [] := by
  intro ns
  induction ns with
  | nil => exact ⟨[], rfl, rfl, .nil, rfl, rfl⟩
  | cons n ns ih =>
    obtain ⟨out, h1, h2, h3, h4, h5⟩ := ih
    cases hh : nodeHidden n with
    | true =>
      refine ⟨out, by simp [nodesDot, hh, h1], ?_, ?_, h4, h5⟩
      · simpa [hh] using h2
      · simpa [hh] using h3
    | false =>
      obtain ⟨es, h6, h7⟩ := mapM_forall (f := edgeDot G n) (R := IsEdge G) (G.links n .outgoing) fun l hl => edgeDot_ok ok off hl
      obtain ⟨h8, h9, h10, h11⟩ := edges_ok h7
      refine ⟨_, by simp only [nodesDot, hh, ← ok.links_eq, h6, h1]; rfl, ?_, ?_, ?_, ?_⟩
      · show dotNodes (_ :: (es ++ out)) = _
        have : dotNodes (es ++ out) = dotNodes es ++ dotNodes out := List.filterMap_append
        rw [h9, List.nil_append, h2] at this
        simp only [List.filter_cons, hh, Bool.not_false, if_true, List.map_cons]
        rw [← this]
        rfl
      · show List.Forall₂ _ _ (dotEdges (es ++ out))
        have : dotEdges (es ++ out) = dotEdges es ++ dotEdges out := List.filterMap_append
        rw [this]
        simp only [List.filter_cons, hh, Bool.not_false, if_true, List.flatMap_cons]
        exact List.rel_append h8 h3
      · show dotTree (es ++ out) = _
        have : dotTree (es ++ out) = dotTree es ++ dotTree out := List.filterMap_append
        rw [this, h10, h4]; rfl
      · show dotTreeEdges (es ++ out) = _
        have : dotTreeEdges (es ++ out) = dotTreeEdges es ++ dotTreeEdges out := List.filterMap_append
        rw [this, h11, h5]; rfl

theorem hierarchyDot_ok (G : GView E) (h : Hierarchy) : ∀ ns : List Nat,
    let out : List DStmt := ns.flatMap fun n => .hnode n :: ((h.kids n).filter G.containsNode).map (.hedge n ·)
    dotNodes out = [] ∧ dotEdges out = [] ∧ dotTree out = ns ∧
      dotTreeEdges out = ns.flatMap fun n => ((h.kids n).filter G.containsNode).map (n, ·) := by
  intro ns
  have aux : ∀ (n : Nat) (l : List Nat) (out : List DStmt),
      dotNodes (l.map (.hedge n ·) ++ out) = dotNodes out ∧ dotEdges (l.map (.hedge n ·) ++ out) = dotEdges out ∧
      dotTree (l.map (.hedge n ·) ++ out) = dotTree out ∧
      dotTreeEdges (l.map (.hedge n ·) ++ out) = l.map (n, ·) ++ dotTreeEdges out := by
    intro n l out
    induction l with
    | nil => exact ⟨rfl, rfl, rfl, rfl⟩
    | cons c l ih => exact ⟨ih.1, ih.2.1, ih.2.2.1, congrArg ((n, c) :: ·) ih.2.2.2⟩
  induction ns with
  | nil => exact ⟨rfl, rfl, rfl, rfl⟩
  | cons n ns ih =>
    obtain ⟨h1, h2, h3, h4⟩ := ih
    obtain ⟨a1, a2, a3, a4⟩ := aux n ((h.kids n).filter G.containsNode)
      (ns.flatMap fun n => .hnode n :: ((h.kids n).filter G.containsNode).map (.hedge n ·))
    exact ⟨a1.trans h1, a2.trans h2, congrArg (n :: ·) (a3.trans h3), by
      rw [List.flatMap_cons, List.flatMap_cons]; exact a4.trans (congrArg _ h4)⟩

end Verif.Render
