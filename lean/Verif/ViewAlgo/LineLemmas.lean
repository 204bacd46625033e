import Verif.ViewAlgo.Props
import Verif.Convex.LineProps
import Verif.Convex.LineNodes

/-!
# The line partition of a view
-/

namespace Verif.View

open Verif (Direction)
open Verif.Algo Verif.Convex

variable {E : Type} {G : GView E}

theorem count_links (p q : Nat) : (G.algoIn.links p).count q = ((G.portLinks p).filter fun l => G.toPort l.2 == q).length := by
  show ((G.portLinks p).map _).count q = _
  induction G.portLinks p with
  | nil => rfl
  | cons a l ih =>
    rw [List.map_cons, List.count_cons, List.filter_cons, ih]
    split
    · rw [List.length_cons]
    · rfl

theorem countSym (ok : G.Ok) : CountSym G.algoIn := by
  intro p q
  rw [count_links, count_links]
  rw [← List.length_map (f := Prod.swap) (as := (G.portLinks p).filter fun l => G.toPort l.2 == q)]
  apply List.Perm.length_eq
  rw [List.perm_ext_iff_of_nodup]
  · rintro ⟨e, f⟩
    simp only [List.mem_map, List.mem_filter, beq_iff_eq, Prod.exists, Prod.swap_prod_mk, Prod.mk.injEq]
    constructor
    · rintro ⟨a, b, ⟨h1, h2⟩, rfl, rfl⟩
      have h3 := ok.from_port _ _ _ h1
      subst h3
      have h4 := ok.shows_sym _ _ h1
      unfold GView.Shows at h4
      rw [h2] at h4
      exact ⟨h4, rfl⟩
    · rintro ⟨h1, h2⟩
      have h3 := ok.from_port _ _ _ h1
      subst h3
      have h4 := ok.shows_sym _ _ h1
      unfold GView.Shows at h4
      rw [h2] at h4
      exact ⟨f, e, ⟨h4, rfl⟩, rfl, rfl⟩
  · exact List.Nodup.map Prod.swap_injective ((ok.links_nodup p).filter _)
  · exact (ok.links_nodup q).filter _

theorem extend_in {n : Nat} (h : G.containsNode n = true) (e : Line.Ends) : Line.extend G.algo e n = Line.extend G.algoIn e n := by
  unfold Line.extend
  rw [portsIn_eq h, portsIn_eq h]
  rfl

theorem build_in (gr gr' : Algo.View) {order : List Nat} (h : ∀ n ∈ order, G.containsNode n = true) :
    ∀ (e : Line.Ends) (np : Nat → LinePos) (ls : List (List Nat)),
    Line.build G.algo order e ⟨gr, np, ls⟩ = (Line.build G.algoIn order e ⟨gr', np, ls⟩).map fun c => { c with graph := gr } := by
  induction order with
  | nil => intro e np ls; rfl
  | cons n order ih =>
    intro e np ls
    simp only [Line.build]
    rw [extend_in (h n (by simp))]
    cases Line.extend G.algoIn e n with
    | none => rfl
    | some x => exact ih (fun m hm => h m (by simp [hm])) _ _ _

theorem line_view (ok : G.Ok) (hs : G.SingleIn .outgoing) (hac : Acyclic (G.ArcD .outgoing)) :
    ∃ c, Line.new G.algo = some c ∧ c.graph = G.algo ∧ Line.Part c (G.ArcD .outgoing) (fun n => G.containsNode n = true) ∧
      Line.Wired G.algoIn c := by
  obtain ⟨l, s, h1, h2, h3, h4, -⟩ := C53_toposort_acyclic_partial ok hs false
    (S := G.nodes.filter fun n => (neighbours G.algo n .incoming).isEmpty) (ok.nodes_nodup.filter _) hac (by
      intro n
      rw [List.mem_filter, ok.mem_nodes]
      refine and_congr_right fun hn => ?_
      rw [List.isEmpty_iff, List.eq_nil_iff_forall_not_mem]
      refine forall_congr' fun m => ?_
      rw [neighbours_in hn, mem_neighbours (algoIn_wf ok), varc_inD ok, arcD_reverse ok]; rfl)
  obtain ⟨c, h5, h6, h7, h8⟩ := Line.build_part (algoIn_wf ok) (countSym ok) h2 (fun n => (h3 n).trans (ok.mem_nodes n).symm)
    (fun m n h => h4 m n ((varc_inD ok).1 h))
  rw [varc_eq ok] at h7
  refine ⟨{ c with graph := G.algo }, ?_, rfl, ?_, ?_⟩
  · unfold Line.new
    show (match toposort G.algo .all .outgoing false (G.nodes.filter fun n => (neighbours G.algo n .incoming).isEmpty) with
      | none => none
      | some (order, _) => _) = _
    rw [h1]
    simp only
    rw [build_in G.algo G.algoIn (fun n hn => (h3 n).1 hn), h5]
    rfl
  · refine ⟨h7.chain, h7.mem, h7.valid, h7.fwd, h7.arc, fun n hn => h7.some_line n ((ok.mem_nodes n).2 hn), h7.nodup,
      fun a b hab => arcD_nodes ok hab, ok.mem_nodes, ?_⟩
    intro a ha b
    show b ∈ neighbours G.algo a .outgoing ↔ _
    rw [neighbours_in ha, mem_neighbours (algoIn_wf ok), varc_inD ok]
  · exact ⟨h8.prev, h8.ne, h8.live, h8.lenEq, h8.tight, h8.total, h8.len, h8.out, h8.inc⟩

theorem line_of_new (ok : G.Ok) (hs : G.SingleIn .outgoing) (hac : Acyclic (G.ArcD .outgoing)) {c : Line}
    (hc : Line.new G.algo = some c) :
    c.graph = G.algo ∧ Line.Part c (G.ArcD .outgoing) (fun n => G.containsNode n = true) ∧ Line.Wired G.algoIn c := by
  obtain ⟨c', h1, h2⟩ := line_view ok hs hac
  rw [hc] at h1
  simp only [Option.some.injEq] at h1
  subst h1
  exact h2

end Verif.View
