import Verif.ViewAlgo.Spec
import Verif.Boundary.Lemmas
import Verif.Algo.PostLemmas

/-!
# The traversals on a view whose queries also answer about other nodes
-/

namespace Verif.View

open Verif (Direction)
open Verif.Algo

variable {E : Type} {G : GView E}

theorem varc_inD (ok : G.Ok) {d : Direction} {m n : Nat} : VArc G.algoIn d m n ↔ G.ArcD d m n := by
  constructor
  · rintro ⟨p, hp, q, hq, hn⟩
    obtain ⟨e, f, h1, h2, h3⟩ := (mem_algoLinks ok).1 hq
    subst h2 h3
    have a := (ok.mem_ports _ _ _).1 (mem_portsIn.1 hp).2
    have b := (ok.mem_ports _ _ _).1 (mem_portsIn.1 hn).2
    exact ⟨e, f, h1, a.1, b.1, a.2⟩
  · rintro ⟨e, f, h1, h2, h3, h4⟩
    obtain ⟨n', d', m', g1, g2, g3, g4, g5, g6⟩ := ok.shows_dir e f h1
    unfold GView.On at h2 h3 g1 g4
    rw [h2] at g1; cases g1
    rw [h3] at g4; cases g4
    rw [h4] at g2; cases g2
    exact ⟨G.toPort e, mem_portsIn.2 ⟨g3, (ok.mem_ports _ _ _).2 ⟨h2, h4⟩⟩, G.toPort f,
      (mem_algoLinks ok).2 ⟨e, f, h1, rfl, rfl⟩, mem_portsIn.2 ⟨g6, (ok.mem_ports _ _ _).2 ⟨h3, g5⟩⟩⟩

theorem varc_eq (ok : G.Ok) (d : Direction) : VArc G.algoIn d = G.ArcD d := by
  funext m n; exact propext (varc_inD ok)

theorem arcD_nodes (ok : G.Ok) {d : Direction} {m n : Nat} (h : G.ArcD d m n) :
    G.containsNode m = true ∧ G.containsNode n = true := by
  obtain ⟨e, f, h1, h2, h3, h4⟩ := h
  obtain ⟨n', d', m', g1, g2, g3, g4, g5, g6⟩ := ok.shows_dir e f h1
  unfold GView.On at h2 h3 g1 g4
  rw [h2] at g1; cases g1
  rw [h3] at g4; cases g4
  exact ⟨g3, g6⟩

theorem arcD_reverse (ok : G.Ok) {d : Direction} {m n : Nat} : G.ArcD d m n ↔ G.ArcD d.reverse n m := by
  have key : ∀ {d m n}, G.ArcD d m n → G.ArcD d.reverse n m := by
    rintro d m n ⟨e, f, h1, h2, h3, h4⟩
    obtain ⟨n', d', m', g1, g2, g3, g4, g5, g6⟩ := ok.shows_dir e f h1
    rw [h4] at g2; cases g2
    exact ⟨f, e, ok.shows_sym _ _ h1, h3, h2, g5⟩
  refine ⟨key, fun h => ?_⟩
  have := key h
  cases d <;> exact this

/-! ## Topological sort -/

theorem next_in' (ok : G.Ok) {F : Filter} {d : Direction} {s : Topo} (hc : ∀ n ∈ s.cand, G.containsNode n = true)
    {o : Option Nat} {s' : Topo} (h : Topo.next G.algo F d s = some (o, s')) : ∀ n ∈ s'.cand, G.containsNode n = true := by
  unfold Topo.next at h
  split at h
  · cases h; exact hc
  · next n cand hcand =>
    rw [hcand] at hc
    have := (portLoop_in ok (F := F) (d := d) (x := n) (G.ports n d) (s := { s with cand := cand })
      (fun m hm => hc m (by simp [hm]))).2
    split at h
    · cases h
    · next s1 hs1 => cases h; exact this s1 hs1

theorem collect_in (ok : G.Ok) {F : Filter} {d : Direction} (fuel : Nat) : ∀ {s : Topo},
    (∀ n ∈ s.cand, G.containsNode n = true) →
    Topo.collect G.algo F d fuel s = Topo.collect G.algoIn F d fuel s := by
  induction fuel with
  | zero => intro s _; rfl
  | succ fuel ih =>
    intro s hc
    have h2 := fun o s' => next_in' ok (F := F) (d := d) hc (o := o) (s' := s')
    simp only [Topo.collect]
    rw [next_in ok hc] at h2 ⊢
    cases h : Topo.next G.algoIn F d s with
    | none => rfl
    | some x =>
      obtain ⟨o, s'⟩ := x
      cases o with
      | none => rfl
      | some n => simp only [ih (h2 _ _ h)]

theorem new_inD {F : Filter} {d : Direction} (dflt : Bool) {S : List Nat} (hc : ∀ n ∈ S, G.containsNode n = true) :
    Topo.new G.algo F d dflt S = Topo.new G.algoIn F d dflt S := by
  have key : ∀ (l : List Nat) (v : Nat → Bool), (∀ n ∈ l, G.containsNode n = true) →
      l.foldl (fun v n => Topo.setAll v (G.algo.ports n d.reverse) true) v =
      l.foldl (fun v n => Topo.setAll v (G.algoIn.ports n d.reverse) true) v := by
    intro l
    induction l with
    | nil => intro v _; rfl
    | cons n l ih =>
      intro v h
      rw [List.foldl_cons, List.foldl_cons, portsIn_eq (h n (by simp))]
      exact ih _ fun m hm => h m (by simp [hm])
  simp only [Topo.new]
  rw [key _ _ fun n hn => hc n (List.mem_filter.1 hn).1]
  rfl

theorem toposort_in (ok : G.Ok) {F : Filter} {d : Direction} (dflt : Bool) {S : List Nat}
    (hc : ∀ n ∈ S, G.containsNode n = true) : toposort G.algo F d dflt S = toposort G.algoIn F d dflt S := by
  unfold toposort
  rw [new_inD dflt hc]
  exact collect_in ok _ (fun n hn => hc n (List.mem_filter.1 hn).1)

/-! ## Post-order -/

theorem firstArc_succs (ok : G.Ok) {F : Filter} {d : Direction} (n m : Nat) :
    G.FirstArc F d n m ↔ m ∈ Post.succs G.algo F d n := by
  simp only [Post.succs, List.mem_filterMap, GView.FirstArc]
  apply exists_congr
  intro p
  apply and_congr Iff.rfl
  have hh : (G.algo.links p).head? = (G.portLinks p).head?.map fun l => G.toPort l.2 := List.head?_map
  unfold Post.target
  rw [hh]
  cases (G.portLinks p).head? with
  | none => simp
  | some l =>
    obtain ⟨e, f⟩ := l
    simp only [Option.some.injEq, Prod.mk.injEq, Option.map_some, GView.On]
    constructor
    · rintro ⟨e', f', ⟨rfl, rfl⟩, h1, h2, h3, h4⟩
      have h1' : G.algo.portNode (G.toPort f) = some m := h1
      simp [h1', h2, h3, h4]
    · intro h
      split at h
      · next hp =>
        split at h
        · cases h
        · next m' hm' =>
          split at h
          · next hf =>
            cases h
            simp only [Bool.and_eq_true] at hf
            exact ⟨e, f, ⟨rfl, rfl⟩, hm', hp, hf.1, hf.2⟩
          · cases h
      · cases h

theorem view_hport (ok : G.Ok) {cap : Nat} (hcap : ∀ n, G.containsNode n = true → n < cap) (p q : Nat)
    (h : (G.algo.links p).head? = some q) : ∃ m, G.algo.portNode q = some m ∧ m < cap := by
  have hq : q ∈ G.algo.links p := List.mem_of_mem_head? h
  obtain ⟨e, f, h1, h2, h3⟩ := (mem_algoLinks ok).1 hq
  obtain ⟨n', d', m', g1, g2, g3, g4, g5, g6⟩ := ok.shows_dir e f h1
  subst h3
  exact ⟨m', g4, hcap m' g6⟩

theorem single_head (ok : G.Ok) (hs : G.Single) {p : Nat} {e f : E} :
    (G.portLinks p).head? = some (e, f) ↔ G.toPort e = p ∧ G.Shows e f := by
  have := hs p
  constructor
  · intro h
    have hm := List.mem_of_mem_head? h
    have := ok.from_port _ _ _ hm
    exact ⟨this, by unfold GView.Shows; rw [this]; exact hm⟩
  · rintro ⟨rfl, h⟩
    unfold GView.Shows at h
    match hl : G.portLinks (G.toPort e) with
    | [] => rw [hl] at h; cases h
    | [x] => rw [hl] at h; simp at h; simp [h]
    | _ :: _ :: _ => rw [hl] at this; simp at this

theorem firstArc_single (ok : G.Ok) (hs : G.Single) {F : Filter} {d : Direction} {n m : Nat} :
    G.FirstArc F d n m ↔ G.FArc F d n m := by
  unfold GView.FirstArc GView.FArc
  constructor
  · rintro ⟨p, hp, e, f, h1, h2, h3, h4, h5⟩
    obtain ⟨rfl, h6⟩ := (single_head ok hs).1 h1
    obtain ⟨h7, h8⟩ := (ok.mem_ports _ _ _).1 hp
    exact ⟨e, f, h6, h7, h2, h8, h3, h4, h5⟩
  · rintro ⟨e, f, h1, h2, h3, h4, h5, h6, h7⟩
    exact ⟨_, (ok.mem_ports _ _ _).2 ⟨h2, h4⟩, e, f, (single_head ok hs).2 ⟨rfl, h1⟩, h3, h5, h6, h7⟩

theorem farc_all {d : Direction} {n m : Nat} : G.FArc .all d n m ↔ G.ArcD d n m := by
  simp [GView.FArc, GView.ArcD, Filter.all]

theorem farc_reverse (ok : G.Ok) {F : Filter} {d : Direction} {n m : Nat} (hn : F.node n = true) (h : G.FArc F d n m) :
    G.FArc F d.reverse m n := by
  obtain ⟨e, f, h1, h2, h3, h4, h5, h6, h7⟩ := h
  obtain ⟨n', d', m', g1, g2, g3, g4, g5, g6⟩ := ok.shows_dir e f h1
  rw [h4] at g2; cases g2
  exact ⟨f, e, ok.shows_sym _ _ h1, h3, h2, g5, h7, hn, h5⟩

end Verif.View
