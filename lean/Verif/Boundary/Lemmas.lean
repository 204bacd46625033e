import Verif.Boundary.Spec
import Verif.View.Inner
import Verif.View.Lemmas
import Verif.Algo.TopoRun

/-!
# The traversal on a view whose queries also answer about other nodes
-/

namespace Verif.View

open Verif (Direction)
open Verif.Algo

variable {E : Type} {G : GView E}

/-- The queries of a view with the answers about nodes outside cut off. -/
def GView.algoIn (G : GView E) : Algo.View :=
  { G.algo with ports := fun n d => if G.containsNode n then G.ports n d else [] }

theorem mem_portsIn {n p : Nat} {d : Direction} : p ∈ G.algoIn.ports n d ↔ G.containsNode n = true ∧ p ∈ G.ports n d := by
  show p ∈ (if G.containsNode n then G.ports n d else []) ↔ _
  split <;> simp_all

theorem mem_algoLinks (ok : G.Ok) {p q : Nat} : q ∈ G.algo.links p ↔ ∃ e f, G.Shows e f ∧ G.toPort e = p ∧ G.toPort f = q := by
  show q ∈ (G.portLinks p).map _ ↔ _
  rw [List.mem_map]
  constructor
  · rintro ⟨⟨e, f⟩, h1, h2⟩
    have := ok.from_port _ _ _ h1
    exact ⟨e, f, by unfold GView.Shows; rw [this]; exact h1, this, h2⟩
  · rintro ⟨e, f, h1, rfl, h3⟩
    exact ⟨(e, f), h1, h3⟩

theorem algoIn_wf (ok : G.Ok) : G.algoIn.WF where
  nodes_nodup := ok.nodes_nodup
  ports_nodup n d := by
    show (if G.containsNode n then G.ports n d else []).Nodup
    split
    · exact ok.ports_nodup n d
    · simp
  ports_node n d p h := by
    obtain ⟨h1, h2⟩ := mem_portsIn.1 h
    have h3 := (ok.mem_ports _ _ _).1 h2
    exact ⟨h3.1, (ok.mem_nodes n).2 h1, (ok.mem_iter p).2 ((ok.port_iff p).2 ⟨n, h3.1, h1⟩)⟩
  ports_dir n d m d' p h h' := by
    have h1 := (ok.mem_ports _ _ _).1 (mem_portsIn.1 h).2
    have h2 := (ok.mem_ports _ _ _).1 (mem_portsIn.1 h').2
    have := h1.2.symm.trans h2.2
    simpa using this
  iter_port p h := by
    obtain ⟨n, h1, h2⟩ := (ok.port_iff p).1 ((ok.mem_iter p).1 h)
    obtain ⟨d, h3⟩ := ok.port_dir p n h1
    exact ⟨n, d, mem_portsIn.2 ⟨h2, (ok.mem_ports _ _ _).2 ⟨h1, h3⟩⟩⟩
  link_sym p q h := by
    obtain ⟨e, f, h1, h2, h3⟩ := (mem_algoLinks ok).1 h
    exact (mem_algoLinks ok).2 ⟨f, e, ok.shows_sym _ _ h1, h3, h2⟩
  link_dir n d p q h h' := by
    obtain ⟨e, f, h1, h2, h3⟩ := (mem_algoLinks ok).1 h'
    obtain ⟨n', d', m, g1, g2, g3, g4, g5, g6⟩ := ok.shows_dir e f h1
    subst h2 h3
    have h4 := (ok.mem_ports _ _ _).1 (mem_portsIn.1 h).2
    rw [g2] at h4
    have : d' = d := by simpa using h4.2
    subst this
    exact ⟨m, mem_portsIn.2 ⟨g6, (ok.mem_ports _ _ _).2 ⟨g4, g5⟩⟩⟩

theorem GView.Single.to (d : Direction) (h : G.Single) : G.SingleIn d := fun _ _ p _ => h p

theorem algoIn_singleIn {d : Direction} (hs : G.SingleIn d) : G.algoIn.SingleIn d := by
  intro n p hp
  show ((G.portLinks p).map _).length ≤ 1
  rw [List.length_map]
  obtain ⟨h1, h2⟩ := mem_portsIn.1 hp
  exact hs n h1 p h2

theorem algoIn_single (hs : G.Single) : G.algoIn.Single := by
  intro p
  show ((G.portLinks p).map _).length ≤ 1
  rw [List.length_map]; exact hs p

theorem varc_in (ok : G.Ok) {m n : Nat} : VArc G.algoIn .outgoing m n ↔ G.Arc m n := by
  constructor
  · rintro ⟨p, hp, q, hq, hn⟩
    obtain ⟨e, f, h1, h2, h3⟩ := (mem_algoLinks ok).1 hq
    subst h2 h3
    have a := (ok.mem_ports _ _ _).1 (mem_portsIn.1 hp).2
    have b := (ok.mem_ports _ _ _).1 (mem_portsIn.1 hn).2
    exact ⟨e, f, h1, a.1, b.1, a.2⟩
  · rintro ⟨e, f, h1, h2, h3, h4⟩
    obtain ⟨n', d', m', g1, g2, g3, g4, g5, g6⟩ := ok.shows_dir e f h1
    unfold GView.On at h2 h3 g1 g4
    rw [h2] at g1; cases g1
    rw [h3] at g4; cases g4
    rw [h4] at g2; cases g2
    exact ⟨G.toPort e, mem_portsIn.2 ⟨g3, (ok.mem_ports _ _ _).2 ⟨h2, h4⟩⟩, G.toPort f,
      (mem_algoLinks ok).2 ⟨e, f, h1, rfl, rfl⟩, mem_portsIn.2 ⟨g6, (ok.mem_ports _ _ _).2 ⟨h3, g5⟩⟩⟩

theorem arc_nodes (ok : G.Ok) {m n : Nat} (h : G.Arc m n) : G.containsNode m = true ∧ G.containsNode n = true := by
  obtain ⟨e, f, h1, h2, h3, h4⟩ := h
  obtain ⟨n', d', m', g1, g2, g3, g4, g5, g6⟩ := ok.shows_dir e f h1
  unfold GView.On at h2 h3 g1 g4
  rw [h2] at g1; cases g1
  rw [h3] at g4; cases g4
  exact ⟨g3, g6⟩

/-! The traversal starting at contained nodes does not notice the difference. -/

theorem portsIn_eq {n : Nat} (h : G.containsNode n = true) (d : Direction) : G.algoIn.ports n d = G.algo.ports n d := by
  show (if G.containsNode n then G.ports n d else []) = G.ports n d
  rw [if_pos h]

theorem becomesReady_in (F : Filter) (d : Direction) (v : Nat → Bool) {n : Nat} (q : Nat) (h : G.containsNode n = true) :
    Topo.becomesReady G.algo F d v n q = Topo.becomesReady G.algoIn F d v n q := by
  unfold Topo.becomesReady
  rw [portsIn_eq h]
  have key : ∀ ps v, Topo.readyLoop G.algo F n q ps v = Topo.readyLoop G.algoIn F n q ps v := by
    intro ps
    induction ps with
    | nil => intro v; rfl
    | cons p ps ih =>
      intro v
      simp only [Topo.readyLoop, ih]
      rfl
  rw [key]

theorem linkLoop_in (ok : G.Ok) {F : Filter} {d : Direction} {p : Nat} (qs : List Nat) : ∀ {s : Topo},
    (∀ q ∈ qs, q ∈ G.algo.links p) → (∀ n ∈ s.cand, G.containsNode n = true) →
    Topo.linkLoop G.algo F d s qs = Topo.linkLoop G.algoIn F d s qs ∧
    ∀ s', Topo.linkLoop G.algo F d s qs = some s' → ∀ n ∈ s'.cand, G.containsNode n = true := by
  induction qs with
  | nil => intro s _ hc; exact ⟨rfl, fun s' h => by cases h; exact hc⟩
  | cons q qs ih =>
    intro s hq hc
    simp only [Topo.linkLoop]
    obtain ⟨e, f, h1, h2, h3⟩ := (mem_algoLinks ok).1 (hq q (by simp))
    obtain ⟨n', d', m, g1, g2, g3, g4, g5, g6⟩ := ok.shows_dir e f h1
    subst h3
    change G.algo.portNode (G.toPort f) = some m at g4
    have g4' : G.algoIn.portNode (G.toPort f) = some m := g4
    simp only [g4, g4']
    rw [becomesReady_in F d _ _ g6]
    apply ih (fun q hq' => hq q (by simp [hq']))
    intro n hn
    dsimp only at hn
    split at hn
    · rcases List.mem_append.1 hn with hn | hn
      · exact hc n hn
      · simp at hn; subst hn; exact g6
    · exact hc n hn

theorem portLoop_in (ok : G.Ok) {F : Filter} {d : Direction} {x : Nat} (ps : List Nat) : ∀ {s : Topo},
    (∀ n ∈ s.cand, G.containsNode n = true) →
    Topo.portLoop G.algo F d x s ps = Topo.portLoop G.algoIn F d x s ps ∧
    ∀ s', Topo.portLoop G.algo F d x s ps = some s' → ∀ n ∈ s'.cand, G.containsNode n = true := by
  induction ps with
  | nil => intro s hc; exact ⟨rfl, fun s' h => by cases h; exact hc⟩
  | cons p ps ih =>
    intro s hc
    simp only [Topo.portLoop]
    split
    · exact ih (s := { s with visited := setBit s.visited p true }) hc
    · obtain ⟨h1, h2⟩ := linkLoop_in ok (F := F) (d := d) (p := p) (G.algo.links p)
        (s := { s with visited := setBit s.visited p true }) (fun q hq => hq) hc
      rw [h1] at h2 ⊢
      have h3 : G.algo.links p = G.algoIn.links p := rfl
      rw [h3] at h2 ⊢
      cases h4 : Topo.linkLoop G.algoIn F d { s with visited := setBit s.visited p true } (G.algoIn.links p) with
      | none => exact ⟨rfl, fun s' h => by cases h⟩
      | some s1 => exact ih (h2 s1 h4)

theorem next_in (ok : G.Ok) {F : Filter} {d : Direction} {s : Topo} (hc : ∀ n ∈ s.cand, G.containsNode n = true) :
    Topo.next G.algo F d s = Topo.next G.algoIn F d s := by
  unfold Topo.next
  cases h : s.cand with
  | nil => rfl
  | cons n cand =>
    rw [h] at hc
    have := (portLoop_in ok (F := F) (d := d) (x := n) (G.ports n d) (s := { s with cand := cand })
      (fun m hm => hc m (by simp [hm]))).1
    simp only
    rw [portsIn_eq (hc n (by simp))]
    change Topo.portLoop G.algo F d n _ (G.algo.ports n d) = _ at this
    rw [this]
    rfl

theorem new_in {F : Filter} {d : Direction} {S : List Nat} (hc : ∀ n ∈ S, G.containsNode n = true) :
    Topo.new G.algo F d false S = Topo.new G.algoIn F d false S := by
  have key : ∀ (l : List Nat) (v : Nat → Bool), (∀ n ∈ l, G.containsNode n = true) →
      l.foldl (fun v n => Topo.setAll v (G.algo.ports n d.reverse) true) v =
      l.foldl (fun v n => Topo.setAll v (G.algoIn.ports n d.reverse) true) v := by
    intro l
    induction l with
    | nil => intro v _; rfl
    | cons n l ih =>
      intro v h
      rw [List.foldl_cons, List.foldl_cons, portsIn_eq (h n (by simp))]
      exact ih _ fun m hm => h m (by simp [hm])
  simp only [Topo.new]
  rw [key _ _ fun n hn => hc n (List.mem_filter.1 hn).1]
  rfl

theorem addSources_in {F : Filter} {d : Direction} (ns : List Nat) : ∀ {s : Topo}, (∀ n ∈ ns, G.containsNode n = true) →
    Topo.addSources G.algo F d s ns = Topo.addSources G.algoIn F d s ns := by
  induction ns with
  | nil => intro s _; rfl
  | cons n ns ih =>
    intro s h
    unfold Topo.addSources
    rw [List.foldl_cons, List.foldl_cons]
    have : Topo.addSource G.algo F d s n = Topo.addSource G.algoIn F d s n := by
      unfold Topo.addSource
      rw [portsIn_eq (h n (by simp)), portsIn_eq (h n (by simp))]
    rw [this]
    exact ih fun m hm => h m (by simp [hm])

/-! ## Neighbours -/

theorem mem_neigh (ok : G.Ok) {m n : Nat} (hc : G.containsNode n = true) :
    (m ∈ G.neighbours n .incoming ↔ G.Arc m n) ∧ (m ∈ G.neighbours n .outgoing ↔ G.Arc n m) := by
  have key : ∀ d, m ∈ G.neighbours n d ↔ ∃ l ∈ G.links n d, G.portNode (G.toPort l.2) = some m := by
    intro d
    have h1 : m ∈ G.neighbours n d ↔ some m ∈ (G.neighbours n d).map some := by simp
    rw [h1, ok.neighbours_eq n d hc, List.mem_map]
  constructor
  · rw [key]
    constructor
    · rintro ⟨⟨e, f⟩, h1, h2⟩
      obtain ⟨h3, h4, h5⟩ := ok.mem_links.1 h1
      obtain ⟨n', d', m', g1, g2, g3, g4, g5, g6⟩ := ok.shows_dir e f h3
      rw [h5] at g2; cases g2
      exact ⟨f, e, ok.shows_sym _ _ h3, h2, h4, g5⟩
    · rintro ⟨e, f, h1, h2, h3, h4⟩
      obtain ⟨n', d', m', g1, g2, g3, g4, g5, g6⟩ := ok.shows_dir e f h1
      rw [h4] at g2; cases g2
      exact ⟨(f, e), ok.mem_links.2 ⟨ok.shows_sym _ _ h1, h3, g5⟩, h2⟩
  · rw [key]
    constructor
    · rintro ⟨⟨e, f⟩, h1, h2⟩
      obtain ⟨h3, h4, h5⟩ := ok.mem_links.1 h1
      exact ⟨e, f, h3, h4, h2, h5⟩
    · rintro ⟨e, f, h1, h2, h3, h4⟩
      exact ⟨(e, f), ok.mem_links.2 ⟨h1, h2, h4⟩, h3⟩

theorem links_nodup (ok : G.Ok) (n : Nat) (d : Direction) : (G.links n d).Nodup := by
  rw [ok.links_eq, List.nodup_flatMap]
  refine ⟨fun p _ => ok.links_nodup p, ?_⟩
  refine (ok.ports_nodup n d).imp fun {p q} hpq => ?_
  rintro ⟨e, f⟩ h1 h2
  have a := ok.from_port _ _ _ h1
  have b := ok.from_port _ _ _ h2
  exact hpq (a.symm.trans b)

theorem count_neigh (ok : G.Ok) {n m : Nat} {d : Direction} (hc : G.containsNode n = true) :
    (G.neighbours n d).count m = ((G.links n d).filter fun l => decide (G.portNode (G.toPort l.2) = some m)).length := by
  have h1 : (G.neighbours n d).count m = ((G.neighbours n d).map some).count (some m) := by
    rw [List.count_map_of_injective _ _ (fun a b h => by simpa using h)]
  rw [h1, ok.neighbours_eq n d hc, List.count_eq_countP, List.countP_map, List.countP_eq_length_filter]
  congr 2
  funext l
  rw [Bool.eq_iff_iff]; simp

theorem count_sym (ok : G.Ok) {n m : Nat} (hn : G.containsNode n = true) (hm : G.containsNode m = true) :
    (G.neighbours n .incoming).count m = (G.neighbours m .outgoing).count n := by
  rw [count_neigh ok hn, count_neigh ok hm]
  have hp : ((G.links n .incoming).filter fun l => decide (G.portNode (G.toPort l.2) = some m)).map Prod.swap |>.Perm
      ((G.links m .outgoing).filter fun l => decide (G.portNode (G.toPort l.2) = some n)) := by
    refine (List.perm_ext_iff_of_nodup ?_ ((links_nodup ok _ _).filter _)).2 ?_
    · exact ((links_nodup ok _ _).filter _).map fun a b h => by cases a; cases b; simp_all [Prod.swap]
    · rintro ⟨e, f⟩
      simp only [List.mem_map, List.mem_filter, Prod.exists, Prod.swap_prod_mk, Prod.mk.injEq, decide_eq_true_eq]
      constructor
      · rintro ⟨f', e', ⟨h1, h2⟩, rfl, rfl⟩
        obtain ⟨h3, h4, h5⟩ := ok.mem_links.1 h1
        obtain ⟨n', d', m', g1, g2, g3, g4, g5, g6⟩ := ok.shows_dir _ _ h3
        rw [h5] at g2; cases g2
        exact ⟨ok.mem_links.2 ⟨ok.shows_sym _ _ h3, h2, g5⟩, h4⟩
      · rintro ⟨h1, h2⟩
        obtain ⟨h3, h4, h5⟩ := ok.mem_links.1 h1
        obtain ⟨n', d', m', g1, g2, g3, g4, g5, g6⟩ := ok.shows_dir _ _ h3
        rw [h5] at g2; cases g2
        exact ⟨f, e, ⟨ok.mem_links.2 ⟨ok.shows_sym _ _ h3, h2, g5⟩, h4⟩, rfl, rfl⟩
  have := hp.length_eq
  rw [List.length_map] at this
  exact this

end Verif.View
