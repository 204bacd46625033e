import Verif.View.Spec
import Mathlib.Data.List.Perm.Subperm

/-!
# Port graphs as views; the links listed from either side
-/

namespace Verif.View

open Verif (Direction)
open Verif.PG Verif.Hier

variable {E : Type}

/-! ## Port graphs -/

theorem linkedPairs_flatMap (g : PG) (ps : List Nat) : linkedPairs g ps = ps.flatMap fun p => linkedPairs g [p] := by
  induction ps with
  | nil => rfl
  | cons p ps ih =>
    rw [List.flatMap_cons, ← ih]
    simp only [linkedPairs, List.filterMap_cons, List.filterMap_nil]
    split <;> simp

theorem mem_one {g : PG} {p a b : Nat} : (a, b) ∈ linkedPairs g [p] ↔ a = p ∧ g.portLink? p = some (some b) := by
  rw [mem_linkedPairs]
  constructor
  · rintro ⟨h, h'⟩; simp at h; exact ⟨h, h ▸ h'⟩
  · rintro ⟨rfl, h⟩; simp [h]

theorem shows_pg {g : PG} {cn cp a b : Nat} : (ofPG g cn cp).Shows a b ↔ g.portLink? a = some (some b) := by
  unfold GView.Shows; simp only [ofPG, id]; rw [mem_one]; simp

theorem nodesOf {g : PG} (hI : Inv g) {l : List (Nat × Nat)} (h : ∀ x ∈ l, ∃ p, g.portLink? p = some (some x.2)) :
    (l.filterMap fun x => g.portNode x.2).map some = l.map fun x => g.portNode x.2 := by
  obtain ⟨ns, hns⟩ := nodes_of_links hI (l := l) h
  rw [hns]
  congr 1
  have : l.filterMap (fun x => g.portNode x.2) = (l.map fun x => g.portNode x.2).filterMap id := by
    rw [List.filterMap_map]; rfl
  rw [this, hns]
  simp

theorem ofPG_ok {g : PG} (hI : Inv g) (cn cp : Nat) : (ofPG g cn cp).Ok where
  nodes_nodup := List.Nodup.filter _ List.nodup_range
  mem_nodes n := by
    simp only [ofPG, List.mem_filter, List.mem_range]
    exact ⟨fun h => h.2, fun h => ⟨PG.node?_lt (containsNode_iff.1 h), h⟩⟩
  node_count := (nodesIter_R hI).2
  iter_nodup := List.Nodup.filter _ List.nodup_range
  mem_iter p := by
    simp only [ofPG, List.mem_filter, List.mem_range]
    exact ⟨fun h => h.2, fun h => ⟨PG.port?_lt (containsPort_iff.1 h), h⟩⟩
  port_iff p := by
    simp only [ofPG, PG.containsPort, PG.portNode, PG.containsNode]
    cases hp : g.port? p with
    | none => simp
    | some x =>
      obtain ⟨m, hm, _⟩ := port_at hI (d := x.2) (n := x.1) hp
      simp [hm]
  port_count := (portsIter_R hI).2
  ports_nodup n d := (Algo.ofPG_wf hI).ports_nodup n d
  mem_ports n d p := by
    show p ∈ g.ports n d ↔ _
    rw [Algo.ports_port hI]
    simp only [ofPG, PG.portNode, PG.portDirection]
    cases g.port? p with
    | none => simp
    | some x => cases x; simp
  port_dir p n h := by
    simp only [ofPG, PG.portNode, PG.portDirection] at h ⊢
    cases hp : g.port? p with
    | none => simp [hp] at h
    | some x => exact ⟨x.2, by simp⟩
  all_ports n := by
    simp only [ofPG, PG.ports, PG.allPorts]
    cases g.node? n with
    | none => simp
    | some m =>
      simp only [NodeMeta.allPorts, NodeMeta.ports, NodeMeta.start, NodeMeta.numPorts]
      rw [List.range'_append_1]
  num_ports n d := by
    simp only [ofPG, PG.ports, PG.numPorts]
    cases g.node? n with
    | none => simp
    | some m => simp [NodeMeta.ports]
  from_port p e f h := (mem_one.1 h).1
  links_nodup p := by
    simp only [ofPG, linkedPairs, List.filterMap_cons, List.filterMap_nil]
    split <;> simp
  shows_sym e f h := by
    rw [shows_pg] at h ⊢
    cases hp : g.port? e with
    | none => simp [PG.portLink?, hp] at h
    | some x =>
      obtain ⟨n, d⟩ := x
      rw [portLink?_eq hI (by simp [hp])] at h
      simp only [Option.some.injEq] at h
      obtain ⟨m, hm, h'⟩ := Algo.lk_port hI hp h
      rw [portLink?_eq hI (by simp [hm]), h']
  shows_dir e f h := by
    rw [shows_pg] at h
    cases hp : g.port? e with
    | none => simp [PG.portLink?, hp] at h
    | some x =>
      obtain ⟨n, d⟩ := x
      rw [portLink?_eq hI (by simp [hp])] at h
      simp only [Option.some.injEq] at h
      obtain ⟨m, hm, h'⟩ := Algo.lk_port hI hp h
      obtain ⟨x, hx, -⟩ := port_at hI hp
      obtain ⟨y, hy, -⟩ := port_at hI hm
      exact ⟨n, d, m, by simp [GView.On, ofPG, PG.portNode, hp], by simp [ofPG, PG.portDirection, hp],
        by simp [ofPG, PG.containsNode, hx], by simp [GView.On, ofPG, PG.portNode, hm],
        by simp [ofPG, PG.portDirection, hm], by simp [ofPG, PG.containsNode, hy]⟩
  shows_one e f f' h h' := by
    rw [shows_pg] at h h'
    rw [h] at h'; simpa using h'
  links_eq n d := linkedPairs_flatMap g _
  all_links n := by
    show (linkedPairs g (g.allPorts n)).filter _ = _
    rw [linkedPairs_flatMap]; rfl
  neighbours_eq n d _ := nodesOf hI fun x hx => ⟨x.1, ((mem_linkedPairs (p := x.1) (q := x.2)).1 hx).2⟩
  all_neighbours n _ := nodesOf hI fun x hx =>
    ⟨x.1, ((mem_linkedPairs (p := x.1) (q := x.2)).1 (List.mem_filter.1 hx).1).2⟩
  connections a b := rfl

/-! ## The list of links -/

namespace GView.Ok

variable {G : GView E}

theorem mem_links (ok : G.Ok) {n : Nat} {d : Direction} {e f : E} :
    (e, f) ∈ G.links n d ↔ G.Shows e f ∧ G.On e n ∧ G.portDirection (G.toPort e) = some d := by
  rw [ok.links_eq, List.mem_flatMap]
  constructor
  · rintro ⟨p, h1, h2⟩
    have h3 := ok.from_port _ _ _ h2
    subst h3
    exact ⟨h2, (ok.mem_ports _ _ _).1 h1⟩
  · rintro ⟨h1, h2⟩
    exact ⟨_, (ok.mem_ports _ _ _).2 h2, h1⟩

theorem flat_nodup (ok : G.Ok) (ps : List Nat) (h : ps.Nodup) : (ps.flatMap G.portLinks).Nodup := by
  rw [List.nodup_flatMap]
  refine ⟨fun p _ => ok.links_nodup p, h.imp ?_⟩
  intro p q hpq
  simp only [Function.onFun, List.disjoint_left]
  rintro ⟨e, f⟩ h1 h2
  exact hpq ((ok.from_port _ _ _ h1).symm.trans (ok.from_port _ _ _ h2))

theorem links_nodup' (ok : G.Ok) (n : Nat) (d : Direction) : (G.links n d).Nodup := by
  rw [ok.links_eq]; exact ok.flat_nodup _ (ok.ports_nodup n d)

/-- The links of all nodes in one direction. -/
theorem dir_list (ok : G.Ok) (d : Direction) :
    (G.nodes.flatMap fun n => G.links n d).Nodup ∧
      ∀ e f, (e, f) ∈ (G.nodes.flatMap fun n => G.links n d) ↔
        G.Shows e f ∧ G.portDirection (G.toPort e) = some d := by
  constructor
  · rw [List.nodup_flatMap]
    refine ⟨fun n _ => ok.links_nodup' n d, ok.nodes_nodup.imp ?_⟩
    intro n m hnm
    simp only [Function.onFun, List.disjoint_left]
    rintro ⟨e, f⟩ h1 h2
    have h3 := (ok.mem_links.1 h1).2.1
    have h4 := (ok.mem_links.1 h2).2.1
    unfold GView.On at h3 h4
    rw [h3] at h4; exact hnm (by simpa using h4)
  · intro e f
    simp only [List.mem_flatMap, ok.mem_links]
    constructor
    · rintro ⟨n, _, h1, _, h2⟩; exact ⟨h1, h2⟩
    · rintro ⟨h1, h2⟩
      obtain ⟨n, d', m, h3, h4, h5, -⟩ := ok.shows_dir _ _ h1
      exact ⟨n, (ok.mem_nodes n).2 h5, h1, h3, h2⟩

theorem outLinks_lists (ok : G.Ok) : G.ListsLinks G.outLinks := ⟨(ok.dir_list .outgoing).1, (ok.dir_list .outgoing).2⟩

theorem lists_length (_ : G.Ok) {l l' : List (E × E)} (h : G.ListsLinks l) (h' : G.ListsLinks l') :
    l.length = l'.length := by
  apply List.Perm.length_eq
  rw [List.perm_ext_iff_of_nodup h.nodup h'.nodup]
  rintro ⟨e, f⟩
  rw [h.mem, h'.mem]

/-- `link_count` is the number of links exactly when it is the number of outgoing links. -/
theorem countOk_iff (ok : G.Ok) : G.CountOk ↔ G.linkCount = G.outLinks.length := by
  constructor
  · rintro ⟨l, h, h'⟩; rw [h', ok.lists_length h ok.outLinks_lists]
  · intro h; exact ⟨_, ok.outLinks_lists, h⟩

/-- The links seen from the incoming ends. -/
theorem in_length (ok : G.Ok) : (G.nodes.flatMap fun n => G.links n .incoming).length = G.outLinks.length := by
  have h := ok.dir_list .incoming
  have hl : G.ListsLinks ((G.nodes.flatMap fun n => G.links n .incoming).map Prod.swap) := by
    refine ⟨h.1.map (fun a b h => by cases a; cases b; simp_all [Prod.swap]), fun e f => ?_⟩
    rw [List.mem_map]
    constructor
    · rintro ⟨⟨a, b⟩, h1, h2⟩
      simp only [Prod.swap_prod_mk, Prod.mk.injEq] at h2
      obtain ⟨rfl, rfl⟩ := h2
      obtain ⟨h3, h4⟩ := (h.2 _ _).1 h1
      refine ⟨ok.shows_sym _ _ h3, ?_⟩
      obtain ⟨n, d, m, -, h5, -, -, h6, -⟩ := ok.shows_dir _ _ h3
      rw [h4] at h5; simp only [Option.some.injEq] at h5; subst h5
      exact h6
    · rintro ⟨h1, h2⟩
      refine ⟨(f, e), (h.2 _ _).2 ⟨ok.shows_sym _ _ h1, ?_⟩, rfl⟩
      obtain ⟨n, d, m, -, h5, -, -, h6, -⟩ := ok.shows_dir _ _ h1
      rw [h2] at h5; simp only [Option.some.injEq] at h5; subst h5
      exact h6
  rw [← ok.lists_length hl ok.outLinks_lists, List.length_map]

end GView.Ok

/-- The counter of a port graph. -/
theorem ofPG_count {g : PG} (hI : Inv g) (cn cp : Nat) : (ofPG g cn cp).CountOk := by
  have ok := ofPG_ok hI cn cp
  have hc := hI.count .outgoing
  refine ⟨((List.range g.portMeta.length).filter (linkedDir g.port? g.lk .outgoing)).filterMap
    fun p => (g.lk p).map fun q => (p, q), ⟨?_, ?_⟩, ?_⟩
  · refine List.Nodup.filterMap ?_ (List.nodup_range.filter _)
    rintro a b ⟨x, y⟩ h1 h2
    simp only [Option.mem_def, Option.map_eq_some_iff, Prod.mk.injEq] at h1 h2
    obtain ⟨_, _, rfl, _⟩ := h1
    obtain ⟨_, _, h, _⟩ := h2
    exact h.symm
  · intro e f
    rw [shows_pg]
    simp only [List.mem_filterMap, List.mem_filter, List.mem_range, Option.map_eq_some_iff, Prod.mk.injEq]
    constructor
    · rintro ⟨p, ⟨-, h1⟩, q, h2, rfl, rfl⟩
      unfold linkedDir at h1
      cases hp : g.port? p with
      | none => simp [hp] at h1
      | some x =>
        obtain ⟨n, d⟩ := x
        simp only [hp, Bool.and_eq_true, decide_eq_true_eq] at h1
        rw [portLink?_eq hI (by simp [hp])]
        exact ⟨by rw [h2], by simp [ofPG, PG.portDirection, hp, h1.1]⟩
    · rintro ⟨h1, h2⟩
      cases hp : g.port? e with
      | none => simp [ofPG, PG.portDirection, hp] at h2
      | some x =>
        obtain ⟨n, d⟩ := x
        simp only [ofPG, PG.portDirection, hp, Option.map_some, Option.some.injEq, id] at h2
        rw [portLink?_eq hI (by simp [hp])] at h1
        simp only [Option.some.injEq] at h1
        exact ⟨e, ⟨Algo.port?_lt hp, by simp [linkedDir, hp, h2, h1]⟩, f, h1, rfl, rfl⟩
  · show g.linkCount = _
    rw [hc, ← length_filter_range]
    have : ∀ l : List Nat, (∀ p ∈ l, (g.lk p).isSome) →
        (l.filterMap fun p => (g.lk p).map fun q => (p, q)).length = l.length := by
      intro l
      induction l with
      | nil => simp
      | cons p l ih =>
        intro h
        obtain ⟨q, hq⟩ := Option.isSome_iff_exists.1 (h p (by simp))
        rw [List.filterMap_cons]
        simp only [hq, Option.map_some, List.length_cons]
        rw [ih fun p hp => h p (by simp [hp])]
    rw [this]
    intro p hp
    have := (List.mem_filter.1 hp).2
    unfold linkedDir at this
    split at this
    · simp only [Bool.and_eq_true] at this; exact this.2
    · simp at this

end Verif.View
