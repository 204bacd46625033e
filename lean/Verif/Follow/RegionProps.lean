import Verif.Follow.MultiProps
import Verif.View.Props

/-!
# C91 Regions of a graph and the hierarchy that follows it
-/

namespace Verif.Follow

open Verif.Hier Verif.PG Verif.Multi Verif.View

/-- The view `R` is what `Region::new` makes of the view `G`, the hierarchy and the root: `inside` are the answers of
`is_descendant`, asked in any order, and `nodes` the items of `descendants`. -/
def IsRegion {E : Type} (G : GView E) (h : Hierarchy) (root : Nat) (R : GView E) : Prop :=
  ∃ (inside : Nat → Bool) (nodes : List Nat) (f0 : Nat),
    (∀ ns, runQueries h root (.new root) ns = some (ns.map inside)) ∧ (∀ f, f0 ≤ f → regionNodes h root f = some nodes) ∧
    R = G.region inside nodes

section

variable {E : Type} {G : GView E} {h : Hierarchy} {root : Nat} {R : GView E}

open Classical in
theorem region_exists (hh : Hier.Reach h) (root : Nat) (G : GView E) : ∃ R, IsRegion G h root R := by
  obtain ⟨nodes, f0, h1, -⟩ := C26_descendants hh root
  refine ⟨_, fun n => decide (Anc h.kids root n), nodes, f0, fun ns => ?_, h1, rfl⟩
  obtain ⟨bs, h2, h3⟩ := C38_region_queries hh root ns
  rw [h2]
  congr 1
  clear h2
  induction h3 with
  | nil => rfl
  | cons h4 _ ih =>
    rw [List.map_cons, ← ih]
    congr 1
    rw [Bool.eq_iff_iff, h4, decide_eq_true_iff]

theorem region_inside (hh : Hier.Reach h) (hR : IsRegion G h root R) (n : Nat) : R.containsNode n = true ↔ Anc h.kids root n := by
  obtain ⟨inside, nodes, f0, h1, h2, rfl⟩ := hR
  obtain ⟨bs, h3, h4⟩ := C38_region_queries hh root [n]
  rw [h1] at h3
  cases h3
  cases h4 with
  | cons h5 _ => exact h5

theorem level_after {K : Kids} {n m k : Nat} (h : level K n m = []) (hk : m ≤ k) : level K n k = [] := by
  induction hk with
  | refl => exact h
  | step _ ih => simp only [level, ih, List.flatMap_nil]

theorem levels_more {K : Kids} {n m : Nat} (h : level K n m = []) (k : Nat) :
    (List.range (m + k)).flatMap (level K n) = (List.range m).flatMap (level K n) := by
  induction k with
  | zero => rfl
  | succ k ih => rw [← Nat.add_assoc, List.range_succ, List.flatMap_append, ih]; simp [level_after h (Nat.le_add_right m k)]

theorem region_nodes (hh : Hier.Reach h) (hR : IsRegion G h root R) :
    ∃ m, ∀ k, m ≤ k → R.nodes = (List.range k).flatMap (level h.kids root) := by
  obtain ⟨inside, nodes, f0, -, h2, rfl⟩ := hR
  obtain ⟨m, f1, h3, h4⟩ := C26_levels hh root
  refine ⟨m, fun k hk => ?_⟩
  have e := h2 (max f0 f1) (Nat.le_max_left _ _)
  rw [show regionNodes h root _ = _ from h4 _ (Nat.le_max_right _ _)] at e
  obtain ⟨j, rfl⟩ := Nat.exists_eq_add_of_le hk
  rw [levels_more h3]
  cases e; rfl

theorem region_shows (hh : Hier.Reach h) (hR : IsRegion G h root R) (e f : E) : R.Shows e f ↔
    G.Shows e f ∧ (∃ n, G.On e n ∧ Anc h.kids root n) ∧ ∃ n, G.On f n ∧ Anc h.kids root n := by
  have hi := region_inside hh hR
  obtain ⟨inside, nodes, f0, -, -, rfl⟩ := hR
  have hi' : ∀ n, inside n = true ↔ Anc h.kids root n := hi
  unfold GView.region
  rw [restrict_shows_iff]
  simp only [hi']

theorem region_ok (hh : Hier.Reach h) (ok : G.Ok) (hin : ∀ n, Anc h.kids root n → G.containsNode n = true)
    (hR : IsRegion G h root R) : R.Ok ∧ R.CountOk ∧ R.EmptyOk ∧ R.nodes.head? = some root := by
  have hi := region_inside hh hR
  obtain ⟨inside, nodes, f0, -, h1, rfl⟩ := hR
  obtain ⟨l, f1, h2, h3, -, -, h4, h5, h6⟩ := C38_region ok hh (inside := inside) hi hin
  have e := h1 (max f0 f1) (Nat.le_max_left _ _)
  rw [h2 _ (Nat.le_max_right _ _)] at e
  cases e
  exact ⟨h4, h5, h6, h3⟩

/-! ## Child lists that are renamed or filtered -/

variable {K K' : Kids}

theorem level_renamed {ρ : Nat → Nat} {L : Nat → Prop} (hk : ∀ n, L n → K' (ρ n) = (K n).map ρ) (hL : ∀ p n, n ∈ K p → L n)
    {r : Nat} (hr : L r) (k : Nat) : level K' (ρ r) k = (level K r k).map ρ := by
  have hl : ∀ k, ∀ x ∈ level K r k, L x := by
    intro k
    cases k with
    | zero => intro x hx; simp only [level, List.mem_singleton] at hx; rw [hx]; exact hr
    | succ k =>
      intro x hx
      obtain ⟨p, -, hp⟩ := List.mem_flatMap.1 hx
      exact hL p x hp
  induction k with
  | zero => rfl
  | succ k ih =>
    simp only [level]
    rw [ih, List.flatMap_map, List.map_flatMap, List.flatMap_congr fun x hx => hk x (hl k x hx)]

theorem anc_renamed {ρ : Nat → Nat} {r : Nat} (hlev : ∀ k, level K' (ρ r) k = (level K r k).map ρ) (n : Nat) :
    Anc K' (ρ r) n ↔ ∃ x, Anc K r x ∧ ρ x = n := by
  constructor
  · intro ha
    obtain ⟨k, hk⟩ := anc_level ha
    rw [hlev, List.mem_map] at hk
    obtain ⟨x, hx, rfl⟩ := hk
    exact ⟨x, level_anc hx, rfl⟩
  · rintro ⟨x, hx, rfl⟩
    obtain ⟨k, hk⟩ := anc_level hx
    refine level_anc (k := k) ?_
    rw [hlev]
    exact List.mem_map_of_mem hk

theorem anc_removed {n : Nat} (F : Forest K) (h1 : K' n = []) (h2 : ∀ x, x ≠ n → K' x = (K x).filter (· ≠ n)) {r : Nat}
    (hr : r ≠ n) (x : Nat) : Anc K' r x ↔ Anc K r x ∧ ¬ (Anc K r n ∧ Anc K n x) := by
  have hsub : ∀ p x, x ∈ K' p → x ∈ K p ∧ x ≠ n ∧ p ≠ n := by
    intro p x hx
    by_cases hp : p = n
    · subst hp; rw [h1] at hx; cases hx
    · rw [h2 p hp, List.mem_filter] at hx
      exact ⟨hx.1, by simpa using hx.2, hp⟩
  constructor
  · intro ha
    induction ha with
    | refl =>
      refine ⟨.refl _, fun ⟨h3, h4⟩ => ?_⟩
      cases h3 with
      | refl => exact hr rfl
      | step h5 h6 => exact F.acyclic _ _ h6 (Anc.trans h4 h5)
    | @step p x _ hx ih =>
      obtain ⟨h3, h4, h5⟩ := hsub _ _ hx
      refine ⟨.step ih.1 h3, fun ⟨h6, h7⟩ => ih.2 ⟨h6, ?_⟩⟩
      cases h7 with
      | refl => exact absurd rfl h4
      | step h8 h9 => rw [F.oneParent _ _ _ h3 h9]; exact h8
  · rintro ⟨ha, hn⟩
    induction ha with
    | refl => exact .refl _
    | @step p x hp hx ih =>
      have hxn : x ≠ n := fun e => by subst e; exact hn ⟨.step hp hx, .refl _⟩
      have hpn : p ≠ n := fun e => by subst e; exact hn ⟨hp, .step (.refl _) hx⟩
      refine .step (ih fun ⟨h3, h4⟩ => hn ⟨h3, .step h4 hx⟩) ?_
      rw [h2 p hpn, List.mem_filter]
      exact ⟨hx, by simpa using hxn⟩

end

/-! ## The theorems -/

section

variable {maxOff cn cp : Nat}

/-- **C91** A graph and its hierarchy after any history: the region of a node of the graph exists, contains only nodes of the
graph, namely the root and those below it, shows the links between these, and all its queries agree.
Partial: the histories are those of C87. -/
theorem C91_region_partial (hmax : maxOff ≤ 32767) {s : Both} (hs : Reach maxOff s) {root : Nat} (hroot : s.graph.containsNode root = true) :
    ∃ R, IsRegion (ofPG s.graph cn cp) s.tree root R ∧ R.Ok ∧ R.CountOk ∧ R.EmptyOk ∧ R.nodes.head? = some root ∧
      (∀ n, R.containsNode n = true ↔ Anc s.tree.kids root n) ∧
      (∀ n, R.containsNode n = true → s.graph.containsNode n = true) ∧
      ∀ p q, R.Shows p q ↔ s.graph.portLink? p = some (some q) ∧ (∃ n, s.graph.portNode p = some n ∧ Anc s.tree.kids root n) ∧
        ∃ n, s.graph.portNode q = some n ∧ Anc s.tree.kids root n := by
  obtain ⟨hg, hh, hf, -⟩ := C87_history_partial hmax hs
  have hin : ∀ n, Anc s.tree.kids root n → s.graph.containsNode n = true := by
    intro n hn
    cases hn with
    | refl => exact hroot
    | step _ hm => exact hf n (.inl ⟨_, hm⟩)
  obtain ⟨R, hR⟩ := region_exists hh root (ofPG s.graph cn cp)
  have hI := hg.inv hmax
  obtain ⟨h1, h2, h3, h4⟩ := region_ok hh (ofPG_ok hI cn cp) hin hR
  refine ⟨R, hR, h1, h2, h3, h4, region_inside hh hR, fun n hn => hin n ((region_inside hh hR n).1 hn), fun p q => ?_⟩
  rw [region_shows hh hR]
  refine and_congr_left fun _ => ?_
  show (p, q) ∈ linkedPairs s.graph [p] ↔ _
  rw [mem_one, and_iff_right rfl]

variable {s s' : MBoth} {root : Nat}

theorem mregion_link (h2m : 2 ≤ maxOff) (hmax : maxOff ≤ 32767) (hs : MBReach maxOff s) {R : GView Subport}
    (hR : IsRegion (ofMG s.graph cn cp) s.tree root R) (e f : Subport) :
    R.Shows e f ↔ s.graph.obs.link e f ∧ (∃ x, s.graph.obs.pos e.1 x ∧ Anc s.tree.kids root x.1) ∧
      ∃ y, s.graph.obs.pos f.1 y ∧ Anc s.tree.kids root y.1 := by
  obtain ⟨hg, hh, hf, -⟩ := C90_history_partial h2m hmax hs
  have hM := hg.ok h2m hmax
  rw [region_shows hh hR, shows_iff hM, ← obs_link hM]
  refine and_congr_right fun hl => ?_
  have key : ∀ p, (∃ x, s.graph.obs.pos p x) →
      ((∃ n, s.graph.graph.portNode p = some n ∧ Anc s.tree.kids root n) ↔ ∃ x, s.graph.obs.pos p x ∧ Anc s.tree.kids root x.1) := by
    rintro p ⟨x, hx⟩
    constructor
    · rintro ⟨n, hn, ha⟩
      have := hx.2.1
      rw [hn] at this
      cases this
      exact ⟨x, hx, ha⟩
    · rintro ⟨y, hy, ha⟩
      exact ⟨y.1, hy.2.1, ha⟩
  obtain ⟨⟨x, hx⟩, y, hy⟩ := shows_vat hM ((obs_link hM).1 hl)
  exact and_congr (key e.1 ⟨x, (obs_pos hM).2 hx⟩) (key f.1 ⟨y, (obs_pos hM).2 hy⟩)

/-- **C91** The same for a multigraph: regions contain no helpers.
Partial: the histories are those of C90. -/
theorem C91_multi_region_partial (h2m : 2 ≤ maxOff) (hmax : maxOff ≤ 32767) (hs : MBReach maxOff s) (hroot : s.graph.obs.node root) :
    ∃ R, IsRegion (ofMG s.graph cn cp) s.tree root R ∧ R.Ok ∧ R.CountOk ∧ R.EmptyOk ∧ R.nodes.head? = some root ∧
      (∀ n, R.containsNode n = true ↔ Anc s.tree.kids root n) ∧ (∀ n, R.containsNode n = true → s.graph.obs.node n) ∧
      ∀ e f, R.Shows e f ↔ s.graph.obs.link e f ∧ (∃ x, s.graph.obs.pos e.1 x ∧ Anc s.tree.kids root x.1) ∧
        ∃ y, s.graph.obs.pos f.1 y ∧ Anc s.tree.kids root y.1 := by
  obtain ⟨hg, hh, hf, -⟩ := C90_history_partial h2m hmax hs
  have hin : ∀ n, Anc s.tree.kids root n → s.graph.obs.node n := by
    intro n hn
    cases hn with
    | refl => exact hroot
    | step _ hm => exact hf n (.inl ⟨_, hm⟩)
  obtain ⟨R, hR⟩ := region_exists hh root (ofMG s.graph cn cp)
  obtain ⟨h1, h2, h3, h4⟩ := region_ok hh (ofMG_ok (hg.ok h2m hmax) cn cp) hin hR
  exact ⟨R, hR, h1, h2, h3, h4, region_inside hh hR, fun n hn => hin n ((region_inside hh hR n).1 hn),
    mregion_link h2m hmax hs hR⟩

/-- **C91** A flat region contains the children of the root, and the root if asked for, all shown by the multigraph. -/
theorem C91_multi_flat_partial (h2m : 2 ≤ maxOff) (hmax : maxOff ≤ 32767) (hs : MBReach maxOff s) (hroot : s.graph.obs.node root)
    (withRoot : Bool) :
    let R := (ofMG s.graph cn cp).flatRegion s.tree root withRoot
    R.Ok ∧ R.CountOk ∧ (∀ n, R.containsNode n = true ↔ (withRoot = true ∧ n = root) ∨ n ∈ s.tree.kids root) ∧
      ∀ n, R.containsNode n = true → s.graph.obs.node n := by
  obtain ⟨hg, hh, hf, -⟩ := C90_history_partial h2m hmax hs
  have hk : ∀ n ∈ s.tree.kids root, s.graph.obs.node n := fun n hn => hf n (.inl ⟨root, hn⟩)
  obtain ⟨h1, -, h2, h3⟩ := C38_flat_region (withRoot := withRoot) (ofMG_ok (hg.ok h2m hmax) cn cp) hh (root := root)
    (fun _ => hroot) hk
  refine ⟨h2, h3, h1, fun n hn => ?_⟩
  rcases (h1 n).1 hn with ⟨-, rfl⟩ | h4
  · exact hroot
  · exact hk n h4

/-- The region `R'` is the region `R` with renamed nodes: the same nodes in the same order, the same links. -/
def RegionRenamed {E : Type} (ρ : Nat → Nat) (R R' : GView E) : Prop :=
  R'.nodes = R.nodes.map ρ ∧ (∀ n, R'.containsNode n = true ↔ ∃ x, R.containsNode x = true ∧ ρ x = n) ∧
    ∀ e f, R'.Shows e f ↔ R.Shows e f

theorem region_renamed (h2m : 2 ≤ maxOff) (hmax : maxOff ≤ 32767) (hs : MBReach maxOff s) (hs' : MBReach maxOff s')
    {ρ : Nat → Nat} (hren : s.graph.obs.Rename s'.graph.obs ρ id)
    (hk : ∀ n, s.graph.obs.node n → s'.tree.kids (ρ n) = (s.tree.kids n).map ρ) (hroot : s.graph.obs.node root)
    {R R' : GView Subport} (hR : IsRegion (ofMG s.graph cn cp) s.tree root R)
    (hR' : IsRegion (ofMG s'.graph cn cp) s'.tree (ρ root) R') : RegionRenamed ρ R R' := by
  obtain ⟨hg, hh, hf, -⟩ := C90_history_partial h2m hmax hs
  obtain ⟨hg', hh', hf', -⟩ := C90_history_partial h2m hmax hs'
  have hlev := level_renamed hk (fun p n hn => hf n (.inl ⟨p, hn⟩)) hroot
  have hanc := anc_renamed hlev
  have hnode : ∀ x, Anc s.tree.kids root x → s.graph.obs.node x := by
    intro n hn
    cases hn with
    | refl => exact hroot
    | step _ hm => exact hf n (.inl ⟨_, hm⟩)
  refine ⟨?_, fun n => ?_, fun e f => ?_⟩
  · obtain ⟨m, h1⟩ := region_nodes hh hR
    obtain ⟨m', h2⟩ := region_nodes hh' hR'
    rw [h1 (max m m') (Nat.le_max_left _ _), h2 (max m m') (Nat.le_max_right _ _), List.map_flatMap,
      List.flatMap_congr fun k _ => hlev k]
  · rw [region_inside hh' hR', hanc]
    simp only [region_inside hh hR]
  · rw [mregion_link h2m hmax hs hR, mregion_link h2m hmax hs' hR']
    have hw := (C39_shows_a_multigraph_partial h2m hmax hg 0 0).1
    have hpos : ∀ p, (∃ x, s'.graph.obs.pos p x ∧ Anc s'.tree.kids (ρ root) x.1) ↔
        ∃ x, s.graph.obs.pos p x ∧ Anc s.tree.kids root x.1 := by
      intro p
      constructor
      · rintro ⟨x, hx, ha⟩
        obtain ⟨q, n, d, k, h3, rfl, rfl⟩ := (hren.pos _ _).1 hx
        obtain ⟨y, hy, h4⟩ := (hanc _).1 ha
        have := hren.node_inj _ _ (hnode y hy) (hw.pos_node _ _ h3) h4
        subst this
        exact ⟨_, h3, hy⟩
      · rintro ⟨⟨n, d, k⟩, hx, ha⟩
        exact ⟨(ρ n, d, k), (hren.pos _ _).2 ⟨p, n, d, k, hx, rfl, rfl⟩, (hanc _).2 ⟨n, ha, rfl⟩⟩
    rw [hpos, hpos]
    refine and_congr_left fun _ => ?_
    rw [hren.link]
    constructor
    · rintro ⟨p, k, q, l, h3, rfl, rfl⟩; exact h3
    · intro h3; exact ⟨e.1, e.2, f.1, f.2, h3, rfl, rfl⟩

theorem portNode_iff {g : PG} (hI : PG.Inv g) {p n : Nat} : g.portNode p = some n ↔ ∃ d k, At g p (n, d, k) := by
  constructor
  · intro h
    obtain ⟨d, hd⟩ := (ofPG_ok hI 0 0).port_dir p n h
    obtain ⟨k, hk⟩ := Multi.mem_ports.1 (((ofPG_ok hI 0 0).mem_ports n d p).2 ⟨h, hd⟩)
    exact ⟨d, k, hk⟩
  · rintro ⟨d, k, h⟩
    exact At.portNode hI h

/-- The regions of a port graph whose nodes are renamed while ports keep their indices and links. -/
theorem pg_region_renamed {g g' : PG} (hI : PG.Inv g) (hI' : PG.Inv g') {h h' : Hierarchy} (hh : Hier.Reach h)
    (hh' : Hier.Reach h') (hf : Follows g h) {ρ : Nat → Nat}
    (hidx : ∀ n d k, g.containsNode n = true → g'.portIndex (ρ n) d k = g.portIndex n d k)
    (hlink : ∀ p, g'.portLink? p = g.portLink? p)
    (hk : ∀ n, g.containsNode n = true → h'.kids (ρ n) = (h.kids n).map ρ) {root : Nat} (hroot : g.containsNode root = true)
    {R R' : GView Nat} (hR : IsRegion (ofPG g cn cp) h root R) (hR' : IsRegion (ofPG g' cn cp) h' (ρ root) R') :
    RegionRenamed ρ R R' := by
  have hlev := level_renamed hk (fun p n hn => hf n (.inl ⟨p, hn⟩)) hroot
  have hanc := anc_renamed hlev
  have hnode : ∀ x, Anc h.kids root x → g.containsNode x = true := by
    intro n hn
    cases hn with
    | refl => exact hroot
    | step _ hm => exact hf n (.inl ⟨_, hm⟩)
  refine ⟨?_, fun n => ?_, fun p q => ?_⟩
  · obtain ⟨m, h1⟩ := region_nodes hh hR
    obtain ⟨m', h2⟩ := region_nodes hh' hR'
    rw [h1 (max m m') (Nat.le_max_left _ _), h2 (max m m') (Nat.le_max_right _ _), List.map_flatMap,
      List.flatMap_congr fun k _ => hlev k]
  · rw [region_inside hh' hR', hanc]
    simp only [region_inside hh hR]
  · have hon : ∀ p, (∃ n, g'.portNode p = some n ∧ Anc h'.kids (ρ root) n) ↔ ∃ n, g.portNode p = some n ∧ Anc h.kids root n := by
      intro p
      constructor
      · rintro ⟨n, h1, h2⟩
        obtain ⟨x, hx, rfl⟩ := (hanc n).1 h2
        obtain ⟨d, k, h3⟩ := (portNode_iff hI').1 h1
        rw [← at_index, hidx x d k (hnode x hx), at_index] at h3
        exact ⟨x, (portNode_iff hI).2 ⟨d, k, h3⟩, hx⟩
      · rintro ⟨x, h1, hx⟩
        obtain ⟨d, k, h3⟩ := (portNode_iff hI).1 h1
        rw [← at_index, ← hidx x d k (hnode x hx), at_index] at h3
        exact ⟨ρ x, (portNode_iff hI').2 ⟨d, k, h3⟩, (hanc _).2 ⟨x, hx, rfl⟩⟩
    rw [region_shows hh hR, region_shows hh' hR']
    show (p, q) ∈ linkedPairs g' [p] ∧ (∃ n, g'.portNode p = some n ∧ _) ∧ (∃ n, g'.portNode q = some n ∧ _) ↔
      (p, q) ∈ linkedPairs g [p] ∧ (∃ n, g.portNode p = some n ∧ _) ∧ ∃ n, g.portNode q = some n ∧ _
    rw [mem_one, mem_one, hlink, hon, hon]

/-- **C91** Regions of a port graph survive a compaction with the callback `swap_nodes`, and with the documented `rekey` if it
does not panic (C87): at the new name of its root the region has the same nodes under their new names, in the same order, and
the same links. -/
theorem C91_portgraph_compact_partial (hmax : maxOff ≤ 32767) {s : Both} (hs : Reach maxOff s)
    (hlen : s.graph.nodeMeta.length ≤ 2 ^ 31) {swap : Bool} (hok : swap = true ∨ ∀ n, ¬ Stays s.graph s.tree n) (extra : Nat) :
    ∃ s' tr, compact s swap extra = some s' ∧ s.graph.compactNodes = some (s'.graph, tr) ∧
      ∀ ρ, (∀ x ∈ tr, ρ x.1 = x.2) → ∀ root, s.graph.containsNode root = true → ∀ R R',
        IsRegion (ofPG s.graph cn cp) s.tree root R → IsRegion (ofPG s'.graph cn cp) s'.tree (ρ root) R' →
          RegionRenamed ρ R R' := by
  obtain ⟨hg, hh, hf, -⟩ := C87_history_partial hmax hs
  have hI := hg.inv hmax
  have key : ∃ g' tr h', s.graph.compactNodes = some (g', tr) ∧ compact ⟨s.graph, s.tree⟩ swap extra = some ⟨g', h'⟩ ∧
      PG.Reach maxOff g' ∧ Hier.Reach h' ∧ Follows g' h' ∧
      ∀ ρ, (∀ x ∈ tr, ρ x.1 = x.2) → AGraph.Renamed ρ s.graph.abs g'.abs ∧
        ∀ n, s.graph.containsNode n = true → h'.kids (ρ n) = (s.tree.kids n).map ρ := by
    cases swap with
    | true => exact C87_swap hmax hg hh hlen hf extra
    | false => exact C87_rekey_partial hmax hg hh hlen hf (hok.resolve_left (by decide)) extra
  obtain ⟨g', tr, h', e1, e2, hg', hh', -, k⟩ := key
  obtain ⟨g2, tr2, e3, -, -, -, k2, k3, -⟩ := C15_compact_nodes hmax hg
  rw [e1] at e3
  cases e3
  exact ⟨⟨g', h'⟩, tr, e2, e1, fun ρ hρ root hroot R R' hR hR' =>
    pg_region_renamed hI (hg'.inv hmax) hh hh' hf (k2 ρ hρ).2 (fun p => (k3 p).2) (k ρ hρ).2 hroot hR hR'⟩

/-- **C91** Likewise for `swap_nodes`. -/
theorem C91_portgraph_swap_partial (hmax : maxOff ≤ 32767) {s : Both} (hs : Reach maxOff s)
    (hlen : s.graph.nodeMeta.length ≤ 2 ^ 31) {a b : Nat} (hok : s.graph.swappable a b = true) :
    ∃ s', step maxOff s (.swapNodes a b) = some s' ∧
      let ρ := fun n => if n = a then b else if n = b then a else n
      ∀ root, s.graph.containsNode root = true → ∀ R R', IsRegion (ofPG s.graph cn cp) s.tree root R →
        IsRegion (ofPG s'.graph cn cp) s'.tree (ρ root) R' → RegionRenamed ρ R R' := by
  obtain ⟨hg, hh, hf, -⟩ := C87_history_partial hmax hs
  obtain ⟨s', e, hg', hh', -, e1, k⟩ := C87_step_partial hmax hg hh hlen hf (c := .swapNodes a b) hok
  obtain ⟨g', e2, -, -, k2, k3, -⟩ := C17_swap_nodes_partial hmax hg hok
  have : PG.step maxOff s.graph (.swapNodes a b) = s.graph.swapNodes a b := rfl
  rw [this, e2] at e1
  cases e1
  exact ⟨s', e, fun root hroot R R' hR hR' =>
    pg_region_renamed (hg.inv hmax) (hg'.inv hmax) hh hh' hf (fun n d k _ => k2 n d k) (fun p => (k3 p).2) (fun n _ => k n)
      hroot hR hR'⟩

theorem port_live {g : PG} (hI : PG.Inv g) {p n : Nat} (h : g.portNode p = some n) : g.containsNode n = true := by
  obtain ⟨d, k, h1⟩ := (portNode_iff hI).1 h
  exact At.contains h1

theorem removed_ports (hmax : maxOff ≤ 32767) {g g' : PG} (hg : PG.Reach maxOff g) {n : Nat} (e : g.removeNode n = some g')
    (hg' : PG.Reach maxOff g') :
    (∀ p m, g'.portNode p = some m ↔ g.portNode p = some m ∧ m ≠ n) ∧
    ∀ p q m l, g.portNode p = some m → m ≠ n → g.portNode q = some l → l ≠ n →
      (g'.portLink? p = some (some q) ↔ g.portLink? p = some (some q)) := by
  have hI := hg.inv hmax
  have hI' := hg'.inv hmax
  cases hn : g.containsNode n with
  | false =>
    rw [C09_remove_node_unknown hn] at e
    cases e
    refine ⟨fun p m => ⟨fun h => ⟨h, ?_⟩, fun h => h.1⟩, fun _ _ _ _ _ _ _ _ => Iff.rfl⟩
    rintro rfl
    have := port_live hI h
    rw [hn] at this
    cases this
  | true =>
    obtain ⟨g1, e1, ha, h1, h2, h3, -, -⟩ := C09_remove_node hmax hg hn
    rw [e] at e1
    cases e1
    have hnode : ∀ p m, g'.portNode p = some m ↔ g.portNode p = some m ∧ m ≠ n := by
      intro p m
      constructor
      · intro h
        have hm : m ≠ n := by
          rintro rfl
          have h4 := port_live hI' h
          rw [live_iff_counts, ha] at h4
          simp [AGraph.remove] at h4
        obtain ⟨d, k, h4⟩ := (portNode_iff hI').1 h
        rw [← at_index, h1 p m d k hm, at_index] at h4
        exact ⟨(portNode_iff hI).2 ⟨d, k, h4⟩, hm⟩
      · rintro ⟨h, hm⟩
        obtain ⟨d, k, h4⟩ := (portNode_iff hI).1 h
        rw [← at_index, ← h1 p m d k hm, at_index] at h4
        exact (portNode_iff hI').2 ⟨d, k, h4⟩
    refine ⟨hnode, fun p q m l hp hm hq hl => ?_⟩
    have hc : g.containsPort p = true := ((ofPG_ok hI 0 0).port_iff p).2 ⟨m, hp, port_live hI hp⟩
    cases hx : g.portLink? p with
    | none =>
      rw [portLink?_eq hI hc] at hx
      cases hx
    | some o =>
      rw [h3 p o hc (by rw [hp]; exact fun h => hm (Option.some.inj h)) hx]
      cases o with
      | none => simp
      | some r =>
        simp only [Option.bind_some]
        split
        · rename_i hr
          simp only [Option.some.injEq, reduceCtorEq, false_iff]
          rintro rfl
          rw [hq] at hr
          exact hl (Option.some.inj hr)
        · rfl

/-- **C91** Removing a node of a port graph takes it, and all that was below it, out of the other regions, and the links at
these nodes; nothing else changes. -/
theorem C91_portgraph_remove_partial (hmax : maxOff ≤ 32767) {s : Both} (hs : Reach maxOff s)
    (hlen : s.graph.nodeMeta.length ≤ 2 ^ 31) {n : Nat} (hn : n < 2 ^ 31) :
    ∃ s', step maxOff s (.removeNode n) = some s' ∧ Reach maxOff s' ∧
      ∀ root, root ≠ n → ∀ R Rn R', IsRegion (ofPG s.graph cn cp) s.tree root R → IsRegion (ofPG s.graph cn cp) s.tree n Rn →
        IsRegion (ofPG s'.graph cn cp) s'.tree root R' →
        (∀ x, R'.containsNode x = true ↔
          R.containsNode x = true ∧ ¬ (R.containsNode n = true ∧ Rn.containsNode x = true)) ∧
        ∀ p q, R'.Shows p q ↔ R.Shows p q ∧ (∃ x, R.On p x ∧ R'.containsNode x = true) ∧
          ∃ y, R.On q y ∧ R'.containsNode y = true := by
  obtain ⟨hg, hh, hf, -⟩ := C87_history_partial hmax hs
  obtain ⟨s', e, hg', hh', -, e1, k1, k2⟩ := C87_step_partial hmax hg hh hlen hf (c := .removeNode n) hn
  obtain ⟨h1, h2⟩ := removed_ports hmax hg e1 hg'
  obtain ⟨v, -⟩ := hh.inv
  have hanc := fun {root} (hr : root ≠ n) => anc_removed v.forest k1 k2 hr
  refine ⟨s', e, .step hs hlen (c := .removeNode n) hn e, fun root hr R Rn R' hR hRn hR' => ⟨fun x => ?_, fun p q => ?_⟩⟩
  · rw [region_inside hh' hR', region_inside hh hR, region_inside hh hR, region_inside hh hRn, hanc hr]
  · have hne : ∀ x, Anc s'.tree.kids root x → x ≠ n := by
      rintro x hx rfl
      obtain ⟨h6, h7⟩ := (hanc hr _).1 hx
      exact h7 ⟨h6, .refl _⟩
    have hon : ∀ x m, R.On x m ↔ s.graph.portNode x = some m := by
      obtain ⟨inside, nodes, f0, -, -, rfl⟩ := hR
      exact fun x m => Iff.rfl
    have hsh := region_shows hh hR p q
    have hsh' := region_shows hh' hR' p q
    change _ ↔ (p, q) ∈ linkedPairs s.graph [p] ∧ (∃ n, s.graph.portNode p = some n ∧ _) ∧ (∃ n, s.graph.portNode q = some n ∧ _) at hsh
    change _ ↔ (p, q) ∈ linkedPairs s'.graph [p] ∧ (∃ n, s'.graph.portNode p = some n ∧ _) ∧ (∃ n, s'.graph.portNode q = some n ∧ _) at hsh'
    rw [mem_one, eq_self, true_and] at hsh hsh'
    rw [hsh, hsh']
    simp only [hon, region_inside hh' hR', h1]
    constructor
    · rintro ⟨h6, ⟨x, ⟨h7, h8⟩, h9⟩, y, ⟨h10, h11⟩, h12⟩
      exact ⟨⟨(h2 p q x y h7 h8 h10 h11).1 h6, ⟨x, h7, ((hanc hr _).1 h9).1⟩, y, h10, ((hanc hr _).1 h12).1⟩, ⟨x, h7, h9⟩, y, h10, h12⟩
    · rintro ⟨⟨h6, -, -⟩, ⟨x, h7, h9⟩, y, h10, h12⟩
      exact ⟨(h2 p q x y h7 (hne _ h9) h10 (hne _ h12)).2 h6, ⟨x, ⟨h7, hne _ h9⟩, h9⟩, y, ⟨h10, hne _ h12⟩, h12⟩

/-- **C91** A `FlatRegion` of a node of a port graph: its nodes are the children of the root in the hierarchy, with the root
if asked for, and they are nodes of the graph; all its queries agree. -/
theorem C91_portgraph_flat_partial (hmax : maxOff ≤ 32767) {s : Both} (hs : Reach maxOff s) {root : Nat}
    (hroot : s.graph.containsNode root = true) (withRoot : Bool) :
    let R := (ofPG s.graph cn cp).flatRegion s.tree root withRoot
    R.Ok ∧ R.CountOk ∧ (∀ n, R.containsNode n = true ↔ (withRoot = true ∧ n = root) ∨ n ∈ s.tree.kids root) ∧
      ∀ n, R.containsNode n = true → s.graph.containsNode n = true := by
  obtain ⟨hg, hh, hf, -⟩ := C87_history_partial hmax hs
  have hk : ∀ n ∈ s.tree.kids root, s.graph.containsNode n = true := fun n hn => hf n (.inl ⟨root, hn⟩)
  obtain ⟨h1, -, h2, h3⟩ := C38_flat_region (withRoot := withRoot) (ofPG_ok (hg.inv hmax) cn cp) hh (root := root)
    (fun _ => hroot) hk
  refine ⟨h2, h3, h1, fun n hn => ?_⟩
  rcases (h1 n).1 hn with ⟨-, rfl⟩ | hn
  · exact hroot
  · exact hk n hn

/-- **C91** Adding a node to a port graph leaves every region of a node of the graph as it is, with its links. Every other
call that does not concern the nodes leaves the nodes of regions as they are, and a region shows exactly the links
of the new graph between them. -/
theorem C91_portgraph_same_partial (hmax : maxOff ≤ 32767) {s : Both} (hs : Reach maxOff s)
    (hlen : s.graph.nodeMeta.length ≤ 2 ^ 31) {c : Call} (hok : c.ok maxOff s)
    (hc : (∃ i o, c = .addNode i o) ∨ ∃ op, c = .ports op) :
    ∃ s', step maxOff s c = some s' ∧ Reach maxOff s' ∧
      ∀ root, s.graph.containsNode root = true → ∀ R R', IsRegion (ofPG s.graph cn cp) s.tree root R →
        IsRegion (ofPG s'.graph cn cp) s'.tree root R' →
        R'.nodes = R.nodes ∧ (∀ n, R'.containsNode n = R.containsNode n) ∧
        (∀ i o, c = .addNode i o → ∀ p q, R'.Shows p q ↔ R.Shows p q) ∧
        ∀ p q, R'.Shows p q ↔ s'.graph.portLink? p = some (some q) ∧ (∃ n, s'.graph.portNode p = some n ∧ R.containsNode n = true) ∧
          ∃ n, s'.graph.portNode q = some n ∧ R.containsNode n = true := by
  obtain ⟨hg, hh, hf, -⟩ := C87_history_partial hmax hs
  obtain ⟨s', e, hg', hh', -, he⟩ := C87_step_partial hmax hg hh hlen hf hok
  have hkids : s'.tree.kids = s.tree.kids := by
    rcases hc with ⟨i, o, rfl⟩ | ⟨op, rfl⟩
    · exact he.2
    · exact he.2
  refine ⟨s', e, .step hs hlen hok e, fun root hroot R R' hR hR' => ?_⟩
  have hin : ∀ n, R'.containsNode n = R.containsNode n := fun n => by
    rw [Bool.eq_iff_iff, region_inside hh' hR', region_inside hh hR, hkids]
  have hsh := fun p q => region_shows hh hR p q
  have hsh' := fun p q => region_shows hh' hR' p q
  change ∀ p q, _ ↔ (p, q) ∈ linkedPairs s.graph [p] ∧ (∃ n, s.graph.portNode p = some n ∧ _) ∧ (∃ n, s.graph.portNode q = some n ∧ _) at hsh
  change ∀ p q, _ ↔ (p, q) ∈ linkedPairs s'.graph [p] ∧ (∃ n, s'.graph.portNode p = some n ∧ _) ∧ (∃ n, s'.graph.portNode q = some n ∧ _) at hsh'
  simp only [mem_one, true_and] at hsh hsh'
  refine ⟨?_, hin, ?_, fun p q => ?_⟩
  · obtain ⟨m, h7⟩ := region_nodes hh hR
    obtain ⟨m', h8⟩ := region_nodes hh' hR'
    rw [h7 (max m m') (Nat.le_max_left _ _), h8 (max m m') (Nat.le_max_right _ _), hkids]
  · rintro i o rfl p q
    obtain ⟨n, g', e1, hn, ha, h1, -⟩ := C08_add_node hmax hg hok.1 hok.2
    simp only [step, e1, Option.map_some, Option.some.injEq] at e
    subst e
    have hI := hg.inv hmax
    have hI' := hg'.inv hmax
    have hnode : ∀ x, Anc s.tree.kids root x → x ≠ n := by
      rintro x hx rfl
      have : s.graph.containsNode x = true := by
        cases hx with
        | refl => exact hroot
        | step _ hm => exact hf _ (.inl ⟨_, hm⟩)
      rw [hn] at this
      cases this
    have hsame : ∀ p m, m ≠ n → (g'.portNode p = some m ↔ s.graph.portNode p = some m) := by
      intro p m hm
      have fwd : ∀ p d k, At s.graph p (m, d, k) → At g' p (m, d, k) := by
        intro p d k h
        have h3 := (h1 p (containsPort_iff.2 (by rw [h.port hI]; rfl))).2.1
        rw [h.endpoint hI] at h3
        exact (endpoint_at hI').1 h3
      constructor
      · intro h
        obtain ⟨d, k, h3⟩ := (portNode_iff hI').1 h
        have h4 := h3.hasEnd
        rw [ha] at h4
        have h5 : s.graph.abs.Has (m, d, k) := by
          simpa [AGraph.Has, AGraph.arity, AGraph.add, hm] using h4
        obtain ⟨q, hq⟩ := abs_has.1 h5
        rw [(fwd q d k hq).unique h3] at hq
        exact (portNode_iff hI).2 ⟨d, k, hq⟩
      · intro h
        obtain ⟨d, k, h3⟩ := (portNode_iff hI).1 h
        exact (portNode_iff hI').2 ⟨d, k, fwd p d k h3⟩
    have hon : ∀ p, (∃ m, g'.portNode p = some m ∧ Anc s.tree.kids root m) ↔ ∃ m, s.graph.portNode p = some m ∧ Anc s.tree.kids root m :=
      fun p => exists_congr fun m => and_congr_left fun hm => hsame p m (hnode m hm)
    rw [hsh, hsh']
    simp only [hon]
    refine and_congr_left fun hx => ?_
    obtain ⟨⟨m, h3, -⟩, -⟩ := hx
    obtain ⟨d, k, h4⟩ := (portNode_iff hI).1 h3
    rw [(h1 p (containsPort_iff.2 (by rw [h4.port hI]; rfl))).2.2]
  · rw [hsh', hkids]
    simp only [region_inside hh hR]

/-- **C91** Regions survive a compaction with the callback `swap_nodes`, or with the documented `rekey` if it does not panic
(C90): the region at the new name of its root has the same nodes under their new names, in the same order, and the same links. -/
theorem C91_compact_partial (h2m : 2 ≤ maxOff) (hmax : maxOff ≤ 32767) (hs : MBReach maxOff s)
    (hlen : s.graph.graph.nodeMeta.length ≤ 2 ^ 31) {swap : Bool} {extra : Nat}
    (hok : (MCall.graph .compactNodes swap extra).ok maxOff s) :
    ∃ s' tr, mstep maxOff s (.graph .compactNodes swap extra) = some s' ∧
      s.graph.step maxOff .compactNodes = some (.moves tr, s'.graph) ∧ MBReach maxOff s' ∧
      ∃ ρ : Nat → Nat, (∀ x, s.graph.obs.node x → (x, ρ x) ∈ tr) ∧
        ∀ root, s.graph.obs.node root → ∀ R R', IsRegion (ofMG s.graph cn cp) s.tree root R → IsRegion (ofMG s'.graph cn cp) s'.tree (ρ root) R' →
          RegionRenamed ρ R R' := by
  obtain ⟨hg, hh, hf, -⟩ := C90_history_partial h2m hmax hs
  obtain ⟨s', e, -, -, -, -, tr, ρ, h1, h4, hren, hk⟩ := C90_step_partial h2m hmax hg hh hlen hf hok
  have hs' : MBReach maxOff s' := .step hs hlen hok e
  exact ⟨s', tr, e, h1, hs', ρ, h4, fun root hroot R R' hR hR' => region_renamed h2m hmax hs hs' hren hk hroot hR hR'⟩

/-- **C91** Likewise for `swap_nodes`. -/
theorem C91_swap_partial (h2m : 2 ≤ maxOff) (hmax : maxOff ≤ 32767) (hs : MBReach maxOff s)
    (hlen : s.graph.graph.nodeMeta.length ≤ 2 ^ 31) {a b : Nat} {swap : Bool} {extra : Nat}
    (hok : (MCall.graph (.swapNodes a b) swap extra).ok maxOff s) :
    ∃ s', mstep maxOff s (.graph (.swapNodes a b) swap extra) = some s' ∧ MBReach maxOff s' ∧
      let ρ := fun n => if n = a then b else if n = b then a else n
      ∀ root, s.graph.obs.node root → ∀ R R', IsRegion (ofMG s.graph cn cp) s.tree root R →
        IsRegion (ofMG s'.graph cn cp) s'.tree (ρ root) R' → RegionRenamed ρ R R' := by
  obtain ⟨hg, hh, hf, -⟩ := C90_history_partial h2m hmax hs
  obtain ⟨s', e, -, -, -, ⟨r, h1, h2⟩, hk⟩ := C90_step_partial h2m hmax hg hh hlen hf hok
  have hs' : MBReach maxOff s' := .step hs hlen hok e
  cases r <;> try exact h2.elim
  exact ⟨s', e, hs', fun root hroot R R' hR hR' =>
    region_renamed h2m hmax hs hs' h2 (fun n _ => hk n) hroot hR hR'⟩

/-- **C91** Removing a node takes it, and all that was below it, out of the other regions, and the links at these nodes;
nothing else changes. -/
theorem C91_remove_partial (h2m : 2 ≤ maxOff) (hmax : maxOff ≤ 32767) (hs : MBReach maxOff s)
    (hlen : s.graph.graph.nodeMeta.length ≤ 2 ^ 31) {n : Nat} {swap : Bool} {extra : Nat}
    (hok : (MCall.graph (.removeNode n) swap extra).ok maxOff s) :
    ∃ s', mstep maxOff s (.graph (.removeNode n) swap extra) = some s' ∧ MBReach maxOff s' ∧
      ∀ root, root ≠ n → ∀ R Rn R', IsRegion (ofMG s.graph cn cp) s.tree root R → IsRegion (ofMG s.graph cn cp) s.tree n Rn →
        IsRegion (ofMG s'.graph cn cp) s'.tree root R' →
        (∀ x, R'.containsNode x = true ↔
          R.containsNode x = true ∧ ¬ (R.containsNode n = true ∧ Rn.containsNode x = true)) ∧
        ∀ e f, R'.Shows e f ↔ R.Shows e f ∧ (∃ x, R.On e x ∧ R'.containsNode x = true) ∧
          ∃ y, R.On f y ∧ R'.containsNode y = true := by
  obtain ⟨hg, hh, hf, -⟩ := C90_history_partial h2m hmax hs
  obtain ⟨s', e, -, -, -, ⟨r, h1, h2⟩, k1, k2⟩ := C90_step_partial h2m hmax hg hh hlen hf hok
  have hs' : MBReach maxOff s' := .step hs hlen hok e
  obtain ⟨hg', hh', -, -⟩ := C90_history_partial h2m hmax hs'
  cases r <;> try exact h2.elim
  obtain ⟨h3, h4, h5, -⟩ := h2
  obtain ⟨v, -⟩ := hh.inv
  have hanc := fun {root} (hr : root ≠ n) => anc_removed v.forest k1 k2 hr
  refine ⟨s', e, hs', fun root hr R Rn R' hR hRn hR' => ⟨fun x => ?_, fun x y => ?_⟩⟩
  · rw [region_inside hh' hR', region_inside hh hR, region_inside hh hR, region_inside hh hRn, hanc hr]
  · have hne : ∀ x, Anc s'.tree.kids root x → x ≠ n := by
      rintro x hx rfl
      obtain ⟨h6, h7⟩ := (hanc hr _).1 hx
      exact h7 ⟨h6, .refl _⟩
    have hon : ∀ x m, R.On x m ↔ s.graph.graph.portNode x.1 = some m := by
      obtain ⟨inside, nodes, f0, -, -, rfl⟩ := hR
      exact fun x m => Iff.rfl
    simp only [mregion_link h2m hmax hs hR, mregion_link h2m hmax hs' hR', region_inside hh' hR', hon, h4, h5]
    constructor
    · rintro ⟨⟨h6, -, -⟩, ⟨z, ⟨h7, -⟩, h8⟩, w, ⟨h9, -⟩, h10⟩
      exact ⟨⟨h6, ⟨z, h7, ((hanc hr _).1 h8).1⟩, w, h9, ((hanc hr _).1 h10).1⟩, ⟨z.1, h7.2.1, h8⟩, w.1, h9.2.1, h10⟩
    · rintro ⟨⟨h6, ⟨z, h7, -⟩, w, h9, -⟩, ⟨z', h8, h8'⟩, w', h10, h10'⟩
      have e1 := h7.2.1
      rw [h8] at e1
      have e2 := h9.2.1
      rw [h10] at e2
      cases e1; cases e2
      refine ⟨⟨h6, fun z2 hz2 => ?_, fun w2 hw2 => ?_⟩, ⟨z, ⟨h7, hne _ h8'⟩, h8'⟩, w, ⟨h9, hne _ h10'⟩, h10'⟩
      · have := hz2.2.1
        rw [h8] at this
        rw [← Option.some.inj this]
        exact hne _ h8'
      · have := hw2.2.1
        rw [h10] at this
        rw [← Option.some.inj this]
        exact hne _ h10'

/-- **C91** The other calls of the graph, but `clear`, leave the nodes of every region as they are; `add_node` and
`compact_ports` also keep its links, the latter under the new names of the ports. -/
theorem C91_same_partial (h2m : 2 ≤ maxOff) (hmax : maxOff ≤ 32767) (hs : MBReach maxOff s)
    (hlen : s.graph.graph.nodeMeta.length ≤ 2 ^ 31) {op : MOp} {swap : Bool} {extra : Nat}
    (hok : (MCall.graph op swap extra).ok maxOff s) (h1 : ∀ n, op ≠ .removeNode n) (h2 : ∀ a b, op ≠ .swapNodes a b)
    (h3 : op ≠ .compactNodes) (h4 : op ≠ .clear) :
    ∃ s', mstep maxOff s (.graph op swap extra) = some s' ∧ MBReach maxOff s' ∧
      ∀ root R R', IsRegion (ofMG s.graph cn cp) s.tree root R → IsRegion (ofMG s'.graph cn cp) s'.tree root R' →
        R'.nodes = R.nodes ∧ (∀ n, R'.containsNode n = R.containsNode n) ∧
        (∀ i o, op = .addNode i o → s.graph.obs.node root → ∀ e f, R'.Shows e f ↔ R.Shows e f) ∧
        (op = .compactPorts → ∃ π : Nat → Nat,
          ∀ e' f', R'.Shows e' f' ↔ ∃ p k q l, R.Shows (p, k) (q, l) ∧ e' = (π p, k) ∧ f' = (π q, l)) := by
  obtain ⟨hg, hh, hf, -⟩ := C90_history_partial h2m hmax hs
  obtain ⟨s', e, -, -, -, ⟨r, h5, h6⟩, hk⟩ := C90_step_partial h2m hmax hg hh hlen hf hok
  have hs' : MBReach maxOff s' := .step hs hlen hok e
  obtain ⟨hg', hh', -, -⟩ := C90_history_partial h2m hmax hs'
  have hkids : s'.tree.kids = s.tree.kids := by
    cases op <;> first
      | exact hk
      | exact absurd rfl (h1 _)
      | exact absurd rfl (h2 _ _)
      | exact absurd rfl h3
      | exact absurd rfl h4
  refine ⟨s', e, hs', fun root R R' hR hR' => ⟨?_, fun n => ?_, ?_, ?_⟩⟩
  · obtain ⟨m, h7⟩ := region_nodes hh hR
    obtain ⟨m', h8⟩ := region_nodes hh' hR'
    rw [h7 (max m m') (Nat.le_max_left _ _), h8 (max m m') (Nat.le_max_right _ _), hkids]
  · rw [Bool.eq_iff_iff, region_inside hh' hR', region_inside hh hR, hkids]
  · rintro i o rfl hroot x y
    cases r <;> try exact h6.elim
    rename_i n
    obtain ⟨g1, g2, g3, -, -, g4, -⟩ := h6
    have hnode : ∀ x, Anc s.tree.kids root x → x ≠ n := by
      rintro x hx rfl
      cases hx with
      | refl => exact g1 hroot
      | step _ hm => exact g1 (hf _ (.inl ⟨_, hm⟩))
    rw [mregion_link h2m hmax hs hR, mregion_link h2m hmax hs' hR', hkids, g4]
    refine and_congr_right fun _ => and_congr ?_ ?_ <;>
      exact exists_congr fun z => and_congr_left fun hz => g3 _ _ (hnode _ hz)
  · rintro rfl
    cases r <;> try exact h6.elim
    obtain ⟨π, hren, -⟩ := h6
    have hw := (C39_shows_a_multigraph_partial h2m hmax hg 0 0).1
    refine ⟨π, fun x y => ?_⟩
    simp only [mregion_link h2m hmax hs hR, mregion_link h2m hmax hs' hR', hkids, hren.link]
    constructor
    · rintro ⟨⟨p, k, q, l, g1, rfl, rfl⟩, ⟨z, g2, g3⟩, w, g4, g5⟩
      refine ⟨p, k, q, l, ⟨g1, ?_, ?_⟩, rfl, rfl⟩
      · obtain ⟨x', hx'⟩ := hw.sub_port _ (hw.link_sub _ _ g1)
        obtain ⟨p', n, d, j, g6, g7, rfl⟩ := (hren.pos _ _).1 g2
        rw [← hren.port_inj _ _ _ _ hx' g6 g7] at g6
        exact ⟨_, g6, g3⟩
      · obtain ⟨x', hx'⟩ := hw.sub_port _ (hw.link_sub _ _ (hw.link_sym _ _ g1))
        obtain ⟨p', n, d, j, g6, g7, rfl⟩ := (hren.pos _ _).1 g4
        rw [← hren.port_inj _ _ _ _ hx' g6 g7] at g6
        exact ⟨_, g6, g5⟩
    · rintro ⟨p, k, q, l, ⟨g1, ⟨⟨n, d, j⟩, g2, g3⟩, ⟨n', d', j'⟩, g4, g5⟩, rfl, rfl⟩
      exact ⟨⟨p, k, q, l, g1, rfl, rfl⟩, ⟨_, (hren.pos _ _).2 ⟨p, n, d, j, g2, rfl, rfl⟩, g3⟩, _,
        (hren.pos _ _).2 ⟨q, n', d', j', g4, rfl, rfl⟩, g5⟩

end

/-! ## The hypotheses can be met -/

example := C91_region_partial (maxOff := 32767) (cn := 8) (cp := 8) (by decide) exS_reach (root := 1) (by decide +kernel)
example := C91_multi_region_partial (maxOff := 32767) (cn := 8) (cp := 8) (by decide) (by decide) exMF_reach (root := 1)
  (obs_node.2 (by unfold VNode; decide +kernel))
example := C91_multi_flat_partial (maxOff := 32767) (cn := 8) (cp := 8) (by decide) (by decide) exMF_reach (root := 1)
  (obs_node.2 (by unfold VNode; decide +kernel)) true
example := C91_compact_partial (maxOff := 32767) (cn := 8) (cp := 8) (by decide) (by decide) exMF_reach (by decide +kernel)
  (swap := false) (extra := 0) ⟨trivial, .inr exMF_stays⟩
example := C91_swap_partial (maxOff := 32767) (cn := 8) (cp := 8) (by decide) (by decide) exMF_reach (by decide +kernel)
  (a := 1) (b := 5) (swap := false) (extra := 0) ⟨by simp only [MOp.ok]; decide +kernel, trivial⟩
example := C91_remove_partial (maxOff := 32767) (cn := 8) (cp := 8) (by decide) (by decide) exMF_reach (by decide +kernel)
  (n := 2) (swap := false) (extra := 0) ⟨by simp only [MOp.ok]; decide +kernel, by decide⟩
example := C91_same_partial (maxOff := 32767) (cn := 8) (cp := 8) (by decide) (by decide) exMF_reach (by decide +kernel)
  (op := .addNode 1 1) (swap := false) (extra := 0) ⟨⟨by decide, by decide⟩, trivial⟩ (by simp) (by simp) (by simp) (by simp)
example := C91_portgraph_compact_partial (maxOff := 32767) (cn := 8) (cp := 8) (by decide) exS_reach (by decide +kernel)
  (swap := false) (.inr exS_stays) 0
example := C91_portgraph_swap_partial (maxOff := 32767) (cn := 8) (cp := 8) (by decide) exS_reach (by decide +kernel)
  (a := 1) (b := 3) (by decide +kernel)
example := C91_portgraph_remove_partial (maxOff := 32767) (cn := 8) (cp := 8) (by decide) exS_reach (by decide +kernel)
  (n := 3) (by decide)
example := C91_portgraph_flat_partial (maxOff := 32767) (cn := 8) (cp := 8) (by decide) exS_reach (root := 1) (by decide +kernel) true
example := C91_portgraph_same_partial (maxOff := 32767) (cn := 8) (cp := 8) (by decide) exS_reach (by decide +kernel)
  (c := .addNode 2 1) ⟨by decide, by decide⟩ (.inl ⟨2, 1, rfl⟩)
/-- The regions of these examples. -/
example : regionNodes exMF.tree 1 9 = some [1, 2, 5] ∧ ((mrun exMF [.graph .compactNodes false 0]).bind fun s =>
    regionNodes s.tree 0 9) = some [0, 1, 4] ∧ ((mrun exMF [.graph (.removeNode 2) false 0]).bind fun s =>
    regionNodes s.tree 1 9) = some [1] := by decide +kernel

#print axioms C91_region_partial
#print axioms C91_multi_region_partial
#print axioms C91_portgraph_compact_partial
#print axioms C91_portgraph_swap_partial
#print axioms C91_portgraph_remove_partial
#print axioms C91_portgraph_flat_partial
#print axioms C91_portgraph_same_partial
#print axioms C91_multi_flat_partial
#print axioms C91_compact_partial
#print axioms C91_swap_partial
#print axioms C91_remove_partial
#print axioms C91_same_partial

end Verif.Follow
