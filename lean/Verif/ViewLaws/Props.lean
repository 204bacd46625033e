import Verif.ViewLaws.Spec
import Verif.View.Props
import Verif.Multi.ViewOk

/-!
# C63: the laws of graph views
-/

namespace Verif.View

open Verif (Direction)
open Verif.PG Verif.Hier

variable {E : Type} {G A B : GView E} {h : Hierarchy}

attribute [local ext] GView

/-- **C63** A view is determined by its ports, its nodes and the links of its ports: all other
queries of two views that agree on these agree as well. -/
theorem C63_determined (ha : A.Ok) (hb : B.Ok) (hp : SamePorts A B) (hn : ∀ n, A.containsNode n = B.containsNode n)
    (hl : ∀ p, A.portLinks p = B.portLinks p) : SameGraph A B := by
  have hcp : ∀ p, A.containsPort p = B.containsPort p := by
    intro p
    rw [Bool.eq_iff_iff, ha.port_iff, hb.port_iff]
    simp only [hp.portNode, hn]
  have hnodes : A.nodes.Perm B.nodes := by
    rw [List.perm_ext_iff_of_nodup ha.nodes_nodup hb.nodes_nodup]
    intro n
    rw [ha.mem_nodes, hb.mem_nodes, hn]
  have hiter : A.portsIter.Perm B.portsIter := by
    rw [List.perm_ext_iff_of_nodup ha.iter_nodup hb.iter_nodup]
    intro n
    rw [ha.mem_iter, hb.mem_iter, hcp]
  have hall : ∀ n, A.allPorts n = B.allPorts n := fun n => by
    rw [ha.all_ports, hb.all_ports, hp.ports, hp.ports]
  have hlf : A.portLinks = B.portLinks := funext hl
  have hlinks : ∀ n d, A.links n d = B.links n d := fun n d => by
    rw [ha.links_eq, hb.links_eq, hp.ports, hlf]
  have hal : ∀ n, A.allLinks n = B.allLinks n := fun n => by
    rw [ha.all_links, hb.all_links, hall, hlf]
    simp only [hp.portNode, hp.portDirection, hp.toPort]
  exact
  { hp with
    containsNode := hn
    containsPort := hcp
    nodes := hnodes
    nodeCount := by rw [ha.node_count, hb.node_count, hnodes.length_eq]
    portsIter := hiter
    portCount := by rw [ha.port_count, hb.port_count, hiter.length_eq]
    allPorts := hall
    numPorts := fun n d => by rw [ha.num_ports, hb.num_ports, hp.ports]
    portLinks := hl
    links := hlinks
    allLinks := hal
    getConnections := fun a b => by
      rw [ha.connections, hb.connections, hlinks]
      simp only [hp.portNode, hp.toPort]
    neighbours := fun n d hc => by
      have h1 := ha.neighbours_eq n d hc
      have h2 := hb.neighbours_eq n d (hn n ▸ hc)
      rw [hlinks] at h1
      simp only [hp.portNode, hp.toPort] at h1
      exact List.map_injective_iff.2 (Option.some_injective _) (h1.trans h2.symm)
    allNeighbours := fun n hc => by
      have h1 := ha.all_neighbours n hc
      have h2 := hb.all_neighbours n (hn n ▸ hc)
      rw [hal] at h1
      simp only [hp.portNode, hp.toPort] at h1
      exact List.map_injective_iff.2 (Option.some_injective _) (h1.trans h2.symm) }

/-- **C63** Filtering a filtered graph is filtering once with both conditions: all answers are the
same, with their order and with the counts and capacities. -/
theorem C63_filter_filter (G : GView E) (nf lf nf' lf' : Nat → Bool) :
    (G.filtered nf lf).filtered nf' lf' = G.filtered (fun n => nf n && nf' n) (fun p => lf p && lf' p) := by
  have hpf : ∀ f p, (G.filtered nf lf).portFilter f p = G.portFilter f p := fun _ _ => rfl
  have hp : ∀ p, (G.portFilter nf p && G.portFilter nf' p) = G.portFilter (fun n => nf n && nf' n) p := by
    intro p
    unfold GView.portFilter
    cases G.portNode p <;> rfl
  have hlk : ∀ l, (G.linkFilter nf lf l && (G.filtered nf lf).linkFilter nf' lf' l) =
      G.linkFilter (fun n => nf n && nf' n) (fun p => lf p && lf' p) l := by
    intro l
    unfold GView.linkFilter
    simp only [hpf, ← hp]
    show (_ && (G.portFilter nf' (G.toPort l.1) && G.portFilter nf' (G.toPort l.2) && lf' (G.toPort l.1) && lf' (G.toPort l.2))) = _
    cases G.portFilter nf (G.toPort l.1) <;> cases G.portFilter nf (G.toPort l.2) <;> cases lf (G.toPort l.1) <;>
      cases lf (G.toPort l.2) <;> cases G.portFilter nf' (G.toPort l.1) <;> cases G.portFilter nf' (G.toPort l.2) <;>
      cases lf' (G.toPort l.1) <;> cases lf' (G.toPort l.2) <;> rfl
  have hn : (G.nodes.filter nf).filter nf' = G.nodes.filter fun n => nf n && nf' n := by
    rw [List.filter_filter]; congr 1; funext n; exact Bool.and_comm _ _
  have hpi : (G.portsIter.filter (G.portFilter nf)).filter (G.portFilter nf') =
      G.portsIter.filter (G.portFilter fun n => nf n && nf' n) := by
    rw [List.filter_filter]; congr 1; funext n; rw [← hp]; exact Bool.and_comm _ _
  have hlf : ∀ l : List (E × E), (l.filter (G.linkFilter nf lf)).filter ((G.filtered nf lf).linkFilter nf' lf') =
      l.filter (G.linkFilter (fun n => nf n && nf' n) (fun p => lf p && lf' p)) := by
    intro l
    rw [List.filter_filter]; congr 1; funext x; rw [← hlk]; exact Bool.and_comm _ _
  have hsub : ∀ l : List E, (l.filter fun e => G.portFilter nf (G.toPort e)).filter (fun e => G.portFilter nf' (G.toPort e)) =
      l.filter fun e => G.portFilter (fun n => nf n && nf' n) (G.toPort e) := by
    intro l
    rw [List.filter_filter]; congr 1; funext x; rw [← hp]; exact Bool.and_comm _ _
  apply GView.ext <;> try rfl
  · funext n; exact Bool.and_assoc _ _ _
  · funext p
    simp only [GView.filtered]
    rcases Bool.eq_false_or_eq_true (G.containsPort p) with hc | hc <;> simp only [hc, if_true] <;>
      rcases hm : G.portNode p with _ | n <;> simp
    cases G.containsNode n <;> cases nf n <;> simp
  · exact congrArg (fun l : List Nat => decide (l.length = 0)) hn
  · exact congrArg List.length hn
  · exact congrArg List.length hpi
  · show List.length (((G.nodes.filter nf).filter nf').flatMap fun n =>
      ((G.allLinks n).filter (G.linkFilter nf lf)).filter ((G.filtered nf lf).linkFilter nf' lf')) = _
    rw [hn]
    simp only [hlf]
    rfl
  · exact hn
  · exact hpi
  · funext a b; exact hlf _
  · funext a; exact hlf _
  · funext a b; exact hlf _
  · funext a; exact hlf _
  · funext a b
    exact congrArg (List.filterMap fun l => G.portNode (G.toPort l.2)) (hlf _)
  · funext a
    exact congrArg (List.filterMap fun l => G.portNode (G.toPort l.2)) (hlf _)
  · funext n d; exact hsub _
  · funext n; exact hsub _
  · funext e
    simp only [GView.filtered]
    rcases Bool.eq_false_or_eq_true (lf (G.toPort e)) with h1 | h1 <;>
      rcases Bool.eq_false_or_eq_true (lf' (G.toPort e)) with h2 | h2 <;> simp only [h1, h2] <;>
      rcases hm : G.subportLink e with _ | f <;> simp
    rcases Bool.eq_false_or_eq_true (lf (G.toPort f)) with h3 | h3 <;> simp [h3]

/-- **C63** A filter that lets everything pass changes nothing that is compared by `SameGraph`. -/
theorem C63_filter_true (ok : G.Ok) : SameGraph (G.filtered (fun _ => true) fun _ => true) G := by
  refine C63_determined (filtered_ok ok _ _) ok ⟨fun _ => rfl, fun _ => rfl, fun _ => rfl, fun _ => rfl, fun _ _ _ => rfl,
    fun _ _ => rfl⟩ (fun n => Bool.and_true _) fun p => ?_
  show (G.portLinks p).filter _ = _
  rw [List.filter_eq_self]
  rintro ⟨e, f⟩ hm
  have hs : G.Shows e f := by unfold GView.Shows; rw [ok.from_port p e f hm]; exact hm
  obtain ⟨n, d, m, h1, -, -, h2, -, -⟩ := ok.shows_dir e f hs
  unfold GView.On at h1 h2
  simp [GView.linkFilter, GView.portFilter, h1, h2]

/-- The general law behind the nesting of regions and subgraphs. -/
theorem restrict_restrict {inside inside' : Nat → Bool} {nodes nodes' : List Nat} {c c' : Nat} {b b' : Bool}
    (hsub : ∀ n, inside' n = true → inside n = true) :
    (G.restrict inside nodes c b).restrict inside' nodes' c' b' = G.restrict inside' nodes' c' b' := by
  have hp : ∀ p, (G.insidePort inside p && G.insidePort inside' p) = G.insidePort inside' p := by
    intro p
    unfold GView.insidePort
    cases hc : G.portNode p with
    | none => rfl
    | some n => cases hn : inside' n <;> simp [hn, hsub n]
  have hip : ∀ p, (G.restrict inside nodes c b).insidePort inside' p = G.insidePort inside' p := fun _ => rfl
  have hil : ∀ l, (G.restrict inside nodes c b).insideLink inside' l = G.insideLink inside' l := fun _ => rfl
  have hl : ∀ l : List (E × E), (l.filter (G.insideLink inside)).filter (G.insideLink inside') =
      l.filter (G.insideLink inside') := by
    intro l
    rw [List.filter_filter]; congr 1; funext x
    unfold GView.insideLink
    rw [← hp (G.toPort x.1), ← hp (G.toPort x.2)]
    cases G.insidePort inside (G.toPort x.1) <;> cases G.insidePort inside (G.toPort x.2) <;>
      cases G.insidePort inside' (G.toPort x.1) <;> cases G.insidePort inside' (G.toPort x.2) <;> rfl
  have hn : ∀ l : List Nat, (l.filter inside).filter inside' = l.filter inside' := by
    intro l
    rw [List.filter_filter]; congr 1; funext x
    cases hx : inside' x <;> simp [hsub x, hx]
  have hs : ∀ l : List E, (l.filter fun e => G.insidePort inside (G.toPort e)).filter (fun e => G.insidePort inside' (G.toPort e)) =
      l.filter fun e => G.insidePort inside' (G.toPort e) := by
    intro l
    rw [List.filter_filter]; congr 1; funext x; rw [Bool.and_comm]; exact hp _
  apply GView.ext <;> try rfl
  · exact congrArg List.length (congrArg (List.flatMap · nodes') (funext fun n => hl _))
  · show G.nodeCapacity - G.nodeCount + c - c + c' = G.nodeCapacity - G.nodeCount + c'
    omega
  · show G.portCapacity - G.portCount + (nodes.flatMap G.allPorts).length - (nodes.flatMap G.allPorts).length +
      (nodes'.flatMap G.allPorts).length = G.portCapacity - G.portCount + (nodes'.flatMap G.allPorts).length
    omega
  · funext x y
    simp only [GView.restrict]
    cases hx : inside' x <;> cases hy : inside' y <;> simp [hsub x, hsub y, hx, hy]
  · funext p; exact hl _
  · funext n d; exact hl _
  · funext n; exact hl _
  · funext n d; exact hn _
  · funext n; exact hn _
  · funext n d; exact hs _
  · funext n; exact hs _
  · funext e
    show ((G.subportLink e).filter fun f => G.insidePort inside (G.toPort f)).filter
      (fun f => G.insidePort inside' (G.toPort f)) = (G.subportLink e).filter fun f => G.insidePort inside' (G.toPort f)
    cases hf : G.subportLink e with
    | none => rfl
    | some f =>
      have := hp (G.toPort f)
      cases h1 : G.insidePort inside (G.toPort f) <;> cases h2 : G.insidePort inside' (G.toPort f) <;>
        simp_all [Option.filter]

/-- **C63** A subgraph of a subgraph is the subgraph of the graph. -/
theorem C63_subgraph_subgraph {nodes nodes' : List Nat} (hsub : ∀ n ∈ nodes', n ∈ nodes) :
    (G.subgraph nodes).subgraph nodes' = G.subgraph nodes' := by
  have := restrict_restrict (G := G) (inside := (nodes.contains ·)) (inside' := (nodes'.contains ·)) (nodes := nodes)
    (nodes' := nodes') (c := nodes.length) (c' := nodes'.length) (b := nodes.isEmpty) (b' := nodes'.isEmpty)
    (fun n hn => by simpa using hsub n (by simpa using hn))
  have h2 : (G.subgraph nodes).subgraph nodes' =
    { (G.restrict (nodes.contains ·) nodes nodes.length nodes.isEmpty).restrict (nodes'.contains ·) nodes' nodes'.length
        nodes'.isEmpty with subports := G.subports, allSubports := G.allSubports } := rfl
  rw [h2, this]
  rfl

/-- **C63** The region below a node of a region is the region of the graph. -/
theorem C63_region_region {inside inside' : Nat → Bool} {nodes nodes' : List Nat} {root root' : Nat}
    (hi : ∀ n, inside n = true ↔ Anc h.kids root n) (hi' : ∀ n, inside' n = true ↔ Anc h.kids root' n)
    (hroot : Anc h.kids root root') : (G.region inside nodes).region inside' nodes' = G.region inside' nodes' :=
  restrict_restrict fun n hn => (hi n).2 (hroot.trans ((hi' n).1 hn))

/-- **C63** The flat region at a node of a region is the flat region of the graph. -/
theorem C63_flat_region {inside : Nat → Bool} {nodes : List Nat} {root root' : Nat} {withRoot : Bool} (hr : Hier.Reach h)
    (hi : ∀ n, inside n = true ↔ Anc h.kids root n) (hroot : Anc h.kids root root') :
    (G.region inside nodes).flatRegion h root' withRoot = G.flatRegion h root' withRoot :=
  restrict_restrict fun n hn => by
    rcases (flatInside_iff hr).1 hn with ⟨-, rfl⟩ | hk
    · exact (hi _).2 hroot
    · exact (hi _).2 (hroot.trans (.step (.refl _) hk))

/-! ## The views of the library against the filtered graph -/

theorem restrict_filtered (ok : G.Ok) {inside : Nat → Bool} {nodes : List Nat} {c : Nat} {b : Bool}
    (hin : ∀ n, inside n = true → G.containsNode n = true) (hr : (G.restrict inside nodes c b).Ok) :
    SameGraph (G.restrict inside nodes c b) (G.nodeFiltered inside) := by
  refine C63_determined hr (filtered_ok ok _ _) ⟨fun _ => rfl, fun _ => rfl, fun _ => rfl, fun _ => rfl, fun _ _ _ => rfl,
    fun _ _ => rfl⟩ (fun n => ?_) fun p => ?_
  · show inside n = (G.containsNode n && inside n)
    cases hn : inside n <;> simp [hin n, hn]
  · show (G.portLinks p).filter _ = (G.portLinks p).filter _
    congr 1
    funext l
    simp only [GView.insideLink, GView.linkFilter, Bool.and_true]
    rfl

/-- **C63** A subgraph shows the same graph as the graph filtered by its nodes. -/
theorem C63_subgraph_filter (ok : G.Ok) {nodes : List Nat} (hnd : nodes.Nodup) (hin : ∀ n ∈ nodes, G.containsNode n = true) :
    SameGraph (G.subgraph nodes) (G.nodeFiltered (nodes.contains ·)) := by
  have h1 : (G.restrict (nodes.contains ·) nodes nodes.length nodes.isEmpty).Ok :=
    restrict_ok ok _ (fun n h => hin n (by simpa using h)) hnd (fun n => by simp) rfl
  have := restrict_filtered ok (fun n h => hin n (by simpa using h)) h1
  exact { this with }

/-- **C63** A region shows the same graph as the graph filtered by the nodes below its root. -/
theorem C63_region_filter (ok : G.Ok) (hr : Hier.Reach h) {root : Nat} {inside : Nat → Bool}
    (hins : ∀ n, inside n = true ↔ Anc h.kids root n) (hin : ∀ n, Anc h.kids root n → G.containsNode n = true) :
    ∃ nodes f0, (∀ f, f0 ≤ f → regionNodes h root f = some nodes) ∧
      SameGraph (G.region inside nodes) (G.nodeFiltered inside) := by
  obtain ⟨nodes, f0, h1, -, -, -, h2, -⟩ := C38_region ok hr hins hin
  exact ⟨nodes, f0, h1, restrict_filtered ok (fun n hn => hin n ((hins n).1 hn)) h2⟩

/-- **C63** A flat region shows the same graph as the graph filtered by the children of its root,
with the root if asked for. -/
theorem C63_flat_filter (ok : G.Ok) (hr : Hier.Reach h) {root : Nat} {withRoot : Bool}
    (hroot : withRoot = true → G.containsNode root = true) (hkids : ∀ n ∈ h.kids root, G.containsNode n = true)
    {nf : Nat → Bool} (hnf : ∀ n, nf n = true ↔ (withRoot = true ∧ n = root) ∨ n ∈ h.kids root) :
    SameGraph (G.flatRegion h root withRoot) (G.nodeFiltered nf) := by
  have he : nf = flatInside h root withRoot := by
    funext n
    rw [Bool.eq_iff_iff, hnf, flatInside_iff hr]
  rw [he]
  refine restrict_filtered ok (fun n hn => ?_) (C38_flat_region ok hr hroot hkids).2.2.1
  rcases (flatInside_iff hr).1 hn with ⟨h1, rfl⟩ | h1
  · exact hroot h1
  · exact hkids n h1

/-! ## Congruence -/

/-- **C63** Filters respect this equality, -/
theorem C63_filter_congr (ha : A.Ok) (hb : B.Ok) (s : SameGraph A B) (nf lf : Nat → Bool) :
    SameGraph (A.filtered nf lf) (B.filtered nf lf) := by
  refine C63_determined (filtered_ok ha _ _) (filtered_ok hb _ _) ⟨s.toPort, s.portNode, s.portDirection, s.portOffset,
    s.portIndex, s.ports⟩ (fun n => ?_) fun p => ?_
  · show (_ && _) = (_ && _)
    rw [s.containsNode]
  · show (A.portLinks p).filter _ = (B.portLinks p).filter _
    rw [s.portLinks]
    congr 1
    funext l
    simp only [GView.linkFilter, GView.portFilter, s.toPort, s.portNode]

/-- **C63** and so do subgraphs -/
theorem C63_subgraph_congr (ha : A.Ok) (hb : B.Ok) (s : SameGraph A B) {nodes : List Nat} (hnd : nodes.Nodup)
    (hin : ∀ n ∈ nodes, A.containsNode n = true) : SameGraph (A.subgraph nodes) (B.subgraph nodes) := by
  refine C63_determined (subgraph_ok ha hnd hin) (subgraph_ok hb hnd fun n hn => s.containsNode n ▸ hin n hn) ⟨s.toPort, s.portNode, s.portDirection, s.portOffset,
    s.portIndex, s.ports⟩ (fun n => rfl) fun p => ?_
  show (A.portLinks p).filter _ = (B.portLinks p).filter _
  rw [s.portLinks]
  congr 1
  funext l
  simp only [GView.insideLink, GView.insidePort, s.toPort, s.portNode]

/-- **C63** A filter on a subgraph shows the same graph as the subgraph of the nodes that pass the
filter, with the links that pass. -/
theorem C63_filter_subgraph (ok : G.Ok) {nodes : List Nat} (hnd : nodes.Nodup) (hin : ∀ n ∈ nodes, G.containsNode n = true)
    (nf lf : Nat → Bool) :
    SameGraph ((G.subgraph nodes).filtered nf lf) ((G.filtered nf lf).subgraph (nodes.filter nf)) := by
  have hin' : ∀ n ∈ nodes.filter nf, (G.filtered nf lf).containsNode n = true := by
    intro n hn
    rw [List.mem_filter] at hn
    show (_ && _) = true
    rw [hin n hn.1, hn.2]; rfl
  refine C63_determined (filtered_ok (subgraph_ok ok hnd hin) _ _) (subgraph_ok (filtered_ok ok _ _) (hnd.filter _) hin')
    ⟨fun _ => rfl, fun _ => rfl, fun _ => rfl, fun _ => rfl, fun _ _ _ => rfl, fun _ _ => rfl⟩ (fun n => ?_) fun p => ?_
  · show (nodes.contains n && nf n) = (nodes.filter nf).contains n
    rw [Bool.eq_iff_iff, Bool.and_eq_true]
    simp
  · show ((G.portLinks p).filter (G.insideLink (nodes.contains ·))).filter (G.linkFilter nf lf) =
      ((G.portLinks p).filter (G.linkFilter nf lf)).filter (G.insideLink ((nodes.filter nf).contains ·))
    rw [List.filter_filter, List.filter_filter]
    congr 1
    funext l
    rw [Bool.eq_iff_iff]
    simp only [GView.linkFilter, GView.insideLink, Bool.and_eq_true, insidePort_iff, portFilter_iff, List.contains_iff_mem, List.mem_filter]
    constructor
    · rintro ⟨⟨⟨⟨⟨n, h1, h2⟩, m, h3, h4⟩, h5⟩, h6⟩, ⟨n', h7, h8⟩, m', h9, h10⟩
      cases h1.symm.trans h7; cases h3.symm.trans h9
      exact ⟨⟨⟨_, h1, h8, h2⟩, _, h3, h10, h4⟩, ⟨⟨⟨_, h1, h2⟩, _, h3, h4⟩, h5⟩, h6⟩
    · rintro ⟨⟨⟨n, h1, h8, h2⟩, m, h3, h10, h4⟩, ⟨-, h5⟩, h6⟩
      exact ⟨⟨⟨⟨⟨n, h1, h2⟩, m, h3, h4⟩, h5⟩, h6⟩, ⟨n, h1, h8⟩, m, h3, h10⟩

/-! ## Examples

The diamond `exV` and the forest `exH` of C36 and C38 meet the hypotheses. -/

example : SameGraph (exV.subgraph [3, 1, 2]) (exV.nodeFiltered ([3, 1, 2].contains ·)) :=
  C63_subgraph_filter exV_ok.1 (by decide) (by decide +kernel)

example : (exV.subgraph [3, 1, 2]).nodes = [3, 1, 2] ∧ (exV.nodeFiltered ([3, 1, 2].contains ·)).nodes = [1, 2, 3] ∧
    (exV.subgraph [3, 1, 2]).links 3 .incoming = [(6, 3), (7, 5)] := by decide +kernel

example : (exV.subgraph [3, 1, 2]).subgraph [1, 3] = exV.subgraph [1, 3] := C63_subgraph_subgraph (by decide)

theorem exH_below : Anc exH.kids 0 2 := .step (.refl _) (by decide +kernel)

/-- All nodes below 0 are nodes of `exV`. -/
theorem exH_inside (n : Nat) (h : Anc exH.kids 0 n) : exV.containsNode n = true := by
  have key : ∀ p < 10, ∀ c ∈ exH.kids p, c < 6 ∧ exV.containsNode c = true := by decide +kernel
  have h2 : n < 6 ∧ exV.containsNode n = true := by
    induction h with
    | refl => decide +kernel
    | step h1 hm ih => exact key _ (by omega) _ hm
  exact h2.2

open Classical in
example := C63_region_region (G := exV) (h := exH) (inside := fun n => decide (Anc exH.kids 0 n)) (inside' := fun n => decide (Anc exH.kids 2 n))
  (nodes := [0, 1, 2, 3, 5, 4]) (nodes' := [2, 5, 4]) (by simp) (by simp) exH_below

open Classical in
example := C63_flat_region (G := exV) (h := exH) (inside := fun n => decide (Anc exH.kids 0 n)) (nodes := [0, 1, 2, 3, 5, 4])
  (withRoot := true) exH_reach (by simp) exH_below

open Classical in
example := C63_region_filter exV_ok.1 exH_reach (root := 0) (inside := fun n => decide (Anc exH.kids 0 n)) (by simp) exH_inside

example : (exV.region (fun n => decide (n < 6)) [0, 1, 2, 3, 5, 4]).flatRegion exH 2 true = exV.flatRegion exH 2 true ∧
    (exV.flatRegion exH 2 true).nodes = [2, 5, 4] := by
  refine ⟨restrict_restrict fun n hn => ?_, by decide +kernel⟩
  rcases (flatInside_iff exH_reach).1 hn with ⟨-, rfl⟩ | hk
  · decide
  · have : exH.kids 2 = [5, 4] := by decide +kernel
    rw [this] at hk
    simp only [List.mem_cons, List.not_mem_nil, or_false] at hk
    rcases hk with rfl | rfl <;> decide

example : SameGraph ((exV.subgraph [3, 1, 2]).filtered (· != 2) (· != 3)) ((exV.filtered (· != 2) (· != 3)).subgraph [3, 1]) :=
  C63_filter_subgraph exV_ok.1 (nodes := [3, 1, 2]) (by decide) (by decide +kernel) (· != 2) (· != 3)

example : (exV.filtered (· != 2) fun _ => true).filtered (· != 1) (fun _ => true) =
    exV.filtered (fun n => n != 2 && n != 1) fun _ => true := C63_filter_filter ..

example := C63_determined (A := exV.filtered (fun _ => true) fun _ => true) (filtered_ok exV_ok.1 _ _) exV_ok.1 (C63_filter_true exV_ok.1).toSamePorts
  (C63_filter_true exV_ok.1).containsNode (C63_filter_true exV_ok.1).portLinks

example := C63_filter_true exV_ok.1

example := C63_filter_congr (subgraph_ok exV_ok.1 (nodes := [3, 1, 2]) (by decide) (by decide +kernel)) (filtered_ok exV_ok.1 _ _)
  (C63_subgraph_filter exV_ok.1 (nodes := [3, 1, 2]) (by decide) (by decide +kernel)) (· != 2) (· != 3)

example := C63_subgraph_congr (subgraph_ok exV_ok.1 (nodes := [3, 1, 2]) (by decide) (by decide +kernel)) (filtered_ok exV_ok.1 _ _)
  (C63_subgraph_filter exV_ok.1 (nodes := [3, 1, 2]) (by decide) (by decide +kernel)) (nodes := [1, 3]) (by decide) (by decide +kernel)

example := C63_flat_filter exV_ok.1 exH_reach (root := 2) (withRoot := true) (fun _ => by decide +kernel) (by decide +kernel)
  (nf := fun n => n == 2 || (exH.kids 2).contains n) (by simp)

#print axioms C63_determined
#print axioms C63_filter_filter
#print axioms C63_filter_true
#print axioms C63_subgraph_subgraph
#print axioms C63_region_region
#print axioms C63_flat_region
#print axioms C63_subgraph_filter
#print axioms C63_region_filter
#print axioms C63_flat_filter
#print axioms C63_filter_congr
#print axioms C63_subgraph_congr
#print axioms C63_filter_subgraph

end Verif.View
