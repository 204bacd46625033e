import Verif.Multi.IterLemmas
import Verif.Multi.Props
import Verif.PortGraph.PropsIter

/-!
# The iterators of `MultiPortGraph` step by step (C52)

`Serves` says that any sequence of calls to `next` and `next_back` is answered as from the list, and
that `size_hint` is right at each moment. The lists are those of the view `ofMG`, of which
`C39_shows_a_multigraph_partial` says that they show the multigraph.
-/

namespace Verif.Multi

open Verif (Direction)
open Verif.PG Verif.View

variable {maxOff : Nat} {m : MG}

/-- `nodes_iter`: also `count` and `len` are exact. -/
theorem C52_nodes (h2m : 2 ≤ maxOff) (hmax : maxOff ≤ 32767) (h : MReach maxOff m) :
    Serves (MNodes.next m) (MNodes.nextBack m) (fun s => (s.len, some s.len)) m.nodesIter m.nodes := by
  have hM := h.ok h2m hmax
  have hC : m.nodeCount = m.nodes.length := (ofMG_ok hM 0 0).node_count
  refine serves_of (MNodesR m) mnodes_next mnodes_back ?_ (s := m.nodesIter) (l := m.nodes) ?_
  · rintro s l ⟨l', -, -, h3⟩
    exact ⟨by simp only [h3]; exact Nat.le_refl _, by rintro u ⟨⟩; simp only [h3]; exact Nat.le_refl _⟩
  · exact ⟨_, nodesIter_R hM.inv, rfl, hC⟩

/-- `ports_iter`. -/
theorem C52_ports (h2m : 2 ≤ maxOff) (hmax : maxOff ≤ 32767) (h : MReach maxOff m) :
    Serves (mportsNext m) (mportsBack m) mportsHint m.graph.portsIter m.portsIter := by
  have hM := h.ok h2m hmax
  refine serves_of (MPortsR m) mports_next mports_back ?_ ?_
  · rintro s l ⟨l', h1, -, rfl⟩
    refine ⟨Nat.zero_le _, ?_⟩
    rintro u ⟨⟩
    rw [h1.2]
    exact List.length_filter_le ..
  · refine ⟨_, portsIter_R hM.inv, ?_, rfl⟩
    intro p hp
    obtain ⟨e, he⟩ := (live_at hM.inv).1 (containsPort_iff.1 (List.mem_filter.1 hp).2)
    rw [At.portNode hM.inv he]; rfl

/-! ### Links -/

theorem portLinks_view {p : Nat} (hp : m.containsPort p = true) (hM : MOk m) :
    m.portLinks? p = some ((ofMG m 0 0).portLinks p) := by
  obtain ⟨L, h1, -⟩ := portLinks_spec hM hp
  show _ = some (if m.containsPort p = true then _ else _)
  rw [if_pos hp, h1]; rfl

/-- `port_links` of a shown port. The size hint is right for ports that are linked; missing: for a port
without link it is wrong, see the witness. -/
theorem C52_port_links_partial (h2m : 2 ≤ maxOff) (hmax : maxOff ≤ 32767) (h : MReach maxOff m) {p : Nat}
    (hp : m.containsPort p = true) :
    ∃ c, m.plinks p = some c ∧ Serves (PLinks.next m) (PLinks.nextBack m) noHint c ((ofMG m 0 0).portLinks p) ∧
      ((ofMG m 0 0).portLinks p ≠ [] → Serves (PLinks.next m) (PLinks.nextBack m) PLinks.hint c ((ofMG m 0 0).portLinks p)) := by
  have hM := h.ok h2m hmax
  obtain ⟨c, h1, h2⟩ := plinks_new (portLinks_view hp hM)
  refine ⟨c, h1, serves_of (PLR m) plinks_next plinks_back (fun s l _ => ⟨Nat.zero_le _, by simp [noHint]⟩) h2, fun hne => ?_⟩
  refine serves_of (fun c l => PLR m c l ∧ ∀ q, c = .single q false → l ≠ []) ?_ ?_ ?_ ⟨h2, fun _ _ => hne⟩
  · rintro c l ⟨h3, -⟩
    obtain ⟨c', h5, h6⟩ := plinks_next c l h3
    refine ⟨c', h5, h6, ?_⟩
    rintro q rfl
    exfalso
    cases c with
    | single p e =>
      cases e with
      | false =>
        simp only [PLinks.next] at h5
        split at h5 <;> simp at h5
      | true => simp [PLinks.next] at h5
    | multi p subs =>
      simp only [PLinks.next] at h5
      split at h5 <;> simp at h5
  · rintro c l ⟨h3, -⟩
    obtain ⟨c', h5, h6⟩ := plinks_back c l h3
    refine ⟨c', h5, h6, ?_⟩
    rintro q rfl
    exfalso
    cases c with
    | single p e =>
      cases e with
      | false =>
        simp only [PLinks.nextBack] at h5
        split at h5 <;> simp at h5
      | true => simp [PLinks.nextBack] at h5
    | multi p subs =>
      simp only [PLinks.nextBack] at h5
      split at h5 <;> simp at h5
  · rintro c l ⟨h3, h4⟩
    cases c with
    | single p e =>
      cases e with
      | false =>
        obtain ⟨o, -, rfl⟩ := h3
        cases o with
        | none => exact absurd rfl (h4 p rfl)
        | some x => exact ⟨Nat.le_refl _, by simp [PLinks.hint]⟩
      | true => cases h3; exact ⟨Nat.le_refl _, by simp [PLinks.hint]⟩
    | multi p subs =>
      obtain ⟨os, h5, rfl⟩ := h3
      refine ⟨Nat.zero_le _, ?_⟩
      rintro u ⟨⟩
      have : os.length = subs.length := by
        clear h4
        induction subs generalizing os with
        | nil => cases h5; rfl
        | cons x l ih =>
          obtain ⟨b, bs, -, h6, rfl⟩ := mapM_cons_some.1 h5
          simp [ih _ h6]
      rw [← this]
      exact List.length_filterMap_le ..

/-- **C52 fails** for `port_links` of a port that is not linked: the hint promises one link. -/
theorem C52_witness_port_links : MReach 32767 exM ∧ exM.containsPort 4 = true ∧ exM.portLinks? 4 = some [] ∧
    (exM.plinks 4).map PLinks.hint = some (1, some 1) :=
  ⟨built_reach _, by decide +kernel, by decide +kernel, by decide +kernel⟩

theorem mapM_links {ps : List Nat} (hM : MOk m) (hv : ∀ p ∈ ps, Vis m p) :
    ps.mapM m.portLinks? = some (ps.map (ofMG m 0 0).portLinks) :=
  mapM_some fun p hp => portLinks_view ((vis_iff hM.inv).1 (hv p hp)) hM

theorem links_R (hM : MOk m) {n : Nat} (hn : m.containsNode n = true) (d : Direction) :
    ∃ k, MLR m (m.linksIter n d) ((ofMG m 0 0).links n d) k := by
  have hv := ports_vis (m := m) (n := n) (d := d) (contains_iff.1 hn).2
  refine ⟨_, [], _, rfl, mapM_links hM hv, ?_, rfl⟩
  rw [links_eq hM, List.nil_append, List.flatMap_def, List.filter_eq_self.2]
  · rfl
  · intro y _
    simp [MG.linksIter]

/-- `links(n, d)`, for enough fuel for its loop. -/
theorem C52_links (h2m : 2 ≤ maxOff) (hmax : maxOff ≤ 32767) (h : MReach maxOff m) {n : Nat}
    (hn : m.containsNode n = true) (d : Direction) :
    ∃ N, ∀ fuel, N ≤ fuel → ServesForward (MLinks.next m fuel) noHint (m.linksIter n d) ((ofMG m 0 0).links n d) := by
  obtain ⟨k, h0⟩ := links_R (h.ok h2m hmax) hn d
  refine ⟨k + 1, fun fuel hf => forward_of (fun s l => ∃ k, MLR m s l k ∧ k < fuel) ?_ (fun s l _ => ⟨Nat.zero_le _, by simp [noHint]⟩)
    ⟨_, h0, hf⟩⟩
  rintro s l ⟨k, h1, h2⟩
  obtain ⟨s', k', h3, h4, h5⟩ := mlinks_next fuel h1 h2
  exact ⟨s', h3, k', h4, by omega⟩

/-- `all_links(n)`. -/
theorem C52_all_links (h2m : 2 ≤ maxOff) (hmax : maxOff ≤ 32767) (h : MReach maxOff m) {n : Nat}
    (hn : m.containsNode n = true) :
    ∃ N, ∀ fuel, N ≤ fuel → ServesForward (MLinks.next m fuel) noHint (m.allLinksIter n) ((ofMG m 0 0).allLinks n) := by
  have hM := h.ok h2m hmax
  have hv := allPorts_vis (m := m) (n := n) (contains_iff.1 hn).2
  obtain ⟨x, hx⟩ := Option.isSome_iff_exists.1 (containsNode_iff.1 (contains_iff.1 hn).1)
  have h0 : MLR m (m.allLinksIter n) ((ofMG m 0 0).allLinks n) _ :=
    ⟨[], _, by simp [MG.allLinksIter, hx], (by simp only [MG.allLinksIter, hx]; exact mapM_links hM hv), by
      rw [List.nil_append, ← List.flatMap_def]
      show (if m.containsNode n = true then _ else _) = _
      rw [if_pos hn, MG.allLinks?, linksOf_flatMap (cn := 0) (cp := 0) hM hv]
      simp only [MG.allLinksIter, hx, Option.map_some, Option.getD_some]
      apply List.filter_congr
      intro y _
      simp only [PG.ports, hx, NodeMeta.ports]
      congr 1
      rw [List.contains_eq_mem]
      simp only [List.mem_range'_1], rfl⟩
  refine ⟨_, fun fuel hf => forward_of (fun s l => ∃ k, MLR m s l k ∧ k < fuel) ?_ (fun s l _ => ⟨Nat.zero_le _, by simp [noHint]⟩)
    ⟨_, h0, hf⟩⟩
  rintro s l ⟨k, h1, h2⟩
  obtain ⟨s', k', h3, h4, h5⟩ := mlinks_next fuel h1 h2
  exact ⟨s', h3, k', h4, by omega⟩

/-- `get_connections(a, b)`. -/
theorem C52_connections (h2m : 2 ≤ maxOff) (hmax : maxOff ≤ 32767) (h : MReach maxOff m) {a : Nat}
    (ha : m.containsNode a = true) (b : Nat) :
    ∃ N, ∀ fuel, N ≤ fuel →
      ServesForward (connsNext m b fuel fuel) noHint (m.linksIter a .outgoing) ((ofMG m 0 0).getConnections a b) := by
  have hM := h.ok h2m hmax
  have hG := ofMG_ok hM 0 0
  obtain ⟨k, h0⟩ := links_R hM ha .outgoing
  refine ⟨k + ((ofMG m 0 0).links a .outgoing).length + 1, fun fuel hf =>
    forward_of (MCR m b fuel fuel) (fun s l h => conns_next fuel s l h (Nat.le_refl _)) (fun s l _ => ⟨Nat.zero_le _, by simp [noHint]⟩)
    ⟨_, _, h0, by omega, by omega, ?_, hG.connections a b⟩⟩
  rintro ⟨e, f⟩ hy
  rw [hG.links_eq, List.mem_flatMap] at hy
  obtain ⟨p, -, hp⟩ := hy
  have hp' := hG.from_port _ _ _ hp
  obtain ⟨_, _, x, -, -, -, hx, -⟩ := hG.shows_dir e f (by rw [GView.Shows, hp']; exact hp)
  rw [show m.graph.portNode f.1 = some x from hx]; rfl

/-! ### Subports and neighbours -/

theorem subports_nonempty (hM : MOk m) {ps : List Nat} (hv : ∀ p ∈ ps, Vis m p) {bs} (h : ps.mapM m.subportsAt? = some bs) :
    ps.length ≤ bs.flatten.length := by
  induction ps generalizing bs with
  | nil => simp
  | cons p ps ih =>
    obtain ⟨b, bs, h1, h2, rfl⟩ := mapM_cons_some.1 h
    have := ih (fun q hq => hv q (by simp [hq])) h2
    obtain ⟨L, h3, -, h4⟩ := subportsAt_spec hM ((vis_iff hM.inv).1 (hv p (by simp)))
    rw [h1] at h3; cases h3
    have hb : b ≠ [] := by
      obtain ⟨⟨x, d, i⟩, he, hc⟩ := hv p (by simp)
      cases hm : m.multi p with
      | false =>
        unfold MG.subportsAt? at h1
        rw [hm] at h1; cases h1; simp
      | true =>
        obtain ⟨c, cp, hC, hl⟩ := hM.copy_of_main he hc hm
        obtain ⟨q, hq⟩ := at_iff_lt.2 (show 0 < m.graph.numPorts c d by have := hC.two; omega)
        exact List.ne_nil_of_mem ((h4 (p, 0)).2 ⟨rfl, q, (hM.sub_multi hC hl).2 hq⟩)
    have := List.length_pos_iff.2 hb
    simp only [List.length_cons, List.flatten_cons, List.length_append]
    omega

theorem mapM_length {α β : Type} {f : α → Option β} {l : List α} {r : List β} (h : l.mapM f = some r) : r.length = l.length := by
  induction l generalizing r with
  | nil => cases h; rfl
  | cons a l ih =>
    obtain ⟨b, bs, -, h2, rfl⟩ := mapM_cons_some.1 h
    simp [ih h2]

theorem msubs_ports (f : Nat) {s s' : MSubs} {o} (h : s.next m f = some (o, s')) : ∀ p ∈ s'.ports, p ∈ s.ports := by
  induction f generalizing s with
  | zero => cases h
  | succ f ih =>
    unfold MSubs.next at h
    split at h
    · split at h
      · cases h
      · split at h
        · cases h
        · cases h; exact fun _ hp => hp
    · split at h
      · cases h; exact fun _ hp => hp
      · next p ps he =>
        rw [he]
        split at h
        · split at h
          · exact fun q hq => List.mem_cons_of_mem _ (ih h q hq)
          · cases h
        · cases h
          exact fun q hq => List.mem_cons_of_mem _ hq

theorem subs_serve (hM : MOk m) {ps : List Nat} (hv : ∀ p ∈ ps, Vis m p) {S} (h : m.subportsOf? ps = some S) (fuel : Nat)
    (hf : ps.length < fuel) : ServesForward (MSubs.next m fuel) MSubs.hint (.new ps) S := by
  unfold MG.subportsOf? at h
  rw [Option.map_eq_some_iff] at h
  obtain ⟨bs, h1, rfl⟩ := h
  refine forward_of (fun s l => MSR m s l ∧ s.ports.length < fuel ∧ ∀ p ∈ s.ports, Vis m p) ?_ ?_
    ⟨⟨[], bs, rfl, h1, rfl, by simp [MSubs.new]⟩, hf, hv⟩
  · rintro s l ⟨h2, h3, h4⟩
    obtain ⟨s', h5, h6, h7, -⟩ := msubs_next fuel h2 h3
    exact ⟨s', h5, h6, by omega, fun p hp => h4 p (msubs_ports fuel h5 p hp)⟩
  · rintro s l ⟨⟨a, bs, h2, h3, rfl, -⟩, -, h4⟩
    refine ⟨?_, by simp [MSubs.hint]⟩
    have := subports_nonempty hM h4 h3
    have hl : a.length = s.hi - s.lo := by
      have := mapM_length h2
      simpa using this
    simp only [MSubs.hint, List.length_append]
    omega

/-- `subports(n, d)`: the hint counts one subport for each port to come. -/
theorem C52_subports (h2m : 2 ≤ maxOff) (hmax : maxOff ≤ 32767) (h : MReach maxOff m) {n : Nat}
    (hn : m.containsNode n = true) (d : Direction) (fuel : Nat) (hf : m.graph.numPorts n d < fuel) :
    ServesForward (MSubs.next m fuel) MSubs.hint (.new (m.graph.ports n d)) ((ofMG m 0 0).subports n d) := by
  have hM := h.ok h2m hmax
  obtain ⟨S, h1, h2, -⟩ := subports_spec (cn := 0) (cp := 0) hM hn d
  rw [h2]
  refine subs_serve hM (ports_vis (contains_iff.1 hn).2) h1 fuel ?_
  have := (ofMG_ok hM 0 0).num_ports n d
  exact (show m.graph.numPorts n d = (m.graph.ports n d).length from this) ▸ hf

/-- `all_subports(n)`. -/
theorem C52_all_subports (h2m : 2 ≤ maxOff) (hmax : maxOff ≤ 32767) (h : MReach maxOff m) {n : Nat}
    (hn : m.containsNode n = true) (fuel : Nat)
    (hf : m.graph.numPorts n .incoming + m.graph.numPorts n .outgoing < fuel) :
    ServesForward (MSubs.next m fuel) MSubs.hint (.new (m.graph.allPorts n)) ((ofMG m 0 0).allSubports n) := by
  have hM := h.ok h2m hmax
  obtain ⟨S, h1, -⟩ := allSubports_spec hM hn
  have h2 : (ofMG m 0 0).allSubports n = S := by
    show (if m.containsNode n = true then _ else _) = _
    rw [if_pos hn, h1]; rfl
  rw [h2]
  refine subs_serve hM (allPorts_vis (contains_iff.1 hn).2) h1 fuel ?_
  have hG := ofMG_ok hM 0 0
  have := congrArg List.length (hG.all_ports n)
  rw [List.length_append, ← hG.num_ports, ← hG.num_ports] at this
  exact this ▸ hf

theorem neigh_serve {ps : List Nat} {n : Nat} {ig : Bool} {S os} (h1 : m.subportsOf? ps = some S)
    (h2 : S.mapM (m.neighbourAt? n ig) = some os) {fuel : Nat} (hf : ps.length < fuel) (hf' : S.length < fuel) :
    ServesForward (MNeigh.next m fuel fuel) noHint (.new ps n ig) (os.filterMap id) := by
  unfold MG.subportsOf? at h1
  rw [Option.map_eq_some_iff] at h1
  obtain ⟨bs, h1, rfl⟩ := h1
  exact forward_of (MNR m fuel fuel) (fun s l h => neigh_next fuel s l h (Nat.le_refl _)) (fun s l _ => ⟨Nat.zero_le _, by simp [noHint]⟩)
    ⟨_, os, ⟨[], bs, rfl, h1, rfl, by simp [MNeigh.new, MSubs.new]⟩, hf, hf', by simp [MNeigh.new, MSubs.new], h2, rfl⟩

/-- `neighbours(n, d)`: the copy node that the iterator remembers is always that of the port at hand. -/
theorem C52_neighbours (h2m : 2 ≤ maxOff) (hmax : maxOff ≤ 32767) (h : MReach maxOff m) {n : Nat}
    (hn : m.containsNode n = true) (d : Direction) :
    ∃ N, ∀ fuel, N ≤ fuel →
      ServesForward (MNeigh.next m fuel fuel) noHint (.new (m.graph.ports n d) n false) ((ofMG m 0 0).neighbours n d) := by
  have hM := h.ok h2m hmax
  obtain ⟨S, h1, -, -, h4, -⟩ := subports_spec (cn := 0) (cp := 0) hM hn d
  obtain ⟨L, n1, -⟩ := neighbours_list hM (S := S) (fun e he => ((h4 e).1 he).2) n false
  have e : (ofMG m 0 0).neighbours n d = L.filterMap id := by
    show (if m.containsNode n = true then _ else _) = _
    rw [if_pos hn, MG.neighbours?, h1]
    simp only [n1]; rfl
  rw [e]
  exact ⟨(m.graph.ports n d).length + S.length + 1, fun fuel hf => neigh_serve h1 n1 (by omega) (by omega)⟩

/-- `all_neighbours(n)`. -/
theorem C52_all_neighbours (h2m : 2 ≤ maxOff) (hmax : maxOff ≤ 32767) (h : MReach maxOff m) {n : Nat}
    (hn : m.containsNode n = true) :
    ∃ N, ∀ fuel, N ≤ fuel →
      ServesForward (MNeigh.next m fuel fuel) noHint (.new (m.graph.allPorts n) n true) ((ofMG m 0 0).allNeighbours n) := by
  have hM := h.ok h2m hmax
  obtain ⟨S, h1, -, h4, -⟩ := allSubports_spec hM hn
  obtain ⟨L, n1, -⟩ := neighbours_list hM (S := S) (fun e he => ((h4 e).1 he).2) n true
  have e : (ofMG m 0 0).allNeighbours n = L.filterMap id := by
    show (if m.containsNode n = true then _ else _) = _
    rw [if_pos hn, MG.allNeighbours?, h1]
    simp only [n1]; rfl
  rw [e]
  exact ⟨(m.graph.allPorts n).length + S.length + 1, fun fuel hf => neigh_serve h1 n1 (by omega) (by omega)⟩

/-! ### The iterators of `PortGraph` -/

/-- `NodeLinks::size_hint` of a port graph, `src/portgraph/iter.rs` lines 422–424. -/
def pgHint (s : PG.NodeLinks) : Nat × Option Nat := (0, some s.links.length)

theorem pgHint_ok {s : PG.NodeLinks} {l} (h : LinksR s l) : HintOk (pgHint s) l.length := by
  refine ⟨Nat.zero_le _, ?_⟩
  rintro u ⟨⟩
  rw [← h]
  exact List.length_filterMap_le ..

/-- `links(n, d)` of a port graph, with its size hint. -/
theorem C52_portgraph_links (hmax : maxOff ≤ 32767) {g : PG} (hg : PG.Reach maxOff g) (n : Nat) (d : Direction) :
    ∃ s, g.links n d = some s ∧ Serves (fun s => some (NodeLinks.next s)) (fun s => some (NodeLinks.nextBack s)) pgHint s
      (linkedPairs g (g.ports n d)) := by
  obtain ⟨s, h1, h2, h3⟩ := links_list (hg.inv hmax) n d
  refine ⟨s, h1, serves_of (fun s l => LinksR s l ∧ s.lo = 0 ∧ s.hi = 0) ?_ ?_ (fun s l h => pgHint_ok h.1) ⟨h2, h3⟩⟩
  · rintro s l ⟨h4, h5⟩
    obtain ⟨s', h6, h7⟩ := links_next s l h4
    refine ⟨s', by rw [h6], h7, ?_⟩
    unfold NodeLinks.next at h6
    split at h6 <;> (obtain ⟨-, rfl⟩ := Prod.mk.inj h6; exact h5)
  · rintro s l ⟨h4, h5⟩
    obtain ⟨s', h6, h7, h8⟩ := links_back s l h5 h4
    exact ⟨s', by rw [h6], h7, h8⟩

/-- `all_links(n)` of a port graph, taken from the front: the list leaves out the second sight of a link from the
node to itself. -/
theorem C52_portgraph_all_links_partial (hmax : maxOff ≤ 32767) {g : PG} (hg : PG.Reach maxOff g) (n : Nat) :
    ∃ s, g.allLinks n = some s ∧ ServesForward (fun s => some (NodeLinks.next s)) pgHint s
      ((linkedPairs g (g.allPorts n)).filter fun x =>
        !decide (g.portNode x.2 = some n ∧ g.portDirection x.2 = some .outgoing)) := by
  obtain ⟨s, h1, h2⟩ := allLinks_list (hg.inv hmax) n
  refine ⟨s, h1, forward_of LinksR ?_ (fun s l h => pgHint_ok h) h2⟩
  intro s l h
  obtain ⟨s', h3, h4⟩ := links_next s l h
  exact ⟨s', by rw [h3], h4⟩

/-- A node with a link from its output to its input. -/
def loopG : PG := (PG.run 32767 PG.empty [.addNode 1 1, .linkPorts 1 0]).getD PG.empty

theorem loopG_run : PG.checkedRun 32767 PG.empty [.addNode 1 1, .linkPorts 1 0] = some loopG := by decide

/-- **C52 fails** for `all_links` of a port graph taken from the back: the link of a node to itself
comes twice, while `next` yields it once. -/
theorem C52_witness_all_links_back : PG.Reach 32767 loopG ∧
    ((loopG.allLinks 0).bind fun s => (runCalls (fun s => some (NodeLinks.next s)) (fun s => some (NodeLinks.nextBack s))
      [true, true, true] s).map (·.1)) = some [some (1, 0), some (0, 1), none] ∧
    ((loopG.allLinks 0).bind fun s => (runCalls (fun s => some (NodeLinks.next s)) (fun s => some (NodeLinks.nextBack s))
      [false, false, false] s).map (·.1)) = some [some (1, 0), none, none] :=
  ⟨PG.checkedRun_reach .init loopG_run, by decide +kernel, by decide +kernel⟩

/-! ### Examples -/

/-- The hypotheses on port graphs. -/
example : PG.Reach 32767 exG := exG_reach


/-- The hypotheses hold for `exM`, whose ports 0, 1 and 3 have several links. -/
example : MReach 32767 exM ∧ exM.containsNode 0 = true ∧ exM.containsPort 0 = true ∧ (exM.portLinks? 0).getD [] ≠ [] :=
  ⟨built_reach _, by decide +kernel, by decide +kernel, by decide +kernel⟩

/-- Calls from both ends. -/
example : ((exM.plinks 0).bind fun c => (runCalls (PLinks.next exM) (PLinks.nextBack exM) [true, false, false, true] c).map
    fun x => (x.1, x.2.hint)) =
      some ([some ((0, 2), (1, 1)), some ((0, 0), (1, 0)), some ((0, 1), (3, 0)), none], (0, some 0)) := by decide +kernel

example : (runCalls (MNodes.next exM) (MNodes.nextBack exM) [false, true, true] exM.nodesIter).map
    (fun x => (x.1, x.2.len)) = some ([some 0, some 2, some 1], 0) := by decide +kernel

example : (runCalls (MNeigh.next exM 9 9) (MNeigh.next exM 9 9) [false, false, false, false]
    (.new (exM.graph.ports 0 .outgoing) 0 false)).map (·.1) = some [some 1, some 2, some 1, none] := by decide +kernel

example : (runCalls (MSubs.next exM 9) (MSubs.next exM 9) [false] (.new (exM.graph.ports 0 .outgoing))).map
    (fun x => (x.1, x.2.hint)) = some ([some (0, 0)], (2, none)) := by decide +kernel

example := C52_nodes (by decide) (by decide) (built_reach _ : MReach 32767 exM)

example := C52_ports (by decide) (by decide) (built_reach _ : MReach 32767 exM)

example := C52_port_links_partial (by decide) (by decide) (built_reach _ : MReach 32767 exM) (p := 0) (by decide +kernel)

example := C52_links (by decide) (by decide) (built_reach _ : MReach 32767 exM) (n := 0) (by decide +kernel) .outgoing

example := C52_all_links (by decide) (by decide) (built_reach _ : MReach 32767 exM) (n := 0) (by decide +kernel)

example := C52_connections (by decide) (by decide) (built_reach _ : MReach 32767 exM) (a := 0) (by decide +kernel) 1

example := C52_subports (by decide) (by decide) (built_reach _ : MReach 32767 exM) (n := 0) (by decide +kernel) .outgoing 9 (by decide +kernel)

example := C52_all_subports (by decide) (by decide) (built_reach _ : MReach 32767 exM) (n := 1) (by decide +kernel) 9 (by decide +kernel)

example := C52_neighbours (by decide) (by decide) (built_reach _ : MReach 32767 exM) (n := 0) (by decide +kernel) .outgoing

example := C52_all_neighbours (by decide) (by decide) (built_reach _ : MReach 32767 exM) (n := 1) (by decide +kernel)

example := C52_portgraph_links (by decide) exG_reach 0 .outgoing

example := C52_portgraph_all_links_partial (by decide) exG_reach 0

#print axioms C52_nodes
#print axioms C52_ports
#print axioms C52_port_links_partial
#print axioms C52_witness_port_links
#print axioms C52_links
#print axioms C52_all_links
#print axioms C52_connections
#print axioms C52_subports
#print axioms C52_all_subports
#print axioms C52_neighbours
#print axioms C52_all_neighbours
#print axioms C52_portgraph_links
#print axioms C52_portgraph_all_links_partial
#print axioms C52_witness_all_links_back

end Verif.Multi
