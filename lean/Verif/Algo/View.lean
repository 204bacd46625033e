import Verif.PortGraph.PropsQuery
import Mathlib.Data.List.Nodup
import Mathlib.Tactic.ByContra

/-!
# Read-only views of a graph

The traversals of `src/algorithms` use a graph only through the queries of `PortView` and
`LinkView` (`src/view.rs`). `View` holds the answers to these queries. `View.WF` collects the
facts the traversals rely on; `ofPG` is the view of a port graph and `ofPG_wf` proves these facts
for every reachable port graph. The graph is borrowed immutably during a traversal, so the
answers do not change.
-/

namespace Verif.Algo

open Verif (Direction)
open Verif.PG

/-- The answers of a graph to the queries of `PortView`/`LinkView` (`src/view.rs` lines 26–206 and 300–495)
used by the algorithms. -/
structure View where
  /-- `nodes_iter()` -/
  nodes : List Nat
  /-- `ports_iter()` -/
  portsIter : List Nat
  /-- `ports(node, direction)` -/
  ports : Nat → Direction → List Nat
  /-- `port_node(port)` -/
  portNode : Nat → Option Nat
  /-- `port_links(port)`: the ports at the other ends; `port_link(port)` is the first one. -/
  links : Nat → List Nat

/-- The facts about a view which hold for every reachable graph. -/
structure View.WF (G : View) : Prop where
  nodes_nodup : G.nodes.Nodup
  ports_nodup : ∀ n d, (G.ports n d).Nodup
  ports_node : ∀ n d p, p ∈ G.ports n d → G.portNode p = some n ∧ n ∈ G.nodes ∧ p ∈ G.portsIter
  ports_dir : ∀ n d m d' p, p ∈ G.ports n d → p ∈ G.ports m d' → d = d'
  iter_port : ∀ p ∈ G.portsIter, ∃ n d, p ∈ G.ports n d
  link_sym : ∀ p q, q ∈ G.links p → p ∈ G.links q
  link_dir : ∀ n d p q, p ∈ G.ports n d → q ∈ G.links p → ∃ m, q ∈ G.ports m d.reverse

/-- Every port has at most one link, as in a `PortGraph`. -/
def View.Single (G : View) : Prop := ∀ p, (G.links p).length ≤ 1

/-- Every port at the end of the links in direction `d` has at most one link. -/
def View.SingleIn (G : View) (d : Direction) : Prop := ∀ n, ∀ p ∈ G.ports n d.reverse, (G.links p).length ≤ 1

theorem View.Single.to (d : Direction) {G : View} (h : G.Single) : G.SingleIn d := fun _ p _ => h p

/-- The view of a port graph: `src/portgraph.rs` lines 333–445 and 723–790. -/
def ofPG (g : PG) : View where
  nodes := (List.range g.nodeMeta.length).filter g.containsNode
  portsIter := (List.range g.portMeta.length).filter g.containsPort
  ports := g.ports
  portNode := g.portNode
  links p := (g.portLink? p).join.toList

/-- Node `m` has a link from one of its `d` ports to a port of `n`. -/
def Arc (g : PG) (d : Direction) (m n : Nat) : Prop :=
  ∃ j k, g.abs.link (m, d, j) = some (n, d.reverse, k)

theorem mem_ports {g : PG} {n d p} : p ∈ g.ports n d ↔ ∃ k, At g p (n, d, k) := by
  unfold PG.ports At
  cases h : g.node? n with
  | none => simp [h]
  | some m =>
    simp only [h, NodeMeta.ports, List.mem_range', Nat.one_mul, Option.some.injEq, exists_eq_left']

theorem ofPG_links {g : PG} (hI : Inv g) {p q} (hp : (g.port? p).isSome) :
    q ∈ (ofPG g).links p ↔ g.lk p = some q := by
  simp [ofPG, portLink?_eq hI hp]

theorem ofPG_single {g : PG} : (ofPG g).Single := by
  intro p
  simp only [ofPG]
  cases (g.portLink? p).join <;> simp

theorem node?_lt {g : PG} {n m} (h : g.node? n = some m) : n < g.nodeMeta.length := by
  unfold PG.node? at h
  by_contra hc
  rw [List.getElem?_eq_none (by omega)] at h
  simp at h

theorem port?_lt {g : PG} {p x} (h : g.port? p = some x) : p < g.portMeta.length := by
  unfold PG.port? at h
  by_contra hc
  rw [List.getElem?_eq_none (by omega)] at h
  simp at h

theorem ports_port {g : PG} (hI : Inv g) {n d p} : p ∈ g.ports n d ↔ g.port? p = some (n, d) := by
  rw [mem_ports]
  constructor
  · rintro ⟨k, h⟩; exact h.port hI
  · intro h
    obtain ⟨m, _, _, h⟩ := port_at hI h
    exact ⟨_, h⟩

theorem lk_port {g : PG} (hI : Inv g) {p q n d} (hp : g.port? p = some (n, d)) (hl : g.lk p = some q) :
    ∃ m, g.port? q = some (m, d.reverse) ∧ g.lk q = some p := by
  obtain ⟨own, fs, hP, hfull⟩ := hI.slots
  obtain ⟨h1, m, h2⟩ := hP.links _ _ _ _ hp hl
  exact ⟨m, h2, h1⟩

theorem ofPG_wf {g : PG} (hI : Inv g) : (ofPG g).WF where
  nodes_nodup := List.Nodup.filter _ List.nodup_range
  ports_nodup n d := by
    simp only [ofPG, PG.ports]
    cases g.node? n with
    | none => simp
    | some m => simp [NodeMeta.ports, List.nodup_range']
  ports_node n d p h := by
    have h' := (ports_port hI).1 h
    obtain ⟨m, hm, _⟩ := port_at hI h'
    refine ⟨by simp [ofPG, PG.portNode, h'], ?_, ?_⟩
    · simp [ofPG, PG.containsNode, hm, node?_lt hm]
    · simp [ofPG, PG.containsPort, h', port?_lt h']
  ports_dir n d m d' p h h' := by
    have h1 := (ports_port hI).1 h
    have h2 := (ports_port hI).1 h'
    rw [h1] at h2; simp at h2; exact h2.2
  iter_port p h := by
    simp only [ofPG, List.mem_filter, PG.containsPort, Option.isSome_iff_exists] at h
    obtain ⟨_, ⟨n, d⟩, h⟩ := h
    exact ⟨n, d, (ports_port hI).2 h⟩
  link_sym p q h := by
    cases hp : g.port? p with
    | none => simp [ofPG, PG.portLink?, hp] at h
    | some x =>
      obtain ⟨n, d⟩ := x
      rw [ofPG_links hI (by simp [hp])] at h
      obtain ⟨m, hm, h'⟩ := lk_port hI hp h
      rw [ofPG_links hI (by simp [hm])]
      exact h'
  link_dir n d p q h h' := by
    have hp := (ports_port hI).1 h
    rw [ofPG_links hI (by simp [hp])] at h'
    obtain ⟨m, hm, _⟩ := lk_port hI hp h'
    exact ⟨m, (ports_port hI).2 hm⟩

end Verif.Algo
