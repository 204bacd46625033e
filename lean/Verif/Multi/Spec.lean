import Verif.Multi.View

/-!
# What a `MultiPortGraph` shows, and what its mutating calls do to that

Everything here is stated by the public queries `contains_node`, `contains_port`, `port_node`,
`port_offset`, `port_links` and `subports`.
-/

namespace Verif.Multi

open Verif (Direction)
open Verif.PG Verif.View

/-- A multigraph: nodes, ports with positions, links between subports, and the subports. -/
structure Obs where
  node : Nat → Prop
  pos : Nat → Endpoint → Prop
  link : Subport → Subport → Prop
  sub : Subport → Prop

/-- What the queries show. -/
def MG.obs (m : MG) : Obs where
  node n := m.containsNode n = true
  pos p e := m.containsPort p = true ∧ m.graph.portNode p = some e.1 ∧ m.graph.portOffset p = some (some e.2)
  link e f := m.containsPort e.1 = true ∧ ∃ L, m.portLinks? e.1 = some L ∧ (e, f) ∈ L
  sub e := m.containsPort e.1 = true ∧ ∃ L, m.subportsAt? e.1 = some L ∧ e ∈ L

/-- What every multigraph satisfies: a port has one position and a position one port, positions are
numbered without gaps and belong to nodes; links are symmetric, join subports that exist, at ports
of opposite directions, and a subport has at most one link. -/
structure Obs.Wf (o : Obs) : Prop where
  pos_fun : ∀ p e f, o.pos p e → o.pos p f → e = f
  pos_one : ∀ p q e, o.pos p e → o.pos q e → p = q
  pos_node : ∀ p e, o.pos p e → o.node e.1
  pos_down : ∀ p n d k j, o.pos p (n, d, k) → j < k → ∃ q, o.pos q (n, d, j)
  sub_port : ∀ e, o.sub e → ∃ x, o.pos e.1 x
  sub_zero : ∀ p x, o.pos p x → o.sub (p, 0)
  sub_down : ∀ p k j, o.sub (p, k) → j < k → o.sub (p, j)
  link_sub : ∀ e f, o.link e f → o.sub e
  link_sym : ∀ e f, o.link e f → o.link f e
  link_one : ∀ e f f', o.link e f → o.link e f' → f = f'
  link_dir : ∀ e f x y, o.link e f → o.pos e.1 x → o.pos f.1 y → x.2.1 ≠ y.2.1

/-! ## Calls -/

/-- The mutating calls. -/
inductive MOp where
  | addNode (incoming outgoing : Nat)
  | removeNode (n : Nat)
  | linkPorts (a b : Nat)
  | unlinkPort (p : Nat)
  | setNumPorts (n incoming outgoing : Nat)
  | compactNodes
  | compactPorts
  | swapNodes (a b : Nat)
  | clear
  | linkSubports (e f : Subport)
  | unlinkSubport (e : Subport)

/-- What a call returns or reports. -/
inductive MRes where
  | none
  | node (n : Nat)
  | link (r : Except LinkError (Subport × Subport))
  | done (r : Except LinkError Unit)
  | sub (r : Option Subport)
  | ports (tr : List (Nat × PortOp))
  | moves (tr : List (Nat × Nat))

/-- One call; `none` is a panic. -/
def MG.step (maxOff : Nat) (m : MG) : MOp → Option (MRes × MG)
  | .addNode i o => (m.addNode maxOff i o).map fun x => (.node x.1, x.2)
  | .removeNode n => (m.removeNode n).map fun m => (.none, m)
  | .linkPorts a b => (m.linkPorts maxOff a b).map fun x => (.link x.1, x.2)
  | .unlinkPort p => (m.unlinkPort p).map fun x => (.sub x.1, x.2)
  | .setNumPorts n i o => (m.setNumPorts n i o).map fun x => (.ports x.2, x.1)
  | .compactNodes => (m.compactNodes).map fun x => (.moves x.2, x.1)
  | .compactPorts => (m.compactPorts).map fun x => (.moves x.2, x.1)
  | .swapNodes a b => (m.swapNodes a b).map fun m => (.none, m)
  | .clear => some (.none, m.clear)
  | .linkSubports e f => (m.linkSubports e f).map fun x => (.done x.1, x.2)
  | .unlinkSubport e => (m.unlinkSubport e).map fun x => (.sub x.1, x.2)

/-- The port has at most 32766 subports, or a subport without link. -/
def MG.room (m : MG) (p : Nat) : Prop :=
  ∀ L, m.subportsAt? p = some L → L.length ≤ 32766 ∨ ∃ e ∈ L, ∀ f, ¬ m.obs.link e f

/-- What is asked of the arguments.
* Nodes and ports are no helpers.
* `link_ports` is asked for ports with at most 32766 subports or one without link: a node has at most
  32768 ports.
* `set_num_ports` asks for at most 32768 ports, and no port is moved to the place of a removed port
  that has more than one subport.
* `compact_ports` as for a `PortGraph`: no node without ports owns port slots.
* `swap_nodes` as for a `PortGraph`: two live nodes, or a live node and a slot that the next `add_node`
  does not take.
* Subports exist. -/
def MOp.ok (maxOff : Nat) (m : MG) : MOp → Prop
  | .addNode i o => i ≤ maxOff ∧ o ≤ maxOff
  | .removeNode n => m.containsNode n = true ∨ m.graph.containsNode n = false
  | .linkPorts a b => m.containsPort a = true ∧ m.containsPort b = true ∧
      m.room a ∧ m.room b
  | .unlinkPort p => m.containsPort p = true ∨ m.graph.containsPort p = false
  | .setNumPorts n i o => (m.containsNode n = true ∨ m.graph.containsNode n = false) ∧ i + o ≤ 32768 ∧
      ∀ g tr, m.graph.setNumPorts n i o = some (g, tr) →
        ∀ x y r L, (x, .moved y) ∈ tr → (y, .removed r) ∈ tr → m.subportsAt? y = some L → L.length ≤ 1
  | .compactPorts => ∀ n, m.graph.numPorts n .incoming + m.graph.numPorts n .outgoing = 0 → m.graph.nodePortCapacity n = 0
  | .swapNodes a b => m.graph.swappable a b = true ∧ m.copy a = false ∧ m.copy b = false
  | .linkSubports e f => m.obs.sub e ∧ m.obs.sub f
  | .unlinkSubport e => m.obs.sub e
  | _ => True

/-- Multigraphs obtained from a reachable `PortGraph` (`MultiPortGraph::from`, in particular
`MultiPortGraph::new()`) by such calls. -/
inductive MReach (maxOff : Nat) : MG → Prop where
  | init {g} : PG.Reach maxOff g → MReach maxOff (MG.ofGraph g)
  | step {m m' op r} : MReach maxOff m → MOp.ok maxOff m op → m.step maxOff op = some (r, m') → MReach maxOff m'

/-! ## What the calls do -/

/-- `n` has `k` ports in direction `d`. -/
def Obs.HasPorts (o : Obs) (n : Nat) (d : Direction) (k : Nat) : Prop := ∀ j, (∃ p, o.pos p (n, d, j)) ↔ j < k

/-- The same nodes. -/
def Obs.SameNodes (o o' : Obs) : Prop := ∀ x, o'.node x ↔ o.node x

/-- The same ports at the same positions. -/
def Obs.SamePorts (o o' : Obs) : Prop := ∀ p e, o'.pos p e ↔ o.pos p e

/-- The same links. -/
def Obs.SameLinks (o o' : Obs) : Prop := ∀ e f, o'.link e f ↔ o.link e f

/-- `o'` is `o` with the nodes renamed by `ρ` and the ports by `π`, and nothing is confused. -/
structure Obs.Rename (o o' : Obs) (ρ π : Nat → Nat) : Prop where
  node : ∀ x', o'.node x' ↔ ∃ x, o.node x ∧ x' = ρ x
  node_inj : ∀ x y, o.node x → o.node y → ρ x = ρ y → x = y
  pos : ∀ p' e', o'.pos p' e' ↔ ∃ p n d k, o.pos p (n, d, k) ∧ p' = π p ∧ e' = (ρ n, d, k)
  port_inj : ∀ p e q f, o.pos p e → o.pos q f → π p = π q → p = q
  link : ∀ e' f', o'.link e' f' ↔ ∃ p k q l, o.link (p, k) (q, l) ∧ e' = (π p, k) ∧ f' = (π q, l)
  sub : ∀ e', o'.sub e' ↔ ∃ p k, o.sub (p, k) ∧ e' = (π p, k)

/-- Exactly one link is added, between `e` and `f`, which had none. -/
def Obs.AddsLink (o o' : Obs) (e f : Subport) : Prop := (∀ z, ¬ o.link e z) ∧ (∀ z, ¬ o.link f z) ∧ o'.link e f ∧
  ∀ z w, o'.link z w ↔ o.link z w ∨ (z = e ∧ w = f) ∨ (z = f ∧ w = e)

/-- The position is dropped when `n` is resized to `i` incoming and `o` outgoing ports. -/
def Cut (n i o : Nat) (e : Endpoint) : Prop :=
  e.1 = n ∧ ((e.2.1 = .incoming ∧ i ≤ e.2.2) ∨ (e.2.1 = .outgoing ∧ o ≤ e.2.2))

/-- What each call does to the multigraph. -/
def Effect (o o' : Obs) : MOp → MRes → Prop
  | .addNode i u, .node n =>
    ¬ o.node n ∧ (∀ x, o'.node x ↔ x = n ∨ o.node x) ∧ (∀ p e, e.1 ≠ n → (o'.pos p e ↔ o.pos p e)) ∧
    o'.HasPorts n .incoming i ∧ o'.HasPorts n .outgoing u ∧ o.SameLinks o' ∧
    -- the new ports have one subport each
    ∀ z, o'.sub z ↔ o.sub z ∨ (z.2 = 0 ∧ ∃ d k, o'.pos z.1 (n, d, k))
  | .removeNode n, .none =>
    (∀ x, o'.node x ↔ o.node x ∧ x ≠ n) ∧ (∀ p e, o'.pos p e ↔ o.pos p e ∧ e.1 ≠ n) ∧
    (∀ e f, o'.link e f ↔ o.link e f ∧ (∀ x, o.pos e.1 x → x.1 ≠ n) ∧ ∀ x, o.pos f.1 x → x.1 ≠ n) ∧
    ∀ z, o'.sub z ↔ o.sub z ∧ ∀ x, o.pos z.1 x → x.1 ≠ n
  | .linkPorts a b, .link r => o.SameNodes o' ∧ o.SamePorts o' ∧ ∀ x y, o.pos a x → o.pos b y →
    (x.2.1 ≠ y.2.1 → ∃ k l, r = .ok ((a, k), (b, l)) ∧ o.AddsLink o' (a, k) (b, l) ∧
      -- the first subport without link is taken
      (∀ j, j < k → ∃ z, o.link (a, j) z) ∧ (∀ j, j < l → ∃ z, o.link (b, j) z) ∧
      -- and added if there was none
      ∀ z, o'.sub z ↔ o.sub z ∨ z = (a, k) ∨ z = (b, l)) ∧
    (x.2.1 = y.2.1 → (∃ i j, r = .error (.incompatibleDirections i j x.2.1)) ∧ o.SameLinks o' ∧
      -- the subports that were to be linked stay
      ∃ k l, (∀ j, j < k → ∃ z, o.link (a, j) z) ∧ (∀ j, j < l → ∃ z, o.link (b, j) z) ∧
        (∀ z, ¬ o.link (a, k) z) ∧ (∀ z, ¬ o.link (b, l) z) ∧ ∀ z, o'.sub z ↔ o.sub z ∨ z = (a, k) ∨ z = (b, l))
  | .unlinkPort p, .sub r => o.SameNodes o' ∧ o.SamePorts o' ∧
    (∀ e f, o'.link e f ↔ o.link e f ∧ e.1 ≠ p ∧ f.1 ≠ p) ∧
    -- the result is right if neither the port nor the one it is linked to has several subports
    ((¬ o.sub (p, 1) ∧ ∀ f, o.link (p, 0) f → ¬ o.sub (f.1, 1)) → ∀ f, r = some f ↔ o.link (p, 0) f) ∧
    -- one subport of the port is left
    ∀ z, o'.sub z ↔ o.sub z ∧ (z.1 = p → z.2 = 0)
  | .setNumPorts n i u, .ports tr => o.SameNodes o' ∧
    (o.node n → o'.HasPorts n .incoming i ∧ o'.HasPorts n .outgoing u) ∧
    ∃ π : Nat → Nat,
      -- ports move as reported, and those of other nodes not at all
      (∀ p e, o.pos p e → ¬ Cut n i u e → PG.track tr p = some (π p)) ∧ (∀ p e, o.pos p e → e.1 ≠ n → π p = p) ∧
      (∀ p e, o.pos p e → Cut n i u e → PG.track tr p = none) ∧
      (∀ p e, o.pos p e → ¬ Cut n i u e → o'.pos (π p) e) ∧
      (∀ p' e, e.1 ≠ n → o'.pos p' e → o.pos p' e) ∧
      (∀ e' f', o'.link e' f' ↔ ∃ p k q l, o.link (p, k) (q, l) ∧ (∀ x, o.pos p x → ¬ Cut n i u x) ∧
        (∀ x, o.pos q x → ¬ Cut n i u x) ∧ e' = (π p, k) ∧ f' = (π q, l)) ∧
      -- new ports have one subport each
      ∀ z, o'.sub z ↔ (∃ p k, o.sub (p, k) ∧ (∀ x, o.pos p x → ¬ Cut n i u x) ∧ z = (π p, k)) ∨
        (z.2 = 0 ∧ ∃ e, o'.pos z.1 e ∧ ∀ p, ¬ o.pos p e)
  | .compactNodes, .moves tr => ∃ ρ : Nat → Nat, o.Rename o' ρ id ∧ (∀ x, o.node x → (x, ρ x) ∈ tr) ∧
    ∀ x y, o.node x → x < y → ρ x < ρ y ∧ ρ x ≤ x
  | .compactPorts, .moves tr => ∃ π : Nat → Nat, o.Rename o' id π ∧ (∀ p e, o.pos p e → (p, π p) ∈ tr) ∧
    ∀ p e q, o.pos p e → p < q → π p < π q ∧ π p ≤ p
  | .swapNodes a b, .none => o.Rename o' (fun x => if x = a then b else if x = b then a else x) id
  | .clear, .none => (∀ x, ¬ o'.node x) ∧ (∀ p e, ¬ o'.pos p e) ∧ (∀ e f, ¬ o'.link e f) ∧ ∀ z, ¬ o'.sub z
  | .linkSubports e f, .done r => o.SameNodes o' ∧ o.SamePorts o' ∧ (∀ e, o'.sub e ↔ o.sub e) ∧
    ∀ x y, o.pos e.1 x → o.pos f.1 y →
    ((x.2.1 ≠ y.2.1 ∧ (∀ z, ¬ o.link e z) ∧ ∀ z, ¬ o.link f z) → r = .ok () ∧ o.AddsLink o' e f) ∧
    (¬ (x.2.1 ≠ y.2.1 ∧ (∀ z, ¬ o.link e z) ∧ ∀ z, ¬ o.link f z) → (∃ er, r = .error er) ∧ o.SameLinks o')
  | .unlinkSubport e, .sub r => o.SameNodes o' ∧ o.SamePorts o' ∧ (∀ e, o'.sub e ↔ o.sub e) ∧
    (∀ f, r = some f ↔ o.link e f) ∧ ∀ z w, o'.link z w ↔ o.link z w ∧ z ≠ e ∧ w ≠ e
  | _, _ => False

end Verif.Multi
