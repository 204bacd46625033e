import Verif.View.Model

/-!
# What a graph view shows

A view is understood as a graph by its nodes and by the relation `Shows` between link endpoints.
`GView.Ok` says that all the queries of the view describe this one graph; it holds for every
reachable `PortGraph` (`ofPG_ok`) and the theorems of `View/Props.lean` show that it is kept by the
wrappers.
-/

namespace Verif.View

open Verif (Direction)

variable {E : Type}

/-- The view shows a link from endpoint `e` to endpoint `f`. -/
def GView.Shows (G : GView E) (e f : E) : Prop := (e, f) ∈ G.portLinks (G.toPort e)

/-- The node of an endpoint is `n`. -/
def GView.On (G : GView E) (e : E) (n : Nat) : Prop := G.portNode (G.toPort e) = some n

/-- All queries of the view describe the same graph. -/
structure GView.Ok (G : GView E) : Prop where
  /-- `nodes_iter` lists the contained nodes, each once; `node_count` is their number. -/
  nodes_nodup : G.nodes.Nodup
  mem_nodes : ∀ n, n ∈ G.nodes ↔ G.containsNode n = true
  node_count : G.nodeCount = G.nodes.length
  /-- `ports_iter` lists the ports of the contained nodes, each once; `port_count` is their number. -/
  iter_nodup : G.portsIter.Nodup
  mem_iter : ∀ p, p ∈ G.portsIter ↔ G.containsPort p = true
  port_iff : ∀ p, G.containsPort p = true ↔ ∃ n, G.portNode p = some n ∧ G.containsNode n = true
  port_count : G.portCount = G.portsIter.length
  /-- `ports(n, d)` lists the ports of `n` with direction `d`, each once. -/
  ports_nodup : ∀ n d, (G.ports n d).Nodup
  mem_ports : ∀ n d p, p ∈ G.ports n d ↔ G.portNode p = some n ∧ G.portDirection p = some d
  port_dir : ∀ p n, G.portNode p = some n → ∃ d, G.portDirection p = some d
  all_ports : ∀ n, G.allPorts n = G.ports n .incoming ++ G.ports n .outgoing
  num_ports : ∀ n d, G.numPorts n d = (G.ports n d).length
  /-- Links start at the given port, join ports of contained nodes with opposite directions, and
  are shown from both ends. An endpoint has one link. -/
  from_port : ∀ p e f, (e, f) ∈ G.portLinks p → G.toPort e = p
  links_nodup : ∀ p, (G.portLinks p).Nodup
  shows_sym : ∀ e f, G.Shows e f → G.Shows f e
  shows_dir : ∀ e f, G.Shows e f → ∃ n d m, G.On e n ∧ G.portDirection (G.toPort e) = some d ∧
    G.containsNode n = true ∧ G.On f m ∧ G.portDirection (G.toPort f) = some d.reverse ∧ G.containsNode m = true
  shows_one : ∀ e f f', G.Shows e f → G.Shows e f' → f = f'
  /-- `links(n, d)` lists the links of the ports of `n` in order. -/
  links_eq : ∀ n d, G.links n d = (G.ports n d).flatMap G.portLinks
  /-- `all_links` leaves out one orientation of a link from a node to itself. -/
  all_links : ∀ n, G.allLinks n = ((G.allPorts n).flatMap G.portLinks).filter fun l =>
    !decide (G.portNode (G.toPort l.2) = some n ∧ G.portDirection (G.toPort l.2) = some .outgoing)
  /-- `neighbours` and `all_neighbours` of a contained node list the nodes at the other ends. -/
  neighbours_eq : ∀ n d, G.containsNode n = true →
    (G.neighbours n d).map some = (G.links n d).map fun l => G.portNode (G.toPort l.2)
  all_neighbours : ∀ n, G.containsNode n = true →
    (G.allNeighbours n).map some = (G.allLinks n).map fun l => G.portNode (G.toPort l.2)
  /-- `get_connections(a, b)` lists the links from outgoing ports of `a` to `b`. -/
  connections : ∀ a b, G.getConnections a b =
    (G.links a .outgoing).filter fun l => decide (G.portNode (G.toPort l.2) = some b)

/-- The links, each listed once by its outgoing end. -/
def GView.outLinks (G : GView E) : List (E × E) := G.nodes.flatMap fun n => G.links n .outgoing

/-- The list names each link of the view exactly once. -/
structure GView.ListsLinks (G : GView E) (l : List (E × E)) : Prop where
  nodup : l.Nodup
  mem : ∀ e f, (e, f) ∈ l ↔ G.Shows e f ∧ G.portDirection (G.toPort e) = some .outgoing

/-- `link_count` is the number of links. -/
def GView.CountOk (G : GView E) : Prop := ∃ l, G.ListsLinks l ∧ G.linkCount = l.length

/-- `is_empty` says whether there is no node. -/
def GView.EmptyOk (G : GView E) : Prop := G.isEmpty = true ↔ ∀ n, G.containsNode n = false

/-- The queries of `MultiView` describe the same graph: `subports` lists the endpoints of the
ports, and `subport_link` the link of an endpoint. -/
structure GView.MultiOk (G : GView E) : Prop where
  sub_link : ∀ e f, G.subportLink e = some f ↔ G.Shows e f
  sub_port : ∀ n d e, e ∈ G.subports n d → G.On e n ∧ G.portDirection (G.toPort e) = some d
  sub_linked : ∀ n d e f, G.Shows e f → G.On e n → G.portDirection (G.toPort e) = some d → e ∈ G.subports n d
  sub_nodup : ∀ n d, (G.subports n d).Nodup
  sub_all : ∀ n, G.allSubports n = G.subports n .incoming ++ G.subports n .outgoing

/-- Every port has at most one link, as in a `PortGraph`. -/
def GView.Single (G : GView E) : Prop := ∀ p, (G.portLinks p).length ≤ 1

/-- The ports where the links in direction `d` end have at most one link. -/
def GView.SingleIn (G : GView E) (d : Direction) : Prop :=
  ∀ n, G.containsNode n = true → ∀ p ∈ G.ports n d.reverse, (G.portLinks p).length ≤ 1

/-- The nodes inside a boundary: the nodes of the boundary ports, and what is connected to them by
links that do not pass through a boundary port. -/
inductive GView.Inner (G : GView E) (B : List Nat) : Nat → Prop
  | start {p n : Nat} : p ∈ B → G.portNode p = some n → G.Inner B n
  | step {e f : E} {n m : Nat} : G.Inner B n → G.Shows e f → G.On e n → G.On f m →
      G.toPort e ∉ B → G.toPort f ∉ B → G.Inner B m

end Verif.View
