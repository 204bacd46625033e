{"id": "C01", "title": "Node and port indices round trip", "statement": "For every usize i, NodeIndex/PortIndex::try_from(i) succeeds exactly when i is at most the documented maximum 2^31-2, and then index() returns i; wrapping the index in a MaybeNodeIndex and reading it back returns the same index, and no valid index is ever read back as None.", "quantifier": "for all natural numbers i, all index widths of 8, 16, 32 and 64 bits", "why_tests_cant": "The domain has 2^64 values per width and the encoding shares one bit with the None value; tests try a handful.", "anchors": ["src/index.rs: BitField, NodeIndex, PortIndex, MaybeIndex"]}
{"id": "C02", "title": "Index constructors reject what they cannot represent", "statement": "NodeIndex::new, PortIndex::new and PortOffset::new either panic or return a value whose index() (and direction()) equals what was asked for; they never silently return another index.", "quantifier": "for all natural numbers i, all widths, both directions", "why_tests_cant": "Only boundary values of a huge domain misbehave.", "anchors": ["src/index.rs: BitField::new, PortOffset::new, IndexError"]}
{"id": "C03", "title": "Port offsets are faithful pairs", "statement": "For every direction d and offset i up to max_offset, PortOffset::new(d,i).direction() = d and .index() = i, and two offsets are equal exactly when direction and index agree.", "quantifier": "for all directions, all offsets up to the maximum, all widths", "why_tests_cant": "Exhausts 2^15 (or 2^63) offsets times two directions.", "anchors": ["src/index.rs: PortOffset"]}
{"id": "C04", "title": "No operation history breaks a port graph", "statement": "Starting from PortGraph::new(), after any finite sequence of add_node, remove_node, link_ports, unlink_port, set_num_ports, compact_nodes, compact_ports, swap_nodes and clear with in-range arguments, no call panics and all query functions agree with one another (each port belongs to one live node, each live node's ports exist, links are mutual).", "quantifier": "for all finite operation sequences with arbitrary arguments", "why_tests_cant": "The set of histories is infinite; internal free lists and slab reuse depend on the whole history.", "anchors": ["src/portgraph.rs: PortGraph", "src/lib.rs: PortMut, LinkMut"]}
{"id": "C05", "title": "Links are symmetric, exclusive and directed", "statement": "Whenever port_link(p) = Some(q) in a reachable graph, port_link(q) = Some(p), p and q both exist, p differs from q and their directions are opposite; no port has two partners.", "quantifier": "for all reachable graphs, all ports", "why_tests_cant": "Holds only if every mutation keeps both ends in step; histories are unbounded.", "anchors": ["src/portgraph.rs: link_ports, unlink_port, free_ports, port_links"]}
{"id": "C06", "title": "Counters equal cardinalities", "statement": "node_count() is the number of nodes yielded by nodes_iter(), port_count() the number of ports yielded by ports_iter(), and link_count() is half the number of linked ports, in every reachable graph.", "quantifier": "for all reachable graphs", "why_tests_cant": "Counters are updated incrementally by every operation; drift shows up only in particular histories.", "anchors": ["src/portgraph.rs: node_count, port_count, link_count", "src/portgraph/iter.rs"]}
{"id": "C07", "title": "Port numbering is a bijection with offsets", "statement": "In a reachable graph port_index(n, o) = Some(p) exactly when port_node(p) = Some(n) and port_offset(p) = Some(o); a node's ports in one direction are exactly the offsets 0..num_ports and are yielded in offset order.", "quantifier": "for all reachable graphs, nodes, offsets and ports", "why_tests_cant": "Relies on contiguity of slabs through reallocation, shifting and compaction.", "anchors": ["src/portgraph.rs: port_index, port_offset, num_ports, ports"]}
{"id": "C08", "title": "add_node adds exactly one fresh node", "statement": "add_node(i,o) returns a node that did not exist before, gives it i incoming and o outgoing ports, all unlinked, and leaves every other node, port, port index and link unchanged, even if freed slots are reused.", "quantifier": "for all reachable graphs, all i and o up to the documented maximum", "why_tests_cant": "Stale data in reused slots depends on the history.", "anchors": ["src/portgraph.rs: add_node, alloc_node, alloc_ports"]}
{"id": "C09", "title": "remove_node removes exactly one node", "statement": "After remove_node(n), n and its ports no longer exist, ports that were linked to n are unlinked, and every other node, port index and link is unchanged; on an unknown node it does nothing.", "quantifier": "for all reachable graphs and nodes", "why_tests_cant": "Quantifies over all graphs including self links and links from other nodes.", "anchors": ["src/portgraph.rs: remove_node, free_node, free_ports"]}
{"id": "C10", "title": "link_ports succeeds or reports and changes nothing", "statement": "link_ports(a,b) succeeds exactly when both ports exist, have opposite directions and are unlinked, and then only a and b become linked to each other; otherwise it returns an error naming the offending port and the graph is unchanged.", "quantifier": "for all reachable graphs, all pairs of port indices", "why_tests_cant": "All graph states and all port pairs, including unknown ports.", "anchors": ["src/portgraph.rs: link_ports, LinkError"]}
{"id": "C11", "title": "unlink_port undoes link_ports", "statement": "unlink_port(p) returns the previous partner of p (None if none or unknown), clears exactly the link between the two, and unlinking directly after a successful link restores every observation.", "quantifier": "for all reachable graphs and ports", "why_tests_cant": "All states.", "anchors": ["src/portgraph.rs: unlink_port"]}
{"id": "C12", "title": "set_num_ports keeps the surviving ports connected", "statement": "After set_num_ports(n,i,o) node n has exactly i incoming and o outgoing ports; every offset of n that existed before and still exists keeps its link partner (by node and offset), including self links; partners of dropped ports become unlinked; new ports are unlinked; nothing else changes.", "quantifier": "for all reachable graphs, nodes and new counts", "why_tests_cant": "The in-place shift direction and slab reallocation branch on the relation of old and new counts, with overlapping memory moves.", "anchors": ["src/portgraph.rs: set_num_ports, resize_ports_inplace"]}
{"id": "C13", "title": "The set_num_ports callback tells the truth", "statement": "Applying the reported Moved and Removed operations in order to the set of ports of n maps each old port index to the index the same offset has afterwards; Removed is reported exactly for dropped ports together with their previous partner.", "quantifier": "for all reachable graphs, nodes and new counts", "why_tests_cant": "User maps keyed by port rely on the order of callbacks during overlapping moves.", "anchors": ["src/portgraph.rs: set_num_ports, resize_ports_inplace, PortOperation"]}
{"id": "C14", "title": "set_num_ports works for all documented counts", "statement": "set_num_ports does not panic for any counts with incoming <= 65534 and outgoing <= 65535 that pass its own assertions, and asking for zero ports releases the port storage as the code comment says.", "quantifier": "for all reachable graphs, nodes and counts within the asserted maximum", "why_tests_cant": "The failing values lie above 32768 ports.", "anchors": ["src/portgraph.rs: set_num_ports, alloc_ports, NodeMeta::new"]}
{"id": "C15", "title": "compact_nodes is an order preserving renaming", "statement": "compact_nodes renumbers the live nodes to 0..node_count in their previous order, reports each (old,new) pair once, and all ports, offsets and links are the same up to this renaming (port indices unchanged).", "quantifier": "for all reachable graphs", "why_tests_cant": "All graphs with arbitrary holes.", "anchors": ["src/portgraph.rs: compact_nodes"]}
{"id": "C16", "title": "compact_ports is an order preserving renaming", "statement": "compact_ports renumbers the live ports to 0..port_count in their previous order, reports each (old,new) pair once, preserves nodes, offsets and links up to this renaming, and leaves a graph on which all further operations work.", "quantifier": "for all reachable graphs", "why_tests_cant": "The in-place swap of half updated links is correct only through an invariant over the loop.", "anchors": ["src/portgraph.rs: compact_ports"]}
{"id": "C17", "title": "swap_nodes exchanges two identities", "statement": "swap_nodes(a,b) exchanges the identities of a and b: ports, offsets and links are the same with a and b exchanged, everything else is unchanged, and the graph stays usable (also when one of the slots is free).", "quantifier": "for all reachable graphs, all node slots a, b", "why_tests_cant": "Interaction with the free list depends on history.", "anchors": ["src/portgraph.rs: swap_nodes"]}
{"id": "C18", "title": "clear is the same as starting anew", "statement": "After clear() every query and every further operation behaves as on PortGraph::new().", "quantifier": "for all reachable graphs and all later histories", "why_tests_cant": "Leftover state could surface arbitrarily late.", "anchors": ["src/portgraph.rs: clear"]}
{"id": "C19", "title": "Link iterators are exact", "statement": "links(n,d) yields exactly one pair for each linked port of n in direction d; all_links(n) yields each link touching n exactly once (self links once); neighbours agree with links; get_connections(a,b) yields exactly the links from outgoing ports of a to incoming ports of b.", "quantifier": "for all reachable graphs, nodes and directions", "why_tests_cant": "Iterators are stateful and treat self links specially.", "anchors": ["src/portgraph/iter.rs: NodeLinks, Neighbours, NodeConnections", "src/lib.rs: LinkView"]}
{"id": "C20", "title": "insert_graph inserts a disjoint copy", "statement": "insert_graph(other) adds one node per node of other, returns an injective map, reproduces all port counts and links of other through that map, and leaves the original part unchanged.", "quantifier": "for all pairs of reachable graphs", "why_tests_cant": "All pairs of graphs.", "anchors": ["src/lib.rs: LinkMut::insert_graph"]}
{"id": "C21", "title": "Secondary maps behave as total maps with a default", "statement": "For every secondary map implementation, get after set returns the set value on that key and leaves the others, take resets the key to the default and returns the old value, swap exchanges, rekey moves; unset keys read as the default.", "quantifier": "for all operation sequences, keys and values", "why_tests_cant": "Dense storage grows, shrinks and may store explicit defaults.", "anchors": ["src/secondary.rs", "src/unmanaged.rs"]}
{"id": "C22", "title": "UnmanagedDenseMap honours its own default", "statement": "In a map created by with_default(d), after any sequence of set, take, rekey, swap, resize, shrink_to, every key not explicitly set reads d, including the key vacated by rekey.", "quantifier": "for all defaults, keys and operation sequences", "why_tests_cant": "Only non-Default defaults in combination with rekey expose it.", "anchors": ["src/unmanaged.rs: rekey, set, take, swap"]}
{"id": "C23", "title": "A hierarchy is always a forest", "statement": "Starting from Hierarchy::new(), any sequence of push_child, push_front_child, insert_before, insert_after, detach, remove, detach_children, swap_nodes and rekey keeps the parent relation acyclic, with every node listed exactly once among its parent's children.", "quantifier": "for all operation sequences and nodes", "why_tests_cant": "Histories are unbounded and sibling links are intrusive doubly linked lists.", "anchors": ["src/hierarchy.rs: Hierarchy"]}
{"id": "C24", "title": "Child lists behave as ordered lists", "statement": "children(p) yields the children in order; push_child appends, push_front_child prepends, insert_before/after place next to the sibling, detach/remove erase one node and keep the order of the rest, child_count equals the list length, and failing calls change nothing.", "quantifier": "for all reachable hierarchies and nodes", "why_tests_cant": "Pointer manipulation in all states.", "anchors": ["src/hierarchy.rs: push_child, push_front_child, insert_before, insert_after, detach, children, child_count"]}
{"id": "C25", "title": "Hierarchy swap and rekey are renamings", "statement": "swap_nodes(a,b) exchanges the roles of a and b (also for parent/child and adjacent siblings), and rekey(old,new) moves old's place in the tree to the unused new; rekey(n,n) does nothing.", "quantifier": "for all reachable hierarchies and nodes", "why_tests_cant": "Many aliasing cases.", "anchors": ["src/hierarchy.rs: swap_nodes, rekey"]}
{"id": "C26", "title": "descendants enumerates the subtree once", "statement": "descendants(n) yields n first and then exactly the nodes below n, each once, in order of non-decreasing depth.", "quantifier": "for all forests and nodes", "why_tests_cant": "All tree shapes.", "anchors": ["src/hierarchy.rs: Descendants"]}
{"id": "C27", "title": "toposort yields a topological order", "statement": "On a port graph, toposort(sources) never yields a node before one of its predecessors, yields each node at most once, and on an acyclic graph with all source nodes given it yields every node.", "quantifier": "for all graphs and source sets", "why_tests_cant": "All DAG shapes.", "anchors": ["src/algorithms/toposort.rs: TopoSort"]}
{"id": "C28", "title": "postorder visits the reachable set once, children first", "statement": "postorder(sources) yields exactly the nodes reachable from the sources, each once; on acyclic graphs each node comes after all its successors.", "quantifier": "for all graphs and sources", "why_tests_cant": "All graphs, including cycles.", "anchors": ["src/algorithms/post_order.rs: PostOrder"]}
{"id": "C29", "title": "dominators computes the dominator tree", "statement": "immediate_dominator(n) is the closest node other than n that lies on every path from the entry to n, and None for the entry and unreachable nodes.", "quantifier": "for all graphs and entries", "why_tests_cant": "Fixpoint over all graphs; depends on nodes unreachable from the entry.", "anchors": ["src/algorithms/dominators.rs: DominatorTree"]}
{"id": "C30", "title": "lca finds the lowest common ancestor", "statement": "lca(a,b) is the deepest node that is an ancestor-or-self of both, None for different trees; is_ancestor is exact.", "quantifier": "for all forests and node pairs", "why_tests_cant": "Binary lifting is only interesting on deep, irregular trees.", "anchors": ["src/algorithms/lca.rs: LCA"]}
{"id": "C31", "title": "TopoConvexChecker decides convexity", "statement": "On an acyclic graph is_node_convex(S) holds exactly when no path between two nodes of S leaves S, whatever topological order was precomputed.", "quantifier": "for all DAGs, node sets and topological orders", "why_tests_cant": "All DAGs and subsets.", "anchors": ["src/algorithms/convex/topo_convex_checker.rs: is_node_convex, is_convex"]}
{"id": "C32", "title": "LineConvexChecker decides convexity", "statement": "On an acyclic graph the line based check agrees with the path definition of convexity.", "quantifier": "for all DAGs and node sets", "why_tests_cant": "All DAGs and subsets.", "anchors": ["src/algorithms/convex/line_convex_checker.rs"]}
{"id": "C33", "title": "DynamicTopoSort keeps a topological order", "statement": "After any sequence of add_node, connect_nodes, disconnect_nodes and remove_node that mirror graph edits, get_order() lists every node once and each edge goes forward.", "quantifier": "for all DAG histories", "why_tests_cant": "Reordering after an edge insertion depends on the whole order.", "anchors": ["src/algorithms/dynamic.rs: connect_nodes, update_order"]}
{"id": "C34", "title": "DynamicTopoConvexChecker decides convexity", "statement": "is_convex(S, [], []) holds exactly when no path between two nodes of S leaves S, and link_ports accepts every link that keeps the graph acyclic.", "quantifier": "for all DAGs and node sets", "why_tests_cant": "All DAGs and subsets.", "anchors": ["src/algorithms/dynamic.rs: is_convex, has_path_outside_subgraph, link_ports"]}
{"id": "C35", "title": "Boundary port order is a faithful partial order", "statement": "The port ordering of a boundary contains (i,o) exactly when output o is reachable from input i inside the subgraph; is_stronger_than holds exactly when missing_pairs is empty and is reflexive and transitive.", "quantifier": "for all boundaries and orderings", "why_tests_cant": "All relations.", "anchors": ["src/boundary.rs: PortOrdering, Boundary"]}
{"id": "C36", "title": "Subgraph views restrict to the selected nodes", "statement": "A Subgraph contains exactly its selected nodes that the graph contains, and shows exactly the links between its nodes that do not cross its boundary ports.", "quantifier": "for all graphs and boundaries", "why_tests_cant": "All graphs and boundaries.", "anchors": ["src/view/subgraph.rs: Subgraph"]}
{"id": "C37", "title": "Filtered views show the filtered graph", "statement": "A FilteredGraph contains exactly the nodes accepted by the node filter and the links accepted by the link filter whose ends are both contained, and link_count() is the number of such links.", "quantifier": "for all graphs and filters", "why_tests_cant": "All graphs and predicates.", "anchors": ["src/view/filter.rs: FilteredGraph"]}
{"id": "C38", "title": "Region views show the descendants", "statement": "Region contains exactly the root and its descendants; FlatRegion exactly the root and its children; the descendant cache never changes an answer.", "quantifier": "for all forests, roots and query sequences", "why_tests_cant": "Answers depend on the cache filled by earlier queries.", "anchors": ["src/view/region.rs", "src/view/flat_region.rs"]}
{"id": "C39", "title": "MultiPortGraph shows a multigraph on the main nodes", "statement": "The nodes and ports of a MultiPortGraph are those added by the user; link_ports(a,b) adds exactly one link between a and b, and port_links(a) lists all of them; helper nodes are never visible.", "quantifier": "for all operation histories", "why_tests_cant": "Helper nodes are allocated in the underlying graph.", "anchors": ["src/multiportgraph.rs", "src/multiportgraph/iter.rs"]}
{"id": "C40", "title": "MultiPortGraph counters exclude helper nodes", "statement": "node_count, port_count and link_count equal the numbers of visible nodes, ports and links.", "quantifier": "for all operation histories", "why_tests_cant": "Counts are derived from internal counts by subtraction.", "anchors": ["src/multiportgraph.rs: node_count, port_count, link_count"]}
{"id": "C41", "title": "MultiPortGraph edits keep the flags consistent", "statement": "set_num_ports, unlink_port and remove_node keep every surviving port's links and leave a graph on which all queries work.", "quantifier": "for all operation histories", "why_tests_cant": "Flag bits are moved by callbacks during in-place shifts.", "anchors": ["src/multiportgraph.rs: set_num_ports, unlink_port"]}
{"id": "C42", "title": "Weights follow their nodes and ports", "statement": "Weights read the default for unset keys, and after compact_nodes/compact_ports with the documented rekey callbacks every live node and port keeps its weight.", "quantifier": "for all graphs and weights", "why_tests_cant": "Sequential in-place rekeying is correct only due to the order of the callbacks.", "anchors": ["src/weights.rs", "src/unmanaged.rs: rekey"]}
{"id": "C43", "title": "petgraph traits meet petgraph's contract", "statement": "VisitMap::visit returns true exactly on the first visit, and node_bound is larger than every node's index.", "quantifier": "for all graphs and visit sequences", "why_tests_cant": "Fails only after removals or for certain return conventions.", "anchors": ["src/view/petgraph.rs"]}
{"id": "C44", "title": "Renderings draw each node and link once", "statement": "The dot output contains one statement per node and one edge per link; the mermaid explorer emits every visible node and every link exactly once and subgraph markers are balanced.", "quantifier": "for all graphs and forests", "why_tests_cant": "Edge emission is delayed by lowest common ancestor.", "anchors": ["src/render/dot.rs", "src/render/mermaid.rs"]}
{"id": "C45", "title": "copy_in_parent copies the subgraph", "statement": "Subgraph::copy_in_parent creates a copy of each node of the subgraph and each internal link once, links the copy's boundary to the same outside ports where allowed, and on error leaves all observations unchanged.", "quantifier": "for all graphs and subgraphs", "why_tests_cant": "All graphs.", "anchors": ["src/view/subgraph.rs: copy_in_parent"]}
{"id": "C46", "title": "Freed node slots are always reused", "statement": "add_node only takes a new index if there is no free slot, so node indices stay below the largest number of nodes that were alive at once (since the last compaction).", "quantifier": "for all histories without swap_nodes", "why_tests_cant": "Leak freedom is a property of whole histories.", "anchors": ["src/portgraph.rs: alloc_node, free_node"]}
{"id": "C47", "title": "Provided link methods", "statement": "link_nodes and link_offsets join exactly the two named endpoints or report the missing offset and change nothing; get_connection returns the connection at the lowest output port and connected tells whether any exists.", "quantifier": "for all reachable graphs, nodes and offsets", "why_tests_cant": "All graphs and all offset pairs, including missing ones.", "anchors": ["src/view.rs: LinkMut::link_nodes, LinkMut::link_offsets, LinkView::get_connection, LinkView::connected"]}
{"id": "C48", "title": "Capacities of views are consistent with their counts", "statement": "In every graph view the node and port capacities are at least the node and port counts; a subgraph or region has the same spare capacity as the graph below it.", "quantifier": "for all graphs and all nestings of views", "why_tests_cant": "The capacity is computed by a subtraction from the base graph.", "anchors": ["src/view/subgraph.rs: node_capacity, port_capacity", "src/view/region.rs: node_capacity", "src/view/flat_region.rs: node_capacity", "src/view/filter.rs: node_capacity"]}
{"id": "C49", "title": "petgraph edge and neighbour iterators", "statement": "edge_references yields each link exactly once with its source and target, edges and edges_directed(Outgoing) yield exactly the links that start at the node, edges_directed(Incoming) the links that end there with the node as target, and neighbors lists the other ends once per link.", "quantifier": "for all graphs, views and nodes", "why_tests_cant": "All graphs; parallel links and self links matter.", "anchors": ["src/view/petgraph.rs: EdgeRefs, NodeEdgeRefs, impl_petgraph_traits"]}
{"id": "C50", "title": "Adjacency matrices are exact", "statement": "adjacency_matrix does not panic, and is_adjacent(a, b) is true exactly if there is a link from a to b, for all nodes a, b.", "quantifier": "for all graphs and views", "why_tests_cant": "Row sizes depend on capacities and on removed or hidden nodes.", "anchors": ["src/view/petgraph.rs: impl_visit_dense, impl_visit_sparse"]}
{"id": "C51", "title": "Mermaid text is robust against labels", "statement": "encode_label yields one quoted string without quotes and line breaks inside, from which the label can be read back; labels and edge styles never make the renderer panic; the lines of the mermaid text are exactly the lines of its statements, indented by the number of open subgraphs, whatever the labels are.", "quantifier": "for all labels, styles, graphs and forests", "why_tests_cant": "Labels are arbitrary strings.", "anchors": ["src/render.rs", "src/render/mermaid.rs: encode_label, MermaidBuilder"]}
{"id": "C52", "title": "Iterators of multiport graphs answer every sequence of calls", "statement": "For each iterator of a multiport graph (nodes, ports, links, connections, subports, neighbours) and the link iterator of a port graph, any sequence of next and (where offered) next_back calls is answered exactly as by taking items off the two ends of one list, the list that the view shows; once exhausted it stays exhausted; the size_hint is right after every call.", "quantifier": "for all reachable multiport graphs, nodes, ports, directions and call sequences", "why_tests_cant": "Interleavings of calls from both ends on graphs with copy nodes are unbounded.", "anchors": ["src/multiportgraph/iter.rs: Nodes, Ports, NodeSubports, Neighbours, NodeConnections, NodeLinks, PortLinks", "src/portgraph/iter.rs: NodeLinks"]}
{"id": "C53", "title": "Traversals and convexity checks work on every view", "statement": "toposort, postorder, dominators and TopoConvexChecker, given any type of graph (port graph, multiport graph, filtered graph, region, subgraph), do not panic and answer about the nodes and links which that view shows: a topological order of the view, the nodes reachable in the view with successors first, the immediate dominators in the view, and whether a path of the view leaves the given nodes.", "quantifier": "for all views whose queries describe one graph, all sources, filters and directions", "why_tests_cant": "Views nest arbitrarily over arbitrary graphs; the capacity of a view and several links per port matter only for some index layouts.", "anchors": ["src/algorithms/toposort.rs", "src/algorithms/post_order.rs", "src/algorithms/dominators.rs", "src/algorithms/convex/topo_convex_checker.rs", "src/view/*.rs: node_capacity"]}
{"id": "C54", "title": "Line partition and intervals of every view", "statement": "LineConvexChecker, given any type of acyclic graph (port graph, multiport graph, filtered graph, region, subgraph), partitions its links into lines: each line is a path of the view, each link is on a line of its own among the lines of the ports at its ends (lines_at_port), positions grow along links. is_node_convex, is_convex and is_convex_by_intervals decide convexity in the view; get_intervals_from_nodes and get_intervals_from_boundary(_ports) find intervals exactly when the nodes are contiguous on each line; try_extend_intervals succeeds exactly when the nodes with the new one are contiguous, and otherwise changes nothing; nodes_in_intervals yields the nodes of the intervals once, ordered by position. None of them panics.", "quantifier": "for all acyclic views whose queries describe one graph, all sets of nodes, intervals which represent them, boundaries and ports", "why_tests_cant": "The lines depend on the order of ports and on which of several links of a port is popped first; the positions of nodes on a line have gaps; the interpolation search uses floating point.", "anchors": ["src/algorithms/convex/line_convex_checker.rs", "src/boundary.rs: internal_nodes, from_ports"]}
{"id": "C55", "title": "Serialisation round trip", "statement": "Serialising a PortGraph, MultiPortGraph, Hierarchy, Weights, UnmanagedDenseMap, PortOffset, SubportIndex, index or Direction (feature serde) and deserialising the result gives an equal value, including free slots and free lists, with named fields or as sequences, in any order of the fields; equal serialised graphs are equal.", "quantifier": "for all graphs and hierarchies reached by any history of calls (index space not exhausted), all maps whose values survive, all offsets", "why_tests_cant": "The proptest serialises random graphs built without removals; links in free slots, free lists, packed port metadata with the direction bit and limits of the integer types are not reached.", "anchors": ["src/index.rs: serde impls", "src/portgraph.rs: derives of PortGraph, NodeMeta, NodeEntry, FreeNodeEntry, PortMeta, PortEntry", "src/multiportgraph.rs", "src/hierarchy.rs: NodeData", "src/unmanaged.rs", "src/weights.rs"]}
{"id": "C56", "title": "Deserialisation refuses what is not a graph", "statement": "Deserialising any data into an index, offset or graph either fails with an error or gives a consistent value: no panic, no index changed silently, and a graph that its calls accept.", "quantifier": "for all data", "why_tests_cant": "Tests only read data written by the library itself.", "anchors": ["src/index.rs: Deserialize for NodeIndex, PortIndex, MaybeNodeIndex, PortOffset", "src/portgraph.rs: derive(Deserialize)"]}
{"id": "C57", "title": "Optional indices, orders and flags", "statement": "MaybeNodeIndex/MaybePortIndex behave as an Option of the index under every sequence of calls (is_none, is_some, expect, take, replace, as_mut, to_option, equality, iteration); indices are ordered as their numbers and offsets with the incoming ones first; a BitField holds a number and a flag, or nothing, under every sequence of calls and panics only where an unset field has nothing to change; directions are the numbers 0 and 1.", "quantifier": "for all widths from 2 bits, all indices up to the maximum, all sequences of calls", "why_tests_cant": "Unit tests look at a few values; the packed flag and the all-ones encoding of None interact at the borders of the range and over several calls.", "anchors": ["src/index.rs: MaybeIndex macro, BitField, Direction, PortOffset, Default, Ord"]}
{"id": "C58", "title": "Iterators answer every sequence of calls", "statement": "NodePorts, Nodes, Ports, NodePortOffsets, Children, Descendants and the iterators of dense maps, bit vectors and hash sets answer every interleaving of next, next_back, nth, count, len and size_hint (those they have) as an iterator over the list of their items; also nth past the end, calls after the end and both ends meeting.", "quantifier": "for all reachable graphs and hierarchies, all maps, all sequences of calls", "why_tests_cant": "Tests collect the iterators; mixed calls from both ends with hand kept counters (len, Enumerate, linked list of siblings) are not tried.", "anchors": ["src/portgraph/iter.rs", "src/hierarchy.rs: Children, Descendants", "src/unmanaged.rs: iter", "src/secondary.rs: iter of BitVec and HashSet"]}
{"id": "C59", "title": "Boundary ports name the ports of a boundary", "statement": "A boundary made of two lists has exactly the boundary ports (direction, position below the length of the list); ports lists them in order, port_index gives the port at the position and panics for others, find_port gives the first boundary port naming a port and panics if there is none, and is the inverse of port_index if no port is repeated; is_compatible says whether two boundaries have the same boundary ports; from_ports keeps order and directions. reachable_ports and reaching_ports of an order show the same pairs, exactly those added, and in a computed order exactly the pairs of ports joined by a path.", "quantifier": "for all lists of ports, all sequences of add_order, all views meeting the conditions of C35", "why_tests_cant": "Tests use boundaries of a few distinct ports and look at one end of the order only.", "anchors": ["src/boundary.rs: BoundaryPort, new, num_ports, find_port, ports, port_index, is_compatible, port_indices", "src/boundary.rs: PortOrdering::reachable_ports, reaching_ports, add_order"]}
{"id": "C60", "title": "The random graph generators build the graph they drew", "statement": "For every list of drawn edges (pairs of ends given by vertex and port number) the test generators graph_from_edges/gen_portgraph/gen_multiportgraph do not panic; the graph has one node for each vertex of the edges (at least one), each node has as many inputs and outputs as the largest port number drawn asks for, and the links are exactly the edges drawn; gen_node_index gives a node of the graph.", "quantifier": "for all sizes given to the generators within the offset range and all random draws", "why_tests_cant": "All property tests of the crate rest on these generators; nothing tests the generators themselves for every draw.", "anchors": ["src/proptest.rs"]}
{"id": "C61", "title": "Inserting any view into any graph", "statement": "insert_graph of any view (a graph, a filtered graph, a region, a subgraph, nested views) into a MultiPortGraph, or of a view with at most one link per port into a PortGraph, succeeds: one new node for each node of the view with the same ports, one new link for each link of the view between the ports at the same offsets, everything that was there is unchanged, and the node, port and link counters grow by those of the view. Any other view is refused by a PortGraph with AlreadyLinked, and what was in the graph is kept.", "quantifier": "for all reachable graphs, all views describing a graph, with at most as many ports per node and subports per port as the types allow", "why_tests_cant": "The tests insert a few fixed portgraphs into portgraphs; the provided method is generic in both arguments and its cases (self loops, several links at a port, links out of the view) depend on both.", "anchors": ["src/view.rs: LinkMut::insert_graph, link_offsets"]}
{"id": "C62", "title": "== compares what can be observed", "statement": "Two hierarchies are == exactly if every node has the same list of children, and equal hierarchies answer every call alike and stay equal. Two regions are == exactly if root, graph and children lists are, whatever was asked of them (and cached) before. Two port graphs are == exactly if they have the same nodes, the same ports at each offset and the same links.", "quantifier": "for all reachable graphs and hierarchies, all roots, all queries asked before the comparison", "why_tests_cant": "The tests compare a few graphs after a round trip. Equality is derived over private vectors, so whether two histories that lead to the same graph compare equal depends on the whole history.", "anchors": ["src/portgraph.rs: derive(PartialEq) for PortGraph, NodeMeta, PortMeta", "src/hierarchy.rs: derive(PartialEq) for Hierarchy", "src/unmanaged.rs: PartialEq for UnmanagedDenseMap", "src/view/region.rs: PartialEq for Region"]}
{"id": "C63", "title": "Laws of views", "statement": "A view is determined by its ports, its nodes and the links of its ports: all other queries follow. Filtering twice is filtering once with both conditions. The subgraph of a subgraph, the region below a node of a region and the flat region at a node of a region are those of the graph itself. A subgraph, a region and a flat region show the same graph as the graph filtered by their nodes, a filter on a subgraph shows the same graph as the subgraph of the filtered graph, and filters and subgraphs of views that show the same graph show the same graph.", "quantifier": "for all views describing a graph, all filters, all sets of nodes, all hierarchies", "why_tests_cant": "The tests look at single views of fixed graphs; that two stacks of wrappers answer every query alike ranges over all graphs, filters and queries.", "anchors": ["src/view/filter.rs: FilteredGraph", "src/view/subgraph.rs: Subgraph", "src/view/region.rs: Region", "src/view/flat_region.rs: FlatRegion"]}
{"id": "C64", "title": "A MultiPortGraph without multiple links is a PortGraph", "statement": "As long as link_ports is called for ports without link, a MultiPortGraph made of a PortGraph does in every call exactly what the PortGraph does (same panics, returned values, reported moves) and keeps no helper nodes; all its queries answer as those of the PortGraph, with offset 0 for every subport.", "quantifier": "for all port graphs and all sequences of calls without a second link at a port", "why_tests_cant": "The tests repeat a few port graph tests for multiport graphs; the equivalence is about all histories and all queries.", "anchors": ["src/multiportgraph.rs: impl PortMut, LinkMut, PortView, LinkView, MultiView, From<PortGraph>"]}
{"id": "C65", "title": "Dot text can be read back", "statement": "Rendering any graph to dot text never panics. A reader that knows only the format finds in the text exactly one line for each node that is not hidden (with its attributes, its label, and a table whose cells are its shown ports by offset with their labels, every row as wide as the label row), one line for each link leaving such a node (with the positions of both ports and the style) and the lines of the hierarchy, in this order, and nothing else. Two graphs that have the same text have the same nodes, labels, numbers of ports and links.", "quantifier": "for all views of all graphs, all style functions, all hierarchies", "why_tests_cant": "The tests compare the text with a snapshot for a few graphs; that no port, link or label is lost, doubled or confused with others is about all graphs and all style texts.", "anchors": ["src/render/dot.rs: DotFormatter::finish, node_and_edge_strings, get_port_strings, get_ports_row_dot, get_edge_dot, hierarchy_strings, encode_presentation_attrs", "src/render.rs: NodeStyle, PortStyle, EdgeStyle"]}
{"id": "C66", "title": "Calls that undo each other", "statement": "Port graphs: link_ports with the two ports restores the state after unlink_port exactly, and swap_nodes twice is the identity. Removing a node without links, whose slots are all in use, and adding a node with the same numbers of ports gives the same node with the same ports, and removing a node that was just added gives the same nodes, ports, links and counts as before; all that can differ is the length of the vector of free lists, and that changes no answer of any later call. Giving a node more ports and then the old numbers again restores the graph, and following both reports of moves leads each port to its place. Hierarchies: detach undoes every successful call that attaches a node (except below itself) and returns the parent below which it was put; a detached node can be put back by insert_before, insert_after, push_child or push_front_child next to its former siblings; swap_nodes twice and rekey there and back are the identity. Here the hierarchies are equal as `==` compares them.", "quantifier": "for all reachable graphs and hierarchies, all nodes and ports, all later calls", "why_tests_cant": "That two states have the same future is about all sequences of calls, and free lists and vectors of entries hide differences that show only later.", "anchors": ["src/portgraph.rs: link_ports, unlink_port, add_node, remove_node, alloc_ports, free_ports, set_num_ports, swap_nodes", "src/hierarchy.rs: push_child, push_front_child, insert_before, insert_after, detach, swap_nodes, rekey"]}
{"id": "C67", "title": "Calls that commute", "statement": "Two calls of link_ports or unlink_port that touch different ports give the same results and exactly the same graph in either order. Two successful calls that attach nodes to a hierarchy (not below themselves) below different parents succeed in the other order too, with an equal hierarchy; two detach calls commute, and so do a successful attaching call and the detach of a node that this call does not name.", "quantifier": "for all reachable graphs and hierarchies, all pairs of calls", "why_tests_cant": "Independence of calls is about all pairs of calls in all states.", "anchors": ["src/portgraph.rs: link_ports, unlink_port", "src/hierarchy.rs: push_child, push_front_child, insert_before, insert_after, detach"]}
{"id": "C68", "title": "Different algorithms agree", "statement": "On every port graph: toposort from the nodes without predecessors yields all nodes, and leaves no port, exactly if the graph has no cycle; postorder from all nodes lists successors first exactly if it has none. On acyclic graphs the reversed postorder, and the reversed toposort against the links, are topological orders with which TopoConvexChecker gives the same answers as with its own; LineConvexChecker agrees with it on non-empty lists of distinct nodes, and both accept what DynamicTopoConvexChecker accepts. If the predecessors of all nodes reached from the entry are reached too, the nodes on the chain of immediate dominators of n are exactly those without which postorder_filtered does not reach n, and on acyclic graphs an immediate dominator comes before its node in toposort and after it in postorder. On every hierarchy descendants, the queries of a Region and LCA::is_ancestor agree, and lca(a, b) is the node above both that is below every other such node.", "quantifier": "for all reachable graphs and hierarchies, all sources, entries and sequences of queries", "why_tests_cant": "The tests run each algorithm on its own small graphs and never compare two algorithms; agreement is about all graphs.", "anchors": ["src/algorithms/toposort.rs: toposort, ports_remaining", "src/algorithms/post_order.rs: postorder, postorder_filtered", "src/algorithms/dominators.rs: dominators, immediate_dominator", "src/algorithms/convex: TopoConvexChecker, LineConvexChecker", "src/algorithms/dynamic.rs: DynamicTopoConvexChecker", "src/algorithms/lca.rs: LCA", "src/hierarchy.rs: descendants", "src/view/region.rs: Region"]}
{"id": "C69", "title": "Multigraph calls that undo each other or commute", "statement": "unlink_subport on either subport restores the multigraph exactly after a successful link_subports, and link_subports restores it exactly after unlink_subport. unlink_subport on a subport that link_ports returned gives back the nodes, ports and links from before; the two subports may stay behind, and linking the two ports again gives the same subports and the same state. remove_node on a node just added gives what was shown before, swap_nodes of two nodes twice is the identity. Two calls of link_subports or unlink_subport that touch different subports give the same results and exactly the same multigraph in either order.", "quantifier": "for all reachable multigraphs, all nodes, ports and subports, all pairs of calls", "why_tests_cant": "Subports live on hidden copy nodes, so whether a call leaves something behind shows only in later calls; the claims are about all states.", "anchors": ["src/multiportgraph.rs: link_subports, unlink_subport, link_ports, add_node, remove_node, swap_nodes, get_free_multiport"]}
{"id": "C70", "title": "The dynamic convexity checker and the graph calls it passes on", "statement": "DynamicTopoConvexChecker passes set_num_ports, compact_ports, swap_nodes, compact_nodes and clear on to its graph, and its topological order stays valid: it still lists exactly the nodes of the graph, each arc going forward.", "quantifier": "for all checkers whose order is valid and all arguments of the calls", "why_tests_cant": "The order is private and goes wrong silently; a test sees it only in later answers of is_convex or panics of later calls, for some graphs.", "anchors": ["src/algorithms/dynamic.rs: impl PortMut for DynamicTopoConvexChecker (delegate block, lines 372-382)"]}
{"id": "C71", "title": "Subgraphs by nodes and by boundary", "statement": "new_subgraph with the boundary that with_nodes found for a set of nodes gives the same nodes exactly if the set has all nodes of the graph, or it is not empty and each of its nodes is connected, by links within the set, to a node with a link leaving the set. In general it gives the nodes of the set connected in this way, or all nodes if no link leaves the set. The boundary that with_nodes finds for the nodes of new_subgraph(boundary) consists of the ports of this boundary whose link leads to a node outside.", "quantifier": "for all views with at most one link per port, all lists of their nodes, all boundaries of their ports", "why_tests_cant": "The two constructors are separate code (a search from the boundary ports against a scan of the ports of the nodes); that they fit together is a statement about all graphs and all sets.", "anchors": ["src/view/subgraph.rs: new_subgraph, with_nodes, collect_boundary_ports", "src/boundary.rs: internal_nodes"]}
{"id": "C72", "title": "Hierarchy calls that undo each other, agree or commute", "statement": "detach undoes every successful attachment; attaching a detached node at its old place (insert_before the next child, insert_after the previous one, push at the end or the front) undoes detach; pushing the former children back in order undoes detach_children; swap_nodes undoes itself; rekey to an unused node is swap_nodes and is undone by rekey back. remove is detach and detach_children in either order. Two detach calls commute with their results. Two attachments under different parents that succeed in one order succeed in the other with the same child lists. Without children push_child and push_front_child agree; for a root push_child is insert_after the last child and push_front_child insert_before the first; insert_after a child is insert_before the next one, errors included.", "quantifier": "for all hierarchies reachable by calls, all nodes below 2^31, all successful attachments", "why_tests_cant": "Each law relates two call sequences over all hierarchies; the linked lists of siblings make wrong cases (first, last, only child, nested parents) easy to miss by samples.", "anchors": ["src/hierarchy.rs: push_child, push_front_child, insert_before, insert_after, detach, detach_children, remove, swap_nodes, rekey"]}
{"id": "C73", "title": "The machine words of a PortGraph are exactly those of the graph of numbers", "statement": "As long as the node and port vectors have at most 2^31 - 1 slots and the arguments are at most 2^31 - 1, every history of calls on the actual representation (NodeIndex and PortIndex as u32 words, optional indices with all ones for None, PortMeta as (node + 1) with the direction in the top bit, u16 counts with incoming plus one) does what it does on natural numbers: no call panics, every answer, error and callback carries the word of the same index, and the memory at the end is word for word the encoding of the graph of numbers. Different graphs have different words. All queries (port_node, port_index, port_link, port_direction, port_offset for each offset width, counts, contains) give the words of their answers, and the values passed to NonZeroU16::new_unchecked and NonZeroU32::new_unchecked are never zero.", "quantifier": "for all histories of add_node, remove_node, link_ports, unlink_port, set_num_ports, compact_nodes, compact_ports, swap_nodes and clear within the limits, all queries, all offset widths", "why_tests_cant": "The limit of 2^31 slots is far outside any test, the safety comments on new_unchecked speak about all states, and a wrong bit would only show for particular indices.", "anchors": ["src/portgraph.rs: NodeMeta, PortMeta, NodeEntry, PortEntry, alloc_node, alloc_ports, free_ports, all of PortMut and LinkMut", "src/index.rs: BitField, NodeIndex, PortIndex, MaybeNodeIndex, MaybePortIndex"]}
{"id": "C74", "title": "A growing graph panics instead of handing out an index above the maximum", "statement": "NodeIndex::new and PortIndex::new document a panic above the maximal index, and the graph relies on them when it grows: no call ever hands out a node index above max_index or one that is in use, and the ports of a new node read back as its own.", "quantifier": "for all histories and all numbers of slots", "why_tests_cant": "The smallest violation needs 2^31 slots.", "anchors": ["src/index.rs: BitField::new, NodeIndex::new, PortIndex::new", "src/portgraph.rs: alloc_node, alloc_ports, PortMeta::new"]}
{"id": "C75", "title": "Port slots of a node follow the calls", "statement": "Changes to the number of ports of a node do not reallocate until the number of ports exceeds node_port_capacity. In detail: node_port_capacity is never less than the number of ports of the node and is 0 for unknown nodes. add_node gives a node exactly as many slots as ports; set_num_ports keeps the slots if they suffice, in which case the ports stay in place, and otherwise takes the least power of two that suffices; compact_ports leaves as many slots as ports; swap_nodes and compact_nodes take the slots along; all other calls and all other nodes are unaffected. No node gets more than 32768 slots unless it was added with more ports.", "quantifier": "for all histories, all calls, all nodes", "why_tests_cant": "The slots depend on the whole history of a node, and the bound only shows at 2^15 ports.", "anchors": ["src/portgraph.rs: node_port_capacity, alloc_ports, set_num_ports, resize_ports_inplace, compact_ports"]}
{"id": "C76", "title": "The machine words of a Hierarchy are exactly those of the forest of numbers", "statement": "With nodes of index below 2^31, every call of a Hierarchy on its machine words (32-bit node indices, all ones for None, a 32-bit number of children) panics exactly if the same call on plain numbers does, returns the word of the same answer and leaves the words of the same hierarchy; likewise all queries and the iterators over children and descendants. Different hierarchies have different words. With node indices of top bit set, which NodeIndex::new does not refuse, this fails: such an index is another name of the same slot, cycle checks by name miss it, and shrink_to beyond 2^31 slots disconnects low nodes.", "quantifier": "for all histories, all calls, all nodes below 2^31", "why_tests_cant": "The words are at the limits only with 2^31 nodes or 2^32 children.", "anchors": ["src/hierarchy.rs: all calls", "src/index.rs: NodeIndex, MaybeNodeIndex"]}
{"id": "C77", "title": "Traversals do not depend on the numbers of nodes and ports", "statement": "If a graph holds a copy of another (node n as node rho(n), with the same port counts and the same links at offsets), then toposort, postorder and dominators on the copy, from the copies of the sources and with filters that answer alike, give the copies of what they give on the origin, in the same order; toposort marks ports at the same offsets; dominators fails on one exactly if on the other. So graphs with the same nodes, counts and links have the same traversals whatever calls produced them; compact_nodes, compact_ports and swap_nodes only rename the results; and after insert_graph both the old part and the inserted part are traversed as before.", "quantifier": "for all reachable graphs and copies, all filters, both directions, all sources, all capacities of the bit maps, both defaults of the port map", "why_tests_cant": "A traversal that looks at index order, a stale slot or the other part of the graph agrees with the tests, whose graphs are numbered in order of creation.", "anchors": ["src/algorithms/toposort.rs", "src/algorithms/post_order.rs", "src/algorithms/dominators.rs", "src/portgraph.rs: compact_nodes, compact_ports, swap_nodes, insert_graph"]}
{"id": "C78", "title": "The documented running times of the ancestor queries", "statement": "LCA::new takes O(n log n) steps, root O(log n) and lca O(log n): on a hierarchy fewer than 2^k levels deep, new pushes at most k entries per node and takes two rounds per node, and the loops of root and lca take a number of rounds linear in k.", "quantifier": "for all hierarchies made by any history of calls, all graphs holding the roots, all pairs of nodes", "why_tests_cant": "Tests check answers, not numbers of rounds; the hierarchies of the tests have at most 7 levels, where a square of a logarithm is not visible.", "anchors": ["src/algorithms/lca.rs:10-170"]}
{"id": "C79", "title": "The mermaid text tells the graph", "statement": "Mermaid output can be read back without knowing the graph: equal texts come from views with the same nodes, the same labels, the same parents in the hierarchy, and for every ordered pair of nodes and every kind of arrow the same number of links.", "quantifier": "for all views, hierarchies, styles and orders of the delayed edges", "why_tests_cant": "Snapshot tests compare the text of a few graphs with itself; that no two different graphs share a text is a statement about all pairs.", "anchors": ["src/render/mermaid.rs", "src/render.rs"]}
{"id": "C80", "title": "Compaction gives a normal form", "statement": "After compact_nodes and compact_ports, in either order, the state in memory depends only on the nodes, ports and links in the order of their indices, not on the history: graphs that show the same are equal in every slot, free list and counter, and compacting again changes nothing and reports identities.", "quantifier": "for all histories of calls and pairs of graphs that correspond in order", "why_tests_cant": "Tests compare queries after one compaction of one graph; that nothing of the history is left in slots and free lists is about all pairs of histories.", "anchors": ["src/portgraph.rs:585-713"]}
{"id": "C81", "title": "The bit vectors of a multigraph hold exactly the flags", "statement": "Two bit vectors that grow on demand represent the flags of a MultiPortGraph: every sequence of calls gives the same results and panics as with flags for all indices; one bit is set for each copy node and two for its ports, none at free slots; == holds if and only if the port graphs, counts and flags agree and the vectors have the same lengths, and multigraphs with the same flags behave alike forever.", "quantifier": "for all sequences of calls, port graphs and indices", "why_tests_cant": "A stale or missing bit shows only when its slot is used again; tests visit few histories.", "anchors": ["src/multiportgraph.rs:32-45", "src/multiportgraph.rs:190-510", "src/secondary.rs:115-185"]}
{"id": "C82", "title": "Compaction gives a normal form of multigraphs", "statement": "After compact_nodes and compact_ports, in either order, a MultiPortGraph depends only on its nodes, copy nodes, ports and links in the order of their indices and not on the history: multigraphs that correspond have equal port graphs, counters and flags and behave alike from then on; a second compaction changes nothing and reports identities.", "quantifier": "for all histories of calls and pairs of multigraphs that correspond in order", "why_tests_cant": "About all pairs of histories; the tests compact one graph.", "anchors": ["src/multiportgraph.rs:244-267", "src/portgraph.rs:585-713"]}
{"id": "C83", "title": "Size and positions of the line partition", "statement": "The lines of LineConvexChecker::new are paths of the graph and every link is on exactly one of them; no partition of the links into paths has fewer paths; the position of a node is the length of the longest path to it and less than the number of nodes; a node is on as many lines as it has links on the side with more links and at least on one; the lines have one step for each link and their number is at most the number of nodes and links.", "quantifier": "for all views whose queries describe one graph without cycles, and all line partitions built for them", "why_tests_cant": "About all graphs and all other partitions; the tests look at the lines of one graph.", "anchors": ["src/algorithms/convex/line_convex_checker.rs:25-34", "src/algorithms/convex/line_convex_checker.rs:65-86", "src/algorithms/convex/line_convex_checker.rs:141-178", "src/algorithms/convex/line_convex_checker.rs:539-627"]}
{"id": "C84", "title": "Line checker with floating point numbers", "statement": "The interpolation search of find_index, computed in 64 bit floating point numbers with every operation rounded, never looks outside the bounds of the search, so find_index finds every node on its line, and is_node_convex, is_convex, get_intervals_from_nodes, is_convex_by_intervals, try_extend_intervals and nodes_in_intervals answer as they would with exact numbers.", "quantifier": "for all views whose queries describe one graph without cycles with at most 2^53 nodes, all line partitions built for them, all node sets and intervals", "why_tests_cant": "Rounding errors depend on the exact lengths and positions; a guess outside the bounds for one pair of large numbers would panic or loop.", "anchors": ["src/algorithms/convex/line_convex_checker.rs:453-497"]}
{"id": "C85", "title": "Port slots are neither lost nor shared", "statement": "The slabs of port slots reserved for live nodes and the slabs on the lists of free slabs tile the port tables: every slot belongs to exactly one of them, so the tables are as long as the capacities of the nodes and the sizes of the free slabs together. Slots that are not ports hold no link, apart from the next pointers of the free lists. add_node takes the slab of the right size that was freed last and makes the tables longer only if there is none; remove_node puts the slab of the node at the front of the list of its size; set_num_ports keeps the slab or takes one, of the least power of two that suffices, before it frees the old one. If at every moment at most M > 0 nodes have a slab of size s, there are never more than M + 1 slabs of that size, so the tables stay bounded however long the history is.", "quantifier": "for all graphs reached by any history of calls in which compact_ports is not called on a graph with a node without ports that owns slots", "why_tests_cant": "A lost or doubly owned slot shows up only when a later allocation runs into it, after a particular mix of sizes and removals.", "anchors": ["src/portgraph.rs:46-70", "src/portgraph.rs:132-223", "src/portgraph.rs:453-583"]}
{"id": "C86", "title": "Which port graphs a client can tell apart", "statement": "Two port graphs give the same answers (and panics) to every sequence of calls, with the same answers to contains_node, port_index, port_link and node_port_capacity afterwards, exactly if all their tables are equal, except that one vector of free lists may end in more empty lists. So the order of free nodes and free slabs, the place of nodes without ports and the table lengths are all observable, and nothing else in the representation is missing from the answers.", "quantifier": "for all pairs of reachable graphs with a maximal port offset from 16384 to 32767 (32766 for the default type), and all sequences of calls", "why_tests_cant": "It quantifies over all future call sequences of all pairs of graphs.", "anchors": ["src/portgraph.rs:46-70", "src/portgraph.rs:110-223", "src/portgraph.rs:616-648"]}
{"id": "C87", "title": "A hierarchy follows its graph", "statement": "A hierarchy kept alongside a graph as the documentation says (remove after remove_node, rekey as the callback of compact_nodes, then shrink_to(node_count)) follows the graph: no call panics, every node with a parent or children stays a node of the graph, and after a compaction the children of every node are its children before under their new indices, in the same order.", "quantifier": "for all joint histories of calls on a graph and a hierarchy", "why_tests_cant": "Whether rekey hits an occupied slot depends on which nodes were removed and which are attached; the example and the test remove the first node, which hides the failing case.", "anchors": ["src/hierarchy.rs:15-49", "src/hierarchy.rs:412-484", "src/hierarchy.rs:976-1008", "src/portgraph.rs:585-614"]}
{"id": "C88", "title": "Weights follow their graph through any history", "statement": "Weights kept alongside a graph with the documented callbacks follow it: whatever calls are made on the graph, every node and every port (node, direction, offset) that still exists keeps its weight, under its new node index after a compaction or swap, new nodes and ports have the default weight, assignments change one weight, and nothing else changes.", "quantifier": "for all histories of calls on a graph and its weights, all weight types", "why_tests_cant": "Port indices move when slabs are reallocated, shifted in place or compacted and are reused after removals, so a stale weight only shows up for particular histories.", "anchors": ["src/weights.rs:1-39", "src/secondary.rs:30-93", "src/unmanaged.rs:144-280", "src/portgraph.rs:473-690"]}
{"id": "C89", "title": "Weights follow a multigraph through any history", "statement": "Weights kept alongside a MultiPortGraph with the documented callbacks follow it, although the calls also report moves of the hidden helper nodes and ports: every shown node and port that still exists keeps its weight, new ones have the default weight, slots of helpers never hold anything but the default weight, and shrinking to the counts after a compaction loses nothing.", "quantifier": "for all histories of calls on a multigraph and its weights, all weight types", "why_tests_cant": "Helpers take node and port slots between those of shown nodes; whether a weight is overwritten or cut off depends on how helpers and nodes were created, removed and compacted.", "anchors": ["src/weights.rs:1-39", "src/multiportgraph.rs:188-275", "src/secondary.rs:30-93", "src/unmanaged.rs:144-280"]}
{"id": "C90", "title": "A hierarchy follows a multigraph through any history", "statement": "A Hierarchy kept alongside a MultiPortGraph follows it: after any history every node with a parent or children is a node that the multigraph shows, never a helper node; no call panics; removal, swapping and compaction of nodes change the child lists exactly by removing or renaming nodes, although compaction also reports moves of helpers.", "quantifier": "for all histories of calls on a multigraph and its hierarchy", "why_tests_cant": "Compaction moves helpers and shown nodes together; whether a callback meets an occupied slot or the final shrink cuts a node off depends on how helpers were created and removed before.", "anchors": ["src/hierarchy.rs:10-49", "src/hierarchy.rs:414-500", "src/multiportgraph.rs:188-275", "src/portgraph.rs:585-614"]}
{"id": "C91", "title": "Regions of a graph and the hierarchy that follows it", "statement": "After any history of calls on a graph and the hierarchy kept alongside it, the Region of a node of the graph contains only nodes of the graph (no removed nodes, no helpers of a multigraph), all its queries agree, and FlatRegion likewise. The region survives compact_nodes and swap_nodes: at the new name of its root it has the same nodes under their new names in the same order and the same links. remove_node takes exactly the node and what was below it out of other regions. All other calls leave the nodes of regions as they are.", "quantifier": "for all histories of calls on a graph and its hierarchy, all roots", "why_tests_cant": "A region reads two structures with independent slots; whether both name the same nodes depends on the whole history of removals and compactions.", "anchors": ["src/view/region.rs:18-311", "src/view/flat_region.rs:18-280", "src/hierarchy.rs:10-49", "src/multiportgraph.rs:188-275"]}
{"id": "C92", "title": "Convex sets are those that can be taken for one node", "statement": "On a graph without cycles, is_node_convex(S) of both convexity checkers holds exactly if contracting S to one node makes no cycle, and exactly if the nodes of the graph have a topological order in which the nodes of S stand next to each other.", "quantifier": "for all graphs without cycles and all sets of their nodes", "why_tests_cant": "Tests compare the answer with a few hand made sets; that the answer decides whether a replacement is safe concerns all paths and all orders of the nodes.", "anchors": ["src/algorithms/convex.rs:28-68", "src/algorithms/convex/topo_convex_checker.rs:19-120", "src/algorithms/convex/line_convex_checker.rs:145-262"]}
{"id": "C93", "title": "Replacing a part by one with a weaker boundary makes no cycle", "statement": "Let B be the boundary that Subgraph::with_nodes gives to a set of nodes of a port graph without cycles, and B' a boundary of unlinked, distinct ports of another graph without cycles. If B.is_stronger_than(B') holds, the graph in which the set is replaced by the other graph, port by port along the two boundaries, has no cycle, even if the set is not convex. If the topological checker says that the set is convex, no replacement without cycles makes a cycle. The comparison is not stricter than needed: B is stronger than B' exactly if in all surroundings, given by the outputs and inputs that they join, in which the part with B closes no cycle, the part with B' closes none.", "quantifier": "for all graphs without cycles, all sets of their nodes and all replacements", "why_tests_cant": "Tests compare the orders of a few boundaries; that the comparison makes a replacement safe concerns all paths that pass in and out of the set any number of times.", "anchors": ["src/boundary.rs:260-277", "src/boundary.rs:376-397", "src/view/subgraph.rs:88-107", "src/algorithms/convex/topo_convex_checker.rs:19-120"]}
{"id": "C94", "title": "The boundary of with_nodes follows the order of the given nodes", "statement": "The inputs and the outputs of the boundary of Subgraph::with_nodes stand in the order in which the nodes are given, those of one node in the order of its ports. If no node is given twice, no port is on the boundary twice, and the boundary is the only one with the ports that have a link to another node in this order.", "quantifier": "for all graphs and all lists of nodes", "why_tests_cant": "The position of a port is its index in the boundary, on which everything that compares two boundaries relies; tests fix the order for a few lists only.", "anchors": ["src/view/subgraph.rs:88-104", "src/view/subgraph.rs:142-170"]}
{"id": "C95", "title": "Views keep the order of the graph", "statement": "The lists of nodes, and of ports, links, connections, neighbours and subports of a node, that a view gives come from those of the graph below by leaving out items. A subgraph lists its nodes in increasing order, so lists of the same nodes give the same subgraph.", "quantifier": "for all views, all filters, all lists of nodes and boundaries, and stacks of views", "why_tests_cant": "Tests compare sets or a few short lists; that nothing is reordered concerns all graphs and all filters.", "anchors": ["src/view/filter.rs:106-263", "src/view/subgraph.rs:54-104", "src/view/subgraph.rs:172-319", "src/view/flat_region.rs:117-151"]}
