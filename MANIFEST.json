{
 "claims": [
  {
   "property": "C01",
   "status": "proved",
   "theorems": [
    "Verif.Index.C01_try_from",
    "Verif.Index.C01_maybe_none_and_injective"
   ],
   "note": ""
  },
  {
   "property": "C02",
   "status": "partial",
   "theorems": [
    "Verif.Index.C02_index_new_false",
    "Verif.Index.C02_offset_new_false",
    "Verif.Index.C02_offset_new_unreadable",
    "Verif.Index.C02_index_new_partial"
   ],
   "note": "The constructors drop the top bit instead of panicking (C02_index_new_false, C02_offset_new_false, C02_offset_new_unreadable are witnesses); C02_index_new_partial states exactly what new returns."
  },
  {
   "property": "C03",
   "status": "proved",
   "theorems": [
    "Verif.Index.C03_offset_roundtrip",
    "Verif.Index.C03_offset_injective",
    "Verif.Index.C03_offset_opposite"
   ],
   "note": ""
  },
  {
   "property": "C04",
   "status": "partial",
   "theorems": [
    "Verif.PG.C04_history_partial",
    "Verif.PG.C04_step_partial",
    "Verif.PG.C04_witness_compact_ports",
    "Verif.PG.C04_witness_swap_nodes",
    "Verif.PG.C04_witness_compact_ports_steals"
   ],
   "note": "The full claim is false. Proved for every history of calls that meet PG.Op.ok. Excluded are compact_ports while a port-less node owns port slots (exactly then the graph breaks: C16_compact_ports_breaks) and swap_nodes with the first free slot or with two free slots (C17_swap_first_free, C17_swap_two_free)."
  },
  {
   "property": "C05",
   "status": "proved",
   "theorems": [
    "Verif.PG.C05_links_symmetric",
    "Verif.PG.C05_links_exclusive"
   ],
   "note": ""
  },
  {
   "property": "C06",
   "status": "proved",
   "theorems": [
    "Verif.PG.C06_nodes_iter",
    "Verif.PG.C06_ports_iter",
    "Verif.PG.C06_link_count"
   ],
   "note": ""
  },
  {
   "property": "C07",
   "status": "partial",
   "theorems": [
    "Verif.Index.C07_port_meta_roundtrip",
    "Verif.PG.C07_index_offset",
    "Verif.PG.C07_ports",
    "Verif.PG.C07_offset_read_partial",
    "Verif.PG.C07_witness_offset_overflow"
   ],
   "note": "Proved for every reachable graph at the level of (direction, index) offsets; for graphs grown by set_num_ports past the offset type's maximum the encoding is not faithful."
  },
  {
   "property": "C08",
   "status": "proved",
   "theorems": [
    "Verif.PG.C08_add_node",
    "Verif.PG.C08_add_node_unlinked",
    "Verif.PG.C08_add_node_rejects"
   ],
   "note": ""
  },
  {
   "property": "C09",
   "status": "proved",
   "theorems": [
    "Verif.PG.C09_remove_node",
    "Verif.PG.C09_remove_node_unknown"
   ],
   "note": ""
  },
  {
   "property": "C10",
   "status": "partial",
   "theorems": [
    "Verif.PG.C10_link_ports_outcome_partial",
    "Verif.PG.C10_link_ports",
    "Verif.PG.C10_link_ports_succeeds",
    "Verif.PG.C10_witness_wrong_port"
   ],
   "note": "An unknown second port is reported under the first port's name (C10_witness_wrong_port); everything else proved."
  },
  {
   "property": "C11",
   "status": "proved",
   "theorems": [
    "Verif.PG.C11_unlink_port",
    "Verif.PG.C11_unlink_port_unknown",
    "Verif.PG.C11_unlink_after_link"
   ],
   "note": ""
  },
  {
   "property": "C12",
   "status": "proved",
   "theorems": [
    "Verif.PG.C12_set_num_ports",
    "Verif.PG.C12_set_num_ports_unknown"
   ],
   "note": ""
  },
  {
   "property": "C13",
   "status": "proved",
   "theorems": [
    "Verif.PG.C13_track",
    "Verif.PG.C13_removed",
    "Verif.PG.C13_removed_partner",
    "Verif.PG.C13_moved",
    "Verif.PG.C13_reported_once"
   ],
   "note": ""
  },
  {
   "property": "C14",
   "status": "partial",
   "theorems": [
    "Verif.PG.C14_no_panic_partial",
    "Verif.PG.C14_large_counts_panic",
    "Verif.PG.C14_witness_zero_ports"
   ],
   "note": "Counts above 32768 in total panic and zero ports allocate a slab: C14_large_counts_panic, C14_witness_zero_ports; C14_no_panic_partial is an exact characterisation of the panics."
  },
  {
   "property": "C15",
   "status": "proved",
   "theorems": [
    "Verif.PG.C15_compact_nodes"
   ],
   "note": ""
  },
  {
   "property": "C16",
   "status": "partial",
   "theorems": [
    "Verif.PG.C16_compact_ports_partial",
    "Verif.PG.C16_compact_ports_breaks"
   ],
   "note": "The renaming, the report and the preserved graph are proved for all reachable graphs. That all further operations work needs that no port-less node owns port slots; otherwise it is false in every case (C16_compact_ports_breaks)."
  },
  {
   "property": "C17",
   "status": "partial",
   "theorems": [
    "Verif.PG.C17_swap_nodes_partial",
    "Verif.PG.C17_swap_first_free",
    "Verif.PG.C17_swap_no_slot",
    "Verif.PG.C17_witness_two_free",
    "Verif.PG.C17_swap_two_free",
    "Verif.PG.C17_swap_same_free"
   ],
   "note": "Two live nodes, or a live node and a free slot that is not the first free one. In all other cases the claim is false: with the first free slot every later add_node panics (C17_swap_first_free), an index beyond the slots panics (C17_swap_no_slot), and two free slots always lose one of them (C17_swap_two_free). The same free slot twice changes nothing (C17_swap_same_free)."
  },
  {
   "property": "C18",
   "status": "proved",
   "theorems": [
    "Verif.PG.C18_clear"
   ],
   "note": ""
  },
  {
   "property": "C19",
   "status": "proved",
   "theorems": [
    "Verif.PG.C19_links",
    "Verif.PG.C19_links_double_ended",
    "Verif.PG.C19_all_links",
    "Verif.PG.C19_neighbours",
    "Verif.PG.C19_all_neighbours",
    "Verif.PG.C19_get_connections"
   ],
   "note": ""
  },
  {
   "property": "C20",
   "status": "proved",
   "theorems": [
    "Verif.PG.C20_insert_graph"
   ],
   "note": ""
  },
  {
   "property": "C21",
   "status": "partial",
   "theorems": [
    "Verif.Secondary.C21_dense_map",
    "Verif.Secondary.C21_bit_vec",
    "Verif.Secondary.C21_bit_vec_iter",
    "Verif.Secondary.C21_hash_set",
    "Verif.Secondary.C21_get_disjoint",
    "Verif.Secondary.C21_dense_eq",
    "Verif.Secondary.C21_dense_iter_partial",
    "Verif.Secondary.C21_witness_iter_defaults"
   ],
   "note": "iter of UnmanagedDenseMap also yields keys that hold the default (C21_witness_iter_defaults); the rest is proved for histories over V::default() maps."
  },
  {
   "property": "C22",
   "status": "partial",
   "theorems": [
    "Verif.Secondary.C22_default_partial",
    "Verif.Secondary.C22_rekey_partial",
    "Verif.Secondary.C22_witness_rekey"
   ],
   "note": "rekey writes V::default() instead of the map's default (C22_witness_rekey)."
  },
  {
   "property": "C23",
   "status": "partial",
   "theorems": [
    "Verif.Hier.C23_forest_partial",
    "Verif.Hier.C23_parents_end_partial",
    "Verif.Hier.C23_witness_self_cycle",
    "Verif.Hier.C23_witness_endless"
   ],
   "note": "push_child(n, n) of a childless root succeeds and makes a cycle (C23_witness_self_cycle, C23_witness_endless); proved for every history without pushing a node under itself."
  },
  {
   "property": "C24",
   "status": "partial",
   "theorems": [
    "Verif.Hier.C24_calls_partial",
    "Verif.Hier.C24_histories_partial",
    "Verif.Hier.C24_children_iter",
    "Verif.Hier.C24_no_panic_partial"
   ],
   "note": "Full refinement to ordered child lists, for every history without pushing a node under itself (see C23)."
  },
  {
   "property": "C25",
   "status": "partial",
   "theorems": [
    "Verif.Hier.C25_swap_nodes",
    "Verif.Hier.C25_rekey_partial",
    "Verif.Hier.C25_rekey_occupied",
    "Verif.Hier.C25_witness_rekey_same"
   ],
   "note": "rekey(n, n) panics when n is in use (C25_witness_rekey_same); the rest is proved."
  },
  {
   "property": "C26",
   "status": "proved",
   "theorems": [
    "Verif.Hier.C26_levels",
    "Verif.Hier.C26_descendants"
   ],
   "note": ""
  },
  {
   "property": "C27",
   "status": "proved",
   "theorems": [
    "Verif.Algo.C27_toposort",
    "Verif.Algo.C27_acyclic",
    "Verif.Algo.C27_cycle_not_yielded",
    "Verif.Algo.C27_filtered",
    "Verif.Algo.C27_histories",
    "Verif.Algo.C27_add_sources",
    "Verif.Algo.C27_witness_add_isolated",
    "Verif.Algo.C27_witness_duplicate_source",
    "Verif.Algo.C27_size_hint",
    "Verif.Algo.C27_witness_size_hint"
   ],
   "note": ""
  },
  {
   "property": "C28",
   "status": "proved",
   "theorems": [
    "Verif.Algo.C28_filtered",
    "Verif.Algo.C28_postorder",
    "Verif.Algo.C28_acyclic",
    "Verif.Algo.C28_depth_first",
    "Verif.Algo.C28_witness_out_of_range"
   ],
   "note": ""
  },
  {
   "property": "C29",
   "status": "partial",
   "theorems": [
    "Verif.Algo.Dom.C29_dominators_exact",
    "Verif.Algo.Dom.C29_dominators_partial",
    "Verif.Algo.Dom.C29_all_reachable",
    "Verif.Algo.Dom.C29_witness_unreachable_predecessor",
    "Verif.Algo.Dom.C29_witness_entry_rejected"
   ],
   "note": "False when a reached node has a predecessor that is not reached from the entry (C29_witness_unreachable_predecessor); proved for every graph and filter where the predecessors of reached nodes are reached, in particular when every node is reachable (C29_all_reachable). C29_dominators_exact says what is computed in all graphs: the immediate dominators when such a predecessor is taken for the node that comes first in post-order. A rejected entry panics (C29_witness_entry_rejected)."
  },
  {
   "property": "C30",
   "status": "proved",
   "theorems": [
    "Verif.Lca.C30_lca",
    "Verif.Lca.C30_deepest",
    "Verif.Lca.C30_witness_not_covered"
   ],
   "note": ""
  },
  {
   "property": "C31",
   "status": "proved",
   "theorems": [
    "Verif.Convex.C31_any_order",
    "Verif.Convex.C31_new",
    "Verif.Convex.C31_is_node_convex",
    "Verif.Convex.C31_is_convex",
    "Verif.Convex.C31_witness_foreign_node"
   ],
   "note": ""
  },
  {
   "property": "C32",
   "status": "partial",
   "theorems": [
    "Verif.Convex.C32_new",
    "Verif.Convex.C32_is_node_convex_partial",
    "Verif.Convex.C32_is_convex_partial",
    "Verif.Convex.C32_agrees_with_topo_partial",
    "Verif.Convex.C32_intervals",
    "Verif.Convex.C32_witness_empty",
    "Verif.Convex.C32_witness_duplicate"
   ],
   "note": "is_node_convex([]) panics (C32_witness_empty), a node given twice makes the answer wrong (C32_witness_duplicate, excluded by the documentation); proved for every non-empty list of distinct nodes of an acyclic graph. The floating point interpolation of find_index is an arbitrary function with values between its bounds."
  },
  {
   "property": "C33",
   "status": "partial",
   "theorems": [
    "Verif.Dyn.C33_disconnect_unknown",
    "Verif.Dyn.C33_remove_unknown",
    "Verif.Dyn.C33_with_graph",
    "Verif.Dyn.C33_connect_cycle",
    "Verif.Dyn.C33_connect_unknown",
    "Verif.Dyn.C33_connect_nodup",
    "Verif.Dyn.C33_connect_valid",
    "Verif.Dyn.C33_connect_partial",
    "Verif.Dyn.C33_add_node",
    "Verif.Dyn.C33_remove_node",
    "Verif.Dyn.C33_disconnect",
    "Verif.Dyn.C33_history_partial",
    "Verif.Dyn.C33_get_order_partial",
    "Verif.Dyn.C33_witness_node_lost",
    "Verif.Dyn.C33_witness_backward"
   ],
   "note": "False as stated (C33_witness_node_lost, C33_witness_backward). C33_connect_valid and C33_connect_nodup give the exact condition under which connect_nodes leaves a valid order; C33_history_partial covers every history whose links meet it; cycle detection is exact (C33_connect_cycle). The errors for nodes which are not in the order are exact (C33_connect_unknown, C33_disconnect_unknown, C33_remove_unknown)."
  },
  {
   "property": "C34",
   "status": "partial",
   "theorems": [
    "Verif.Dyn.C34_is_convex_exact",
    "Verif.Dyn.C34_is_convex_partial",
    "Verif.Dyn.C34_is_convex_interval",
    "Verif.Dyn.C34_is_convex_unknown",
    "Verif.Dyn.C34_witness_refused",
    "Verif.Dyn.C34_witness_accepted",
    "Verif.Dyn.C34_witness_parallel",
    "Verif.Dyn.C34_witness_transitive",
    "Verif.Dyn.C34_link_ports_reversed",
    "Verif.Dyn.C34_witness_clear",
    "Verif.Dyn.C34_is_convex_ports_partial",
    "Verif.Dyn.C34_is_convex_ports_convex",
    "Verif.Dyn.C34_unlink_untracked",
    "Verif.Dyn.C34_witness_shortcut",
    "Verif.Dyn.C34_witness_unlink_panics",
    "Verif.Dyn.C34_new",
    "Verif.Dyn.C34_add_node",
    "Verif.Dyn.C34_remove_node",
    "Verif.Dyn.C34_remove_unknown",
    "Verif.Dyn.C34_unlink_port",
    "Verif.Dyn.C34_link_ports",
    "Verif.Dyn.C34_link_ports_accepts_partial",
    "Verif.Dyn.C34_link_error",
    "Verif.Dyn.C34_history_partial"
   ],
   "note": "False as stated (witnesses: a convex set refused, a non-convex subgraph with ports accepted, parallel and transitive links panic, links given input first always panic). C34_is_convex_exact and C34_link_ports say exactly what is decided; accepted sets are convex (C34_is_convex_partial). With boundary ports: C34_is_convex_ports_partial (a refused set has a path which leaves it, an accepted one has a path inside whenever there is one), C34_witness_shortcut (a set which is not convex is accepted)."
  },
  {
   "property": "C35",
   "status": "partial",
   "theorems": [
    "Verif.View.C35_witness_fan_out",
    "Verif.View.C35_from_ports",
    "Verif.View.C35_port_ordering_partial",
    "Verif.View.C35_repeated_partial",
    "Verif.View.C35_subgraph_multi_partial",
    "Verif.View.C35_subgraph",
    "Verif.View.C35_witness_linked",
    "Verif.View.C35_witness_repeated",
    "Verif.View.C35_witness_cycle",
    "Verif.View.C35_stronger",
    "Verif.View.C35_missing_pairs",
    "Verif.View.C35_stronger_iff_none_missing",
    "Verif.View.C35_stronger_refl",
    "Verif.View.C35_stronger_trans",
    "Verif.View.C35_stronger_antisymm",
    "Verif.View.C35_boundary_stronger_partial"
   ],
   "note": "Proved for acyclic views with one link at each incoming port and boundary ports that are not linked in the view, in particular for every boundary made by Subgraph::with_nodes if no port has both links that stay inside and links that leave (C35_subgraph_multi_partial, always so in a PortGraph); is_stronger_than and missing_pairs proved exact for all orders. False as stated (witnesses): panics on cycles, for boundary ports linked to outside nodes, and for a multiport with one link inside and one outside (C35_witness_fan_out); repeated ports."
  },
  {
   "property": "C36",
   "status": "partial",
   "theorems": [
    "Verif.View.C36_witness_multi",
    "Verif.View.C36_with_nodes",
    "Verif.View.C36_with_nodes_boundary",
    "Verif.View.C36_with_nodes_links",
    "Verif.View.C36_new_subgraph_partial",
    "Verif.View.C36_witness_boundary_link",
    "Verif.View.C36_witness_foreign",
    "Verif.View.C36_witness_outside_neighbours",
    "Verif.View.C36_is_convex",
    "Verif.View.C36_with_nodes_convex"
   ],
   "note": "Proved for with_nodes with nodes of the graph, and for new_subgraph on graphs with one link per port. False as stated (witnesses): a link through boundary ports between inner nodes is shown; foreign nodes given to with_nodes are contained. In a multigraph new_subgraph follows only the first link of a port and misses nodes (C36_witness_multi)."
  },
  {
   "property": "C37",
   "status": "partial",
   "theorems": [
    "Verif.View.C37_filtered_partial",
    "Verif.View.C37_node_filtered",
    "Verif.View.C37_link_count_partial",
    "Verif.View.C37_subport_link_partial",
    "Verif.View.C37_subports",
    "Verif.View.C37_witness_link_count",
    "Verif.View.C37_witness_subport_link"
   ],
   "note": "Containment, shown links and all other queries proved. False as stated for link_count (C37_witness_link_count; C37_link_count_partial is the exact value) and subport_link ignores the node filter (exact statement proved)."
  },
  {
   "property": "C38",
   "status": "partial",
   "theorems": [
    "Verif.View.C38_flat_region",
    "Verif.View.C38_witness_flat_empty",
    "Verif.View.C38_region_queries",
    "Verif.View.C38_region_threads",
    "Verif.View.C38_witness_locked_clone",
    "Verif.View.C38_region_clone",
    "Verif.View.C38_region",
    "Verif.View.C38_witness_foreign",
    "Verif.View.C38_subport_link",
    "Verif.View.C38_witness_subport_link"
   ],
   "note": "Proved for every forest, root, query sequence and thread interleaving. False for a clone made while the cache is locked (C38_witness_locked_clone); FlatRegion::is_empty is always false. The view theorems assume that the forest nodes are in the graph."
  },
  {
   "property": "C39",
   "status": "partial",
   "theorems": [
    "Verif.Multi.C39_main_node",
    "Verif.Multi.C39_main_node_unknown",
    "Verif.Multi.C39_contract",
    "Verif.Multi.C39_flat_reach",
    "Verif.Multi.C39_link_returns_iff",
    "Verif.Multi.C39_witness_full",
    "Verif.Multi.C39_shows_a_multigraph_partial",
    "Verif.Multi.C39_calls_partial",
    "Verif.Multi.C39_from_portgraph",
    "Verif.Multi.C39_helpers_hidden",
    "Verif.Multi.C39_witness_unknown_port",
    "Verif.Multi.C39_witness_helpers_answer",
    "Verif.Multi.C39_witness_compact_gaps"
   ],
   "note": "Every call with admissible arguments (MOp.ok) returns and does to the shown multigraph exactly what Effect says; all iterators describe this multigraph (ofMG Ok). Excluded: arguments that are helpers or unknown ports of link_ports (C39_witness_unknown_port), ports with more than 32766 subports that are all linked (there link_ports panics, C39_link_returns_iff, C39_witness_full), the calls of C41_witness_shrink_links, and compact_ports as in C16. Queries passed on to the port graph answer for helper nodes (C39_witness_helpers_answer). C39_main_node and C39_contract: the multigraph is the flat graph with each helper joined to its main node. C39_flat_reach: the flat graph is a reachable PortGraph, so all about those holds for it."
  },
  {
   "property": "C40",
   "status": "partial",
   "theorems": [
    "Verif.Multi.C40_counts_partial",
    "Verif.Multi.C40_is_empty",
    "Verif.Multi.C40_link_ports",
    "Verif.Multi.C40_witness_shrink"
   ],
   "note": "Counts are exact and do not underflow after every history of admissible calls; false after a set_num_ports that moves a port to the place of a removed multiport (C40_witness_shrink)."
  },
  {
   "property": "C41",
   "status": "partial",
   "theorems": [
    "Verif.Multi.C41_queries_work_partial",
    "Verif.Multi.C41_remove_node",
    "Verif.Multi.C41_unlink_port",
    "Verif.Multi.C41_set_num_ports_partial",
    "Verif.Multi.C41_witness_shrink_links",
    "Verif.Multi.C41_witness_stale_flag",
    "Verif.Multi.C41_witness_unlink_result"
   ],
   "note": "remove_node, unlink_port and set_num_ports proved exact and all queries return, unless a port moves into the place of a removed multiport: then links are lost and later queries panic (C41_witness_shrink_links, C41_witness_stale_flag). The value returned by unlink_port is right only without multiports (C41_witness_unlink_result)."
  },
  {
   "property": "C42",
   "status": "partial",
   "theorems": [
    "Verif.Weights.C42_weights",
    "Verif.Weights.C42_compact_nodes",
    "Verif.Weights.C42_compact_ports",
    "Verif.Weights.C42_set_num_ports",
    "Verif.Weights.C42_swap_nodes",
    "Verif.Weights.C42_witness_default"
   ],
   "note": "Proved for every reachable graph and every map whose default is V::default(), as the constructors of Weights make it. With another default, which the public fields allow, the claim is false (C42_witness_default)."
  },
  {
   "property": "C43",
   "status": "partial",
   "theorems": [
    "Verif.Pet.C43_visit_map",
    "Verif.Pet.C43_visit_opposite",
    "Verif.Pet.C43_witness_visit",
    "Verif.Pet.C43_node_bound_partial",
    "Verif.Pet.C43_witness_node_bound"
   ],
   "note": "visit returns the opposite of what petgraph asks for, always; is_visited and unvisit are right after any calls. node_bound is right exactly if the node indices have no gaps."
  },
  {
   "property": "C44",
   "status": "partial",
   "theorems": [
    "Verif.Render.C44_mermaid_flat",
    "Verif.Render.C44_mermaid_partial",
    "Verif.Render.C44_mermaid_whole",
    "Verif.Render.C44_witness_flat_region",
    "Verif.Render.C44_witness_filtered",
    "Verif.Render.C44_witness_link_place",
    "Verif.Render.C44_dot",
    "Verif.Render.C44_dot_hierarchy",
    "Verif.Render.C44_witness_hidden"
   ],
   "note": "Proved for all views without a hierarchy, for all views that contain the children of their nodes, and for all dot outputs. False for flat regions and filtered graphs that drop nodes inside the hierarchy (witnesses)."
  },
  {
   "property": "C45",
   "status": "partial",
   "theorems": [
    "Verif.CopyIn.C45_portgraph_partial",
    "Verif.CopyIn.C45_portgraph_boundary_partial",
    "Verif.CopyIn.C45_multiport_partial",
    "Verif.CopyIn.C45_witness_foreign",
    "Verif.CopyIn.C45_witness_wide_node"
   ],
   "note": "Proved for PortGraph (success without boundary links, otherwise the error and no query changes) and for MultiPortGraph (always success, given room for subports), for node sets of the graph; nodes with more than 32767 ports in a direction make add_node panic (witness)."
  },
  {
   "property": "C46",
   "status": "proved",
   "theorems": [
    "Verif.PG.C46_slots_reused",
    "Verif.PG.C46_new_slot_when_full"
   ],
   "note": ""
  },
  {
   "property": "C47",
   "status": "proved",
   "theorems": [
    "Verif.PG.C47_get_connection",
    "Verif.PG.C47_connected",
    "Verif.PG.C47_link_offsets_unknown",
    "Verif.PG.C47_link_nodes"
   ],
   "note": ""
  },
  {
   "property": "C48",
   "status": "proved",
   "theorems": [
    "Verif.View.C48_portgraph",
    "Verif.View.C48_subgraph",
    "Verif.View.C48_flat_region",
    "Verif.View.C48_region",
    "Verif.View.C48_filtered"
   ],
   "note": "Capacities of the port graph are at least the vector lengths (assumption on Vec). Spare room of restricted views equals that of the base graph; a filtered graph keeps the capacities of the base graph."
  },
  {
   "property": "C49",
   "status": "partial",
   "theorems": [
    "Verif.Pet.C49_neighbors",
    "Verif.Pet.C49_edge_references_partial",
    "Verif.Pet.C49_node_identifiers",
    "Verif.Pet.C49_edge_count_partial",
    "Verif.Pet.C49_edges_partial",
    "Verif.Pet.C49_edges_outgoing",
    "Verif.Pet.C49_edges_incoming_partial",
    "Verif.Pet.C49_witness_edge_references",
    "Verif.Pet.C49_witness_edges"
   ],
   "note": "Exact contents proved for all views: neighbours and outgoing edges are right; edge_references, edges and incoming edges differ from the contract (witnesses)."
  },
  {
   "property": "C50",
   "status": "partial",
   "theorems": [
    "Verif.Pet.C50_matrix",
    "Verif.Pet.C50_matrix_portgraph",
    "Verif.Pet.C50_matrix_multiport_partial",
    "Verif.Pet.C50_set",
    "Verif.Pet.C50_witness_multiport",
    "Verif.Pet.C50_witness_multiport_panic"
   ],
   "note": "Proved for PortGraph and for the sets of the other views; fails for MultiPortGraph when node indices reach node_capacity (witnesses)."
  },
  {
   "property": "C51",
   "status": "partial",
   "theorems": [
    "Verif.Render.C51_encode_label",
    "Verif.Render.C51_label_shown_partial",
    "Verif.Render.C51_witness_collision",
    "Verif.Render.C51_edge_style",
    "Verif.Render.C51_edge_label",
    "Verif.Render.C51_arrow",
    "Verif.Render.C51_witness_custom",
    "Verif.Render.C51_lines",
    "Verif.Render.C51_line_count",
    "Verif.Render.C51_attrs",
    "Verif.Render.C51_witness_with_attrs"
   ],
   "note": "Line structure, quoting, styles and the absence of panics proved; the label can be read back exactly if it has no # and no < (collision witness otherwise)."
  },
  {
   "property": "C52",
   "status": "partial",
   "theorems": [
    "Verif.Multi.C52_nodes",
    "Verif.Multi.C52_ports",
    "Verif.Multi.C52_port_links_partial",
    "Verif.Multi.C52_witness_port_links",
    "Verif.Multi.C52_links",
    "Verif.Multi.C52_all_links",
    "Verif.Multi.C52_connections",
    "Verif.Multi.C52_subports",
    "Verif.Multi.C52_all_subports",
    "Verif.Multi.C52_neighbours",
    "Verif.Multi.C52_all_neighbours",
    "Verif.Multi.C52_portgraph_links",
    "Verif.Multi.C52_portgraph_all_links_partial",
    "Verif.Multi.C52_witness_all_links_back"
   ],
   "note": "All iterators proved for every call sequence. Two exceptions with witnesses: the size hint of port_links at an unlinked port, and all_links of a port graph taken from the back."
  },
  {
   "property": "C53",
   "status": "partial",
   "theorems": [
    "Verif.View.C53_is_convex_partial",
    "Verif.View.C53_toposort_partial",
    "Verif.View.C53_toposort_acyclic_partial",
    "Verif.View.C53_postorder_partial",
    "Verif.View.C53_postorder_single_partial",
    "Verif.View.C53_dominators_partial",
    "Verif.View.C53_dominators_exact",
    "Verif.View.C53_is_node_convex_partial",
    "Verif.View.C53_witness_toposort_multi",
    "Verif.View.C53_witness_convex_multi",
    "Verif.View.C53_witness_postorder_multi",
    "Verif.View.C53_witness_capacity_subgraph",
    "Verif.View.C53_witness_capacity_multi"
   ],
   "note": "Proved for every view with one link at each port where links end (toposort, convexity), along first links or with one link per port (postorder, dominators), and with node indices below node_capacity. Witnesses show that each of these conditions is needed."
  },
  {
   "property": "C54",
   "status": "partial",
   "theorems": [
    "Verif.View.C54_new_partial",
    "Verif.View.C54_is_node_convex_partial",
    "Verif.View.C54_intervals_partial",
    "Verif.View.C54_by_intervals_partial",
    "Verif.View.C54_try_extend_partial",
    "Verif.View.C54_nodes_in_intervals_partial",
    "Verif.View.C54_lines_at_port_partial",
    "Verif.View.C54_intervals_from_boundary_partial",
    "Verif.View.C54_intervals_from_ports_partial",
    "Verif.View.C54_is_convex_partial",
    "Verif.View.C54_witness_panic_multi",
    "Verif.View.C54_witness_is_convex_multi",
    "Verif.View.C54_witness_boundary_multi"
   ],
   "note": "Proved for acyclic views in which each incoming port has at most one link (any number of links at outgoing ports; boundaries and is_convex: one link per port resp. per output port). The full statement is false: several links into a port make `new` panic (C54_witness_panic_multi), is_convex misses links (C54_witness_is_convex_multi), get_intervals_from_boundary panics (C54_witness_boundary_multi); is_node_convex also needs distinct nodes and at least one (C32_witness_*)."
  },
  {
   "property": "C55",
   "status": "proved",
   "theorems": [
    "Verif.Serde.C55_indices",
    "Verif.Serde.C55_port_offset",
    "Verif.Serde.C55_portgraph",
    "Verif.Serde.C55_portgraph_injective",
    "Verif.Serde.C55_field_order",
    "Verif.Serde.C55_dense_map",
    "Verif.Serde.C55_weights",
    "Verif.Serde.C55_hierarchy",
    "Verif.Serde.C55_subport",
    "Verif.Serde.C55_multiportgraph"
   ],
   "note": "For all reachable graphs with at most 2^31-1 node slots and 2^31 port slots; both for named and positional structs. The serialisation of BitVec is code of the crate bitvec and enters as a hypothesis of C55_multiportgraph. The model agrees with the JSON snapshot in the repository (example)."
  },
  {
   "property": "C56",
   "status": "partial",
   "theorems": [
    "Verif.Serde.C56_offset_partial",
    "Verif.Serde.C56_witness_offset_between",
    "Verif.Serde.C56_portgraph_partial",
    "Verif.Serde.C56_index_partial",
    "Verif.Serde.C56_witness_index_out_of_range",
    "Verif.Serde.C56_witness_offset_out_of_range",
    "Verif.Serde.C56_witness_inconsistent",
    "Verif.Serde.C56_witness_missing_field",
    "Verif.Serde.C56_repeated_field",
    "Verif.Serde.C56_unknown_field"
   ],
   "note": "Proved: what is read fits the fields and survives another round trip; exactly which numbers are read as indices. The full statement is false: out of range indices are changed silently or panic (C56_witness_index_out_of_range, C56_witness_offset_out_of_range), inconsistent graphs are accepted (C56_witness_inconsistent), a missing field is taken as None (C56_witness_missing_field). Repeated fields are refused and unknown ones ignored (C56_repeated_field, C56_unknown_field). C56_offset_partial: what a port offset is read as."
  },
  {
   "property": "C57",
   "status": "partial",
   "theorems": [
    "Verif.Index.C57_maybe_history",
    "Verif.Index.C57_maybe_eq",
    "Verif.Index.C57_index_order",
    "Verif.Index.C57_offset_order",
    "Verif.Index.C57_field_partial",
    "Verif.Index.C57_witness_flip_unset",
    "Verif.Index.C57_witness_out_of_range",
    "Verif.Index.C57_direction"
   ],
   "note": "Proved for all indices in range and all sequences of calls. False for flip_bit_flag of an unset field, which gives an index (C57_witness_flip_unset), and for indices made by new above the maximum (C57_witness_out_of_range)."
  },
  {
   "property": "C58",
   "status": "partial",
   "theorems": [
    "Verif.Iter.C58_node_ports",
    "Verif.Iter.C58_nodes",
    "Verif.Iter.C58_ports",
    "Verif.Iter.C58_port_offsets",
    "Verif.Iter.C58_children",
    "Verif.Iter.C58_descendants",
    "Verif.Iter.C58_dense_iter",
    "Verif.Iter.C58_witness_key_too_large",
    "Verif.Iter.C58_bit_vec_iter",
    "Verif.Iter.C58_hash_set_iter"
   ],
   "note": "Proved for every sequence of calls. Dense maps and bit vectors: while the keys fit the index type, else the iterator panics (C58_witness_key_too_large). Descendants has a lower size hint only."
  },
  {
   "property": "C59",
   "status": "proved",
   "theorems": [
    "Verif.View.C59_port_index",
    "Verif.View.C59_ports",
    "Verif.View.C59_find_port",
    "Verif.View.C59_find_port_inverse",
    "Verif.View.C59_compatible",
    "Verif.View.C59_from_ports",
    "Verif.View.C59_add_order",
    "Verif.View.C59_ordering_queries"
   ],
   "note": "For all lists and calls. The link between computed orders and paths has the conditions of C35 (acyclic, boundary ports free, no port repeated)."
  },
  {
   "property": "C60",
   "status": "proved",
   "theorems": [
    "Verif.Gen.C60_portgraph_from_edges",
    "Verif.Gen.C60_multiportgraph_from_edges",
    "Verif.Gen.C60_gen_portgraph",
    "Verif.Gen.C60_gen_multiportgraph",
    "Verif.Gen.C60_gen_node_index"
   ],
   "note": "For every draw of the generators with at least one node, port numbers within the offset range and, for multiport graphs, at most 32766 edges. The random choice itself is a parameter: any value in the ranges the strategies ask for."
  },
  {
   "property": "C61",
   "status": "proved",
   "theorems": [
    "Verif.Insert.C61_portgraph",
    "Verif.Insert.C61_portgraph_refuses",
    "Verif.Insert.C61_multiportgraph"
   ],
   "note": "For every host and every view that describes one graph (GView.Ok, shown for all views of the library in C21-C25, C36, C39). Conditions: port counts up to the largest offset, and for multiport graphs room for the subports (else add_node or link_ports panic)."
  },
  {
   "property": "C62",
   "status": "partial",
   "theorems": [
    "Verif.Equality.C62_hierarchy_partial",
    "Verif.Equality.C62_hierarchy_calls_partial",
    "Verif.Equality.C62_packed_partial",
    "Verif.Equality.C62_compacted_partial",
    "Verif.Equality.C62_built",
    "Verif.Equality.C62_witness_history",
    "Verif.Equality.C62_region"
   ],
   "note": "False for port graphs in general (C62_witness_history: add, remove, add again gives a graph with the same nodes, ports, links and slots as one add, but != because the vector of free port lists has another length). Proved exactly: hierarchies (without the self push of C24), regions, graphs built without removals, and graphs without unused slots, such as compacted ones."
  },
  {
   "property": "C63",
   "status": "proved",
   "theorems": [
    "Verif.View.C63_determined",
    "Verif.View.C63_filter_filter",
    "Verif.View.C63_filter_true",
    "Verif.View.C63_subgraph_subgraph",
    "Verif.View.C63_region_region",
    "Verif.View.C63_flat_region",
    "Verif.View.C63_subgraph_filter",
    "Verif.View.C63_region_filter",
    "Verif.View.C63_flat_filter",
    "Verif.View.C63_filter_congr",
    "Verif.View.C63_subgraph_congr",
    "Verif.View.C63_filter_subgraph"
   ],
   "note": "SameGraph compares all queries but is_empty, link_count, capacities and subports (where the wrappers differ, see C37, C38, C48) and the neighbours of nodes outside; the laws for stacked filters, subgraphs and regions are equalities of all answers."
  },
  {
   "property": "C64",
   "status": "proved",
   "theorems": [
    "Verif.Multi.C64_call",
    "Verif.Multi.C64_run",
    "Verif.Multi.C64_subport_calls",
    "Verif.Multi.C64_view"
   ],
   "note": "C64_call needs no hypothesis on the graph. Unknown ports are excluded by the condition on link_ports: both graphs refuse them, but name different ports (see C10)."
  },
  {
   "property": "C65",
   "status": "partial",
   "theorems": [
    "Verif.Render.C65_text_partial",
    "Verif.Render.C65_injective",
    "Verif.Render.C65_weights_partial",
    "Verif.Render.C65_default",
    "Verif.Render.C65_witness_edge_style",
    "Verif.Render.C65_witness_label"
   ],
   "note": "False if labels contain tags or line breaks or if attributes or edge styles contain quotes or line breaks, since nothing is escaped (C65_witness_label, C65_witness_edge_style); proved for all other texts, and in full for the default styles (C65_default); C65_weights_partial gives the lines for with_weights. C65_injective needs styles that hide nothing, else the hidden parts are not in the text. The style closures are functions of their arguments."
  },
  {
   "property": "C66",
   "status": "proved",
   "theorems": [
    "Verif.Undo.C66_unlink_link",
    "Verif.Undo.C66_same_future",
    "Verif.Undo.C66_same_shape",
    "Verif.Undo.C66_remove_add",
    "Verif.Undo.C66_add_remove",
    "Verif.Undo.C66_swap_nodes_twice",
    "Verif.Undo.C66_grow_shrink",
    "Verif.Undo.C66_attach_detach",
    "Verif.Undo.C66_detach_attach",
    "Verif.Undo.C66_swap_twice",
    "Verif.Undo.C66_rekey_back"
   ],
   "note": "unlink_port after link_ports is C11_unlink_after_link. remove_node then add_node is for nodes whose slots are all in use: a node that was shrunk gives its spare slots back. Hierarchies: hierarchies made without push_child(n, n), indices below 2^31, as for C23_forest_partial."
  },
  {
   "property": "C67",
   "status": "proved",
   "theorems": [
    "Verif.Undo.C67_link_calls",
    "Verif.Undo.C67_witness_same_port",
    "Verif.Undo.C67_attach_attach",
    "Verif.Undo.C67_detach_detach",
    "Verif.Undo.C67_attach_detach",
    "Verif.Undo.C67_witness_order"
   ],
   "note": "The conditions are needed: C67_witness_same_port for a common port, C67_witness_order for detach before an attaching call that fails in the other order."
  },
  {
   "property": "C68",
   "status": "proved",
   "theorems": [
    "Verif.Agree.C68_toposort_acyclic",
    "Verif.Agree.C68_postorder_acyclic",
    "Verif.Agree.C68_orders",
    "Verif.Agree.C68_checkers",
    "Verif.Agree.C68_dominators_order",
    "Verif.Agree.C68_dominators_removal",
    "Verif.Agree.C68_hierarchy"
   ],
   "note": "Dominators for entries such that the predecessors of reached nodes are reached, as in C29; LineConvexChecker for non-empty lists of distinct nodes, as in C32; hierarchies as in C23."
  },
  {
   "property": "C69",
   "status": "proved",
   "theorems": [
    "Verif.Undo.C69_link_unlink",
    "Verif.Undo.C69_unlink_link",
    "Verif.Undo.C69_link_ports",
    "Verif.Undo.C69_add_remove",
    "Verif.Undo.C69_swap_nodes",
    "Verif.Undo.C69_commute",
    "Verif.Undo.C69_witness_subports",
    "Verif.Undo.C69_witness_order"
   ],
   "note": "Reachable as in C39 (numbers of ports below the limit of PortOffset). C69_witness_subports: the subports added by link_ports do stay after unlink_subport; C69_witness_order: two link_ports calls on a common port do not commute."
  },
  {
   "property": "C70",
   "status": "partial",
   "theorems": [
    "Verif.Dyn.C70_set_num_ports",
    "Verif.Dyn.C70_compact_ports",
    "Verif.Dyn.C70_swap_nodes",
    "Verif.Dyn.C70_compact_nodes",
    "Verif.Dyn.C70_stale",
    "Verif.Dyn.C70_compact_nodes_lost",
    "Verif.Dyn.C70_clear",
    "Verif.Dyn.C70_history_partial",
    "Verif.Dyn.C70_witness_swap",
    "Verif.Dyn.C70_witness_compact"
   ],
   "note": "True of set_num_ports and compact_ports. swap_nodes, compact_nodes and clear do not touch the order; the theorems say exactly when it is still valid (arcs forward after the exchange; no gaps in the indices; no nodes) and that otherwise, after compact_nodes, some node is refused by is_convex and its removal panics. C70_history_partial: any sequence of all the calls that avoids these cases keeps the order valid."
  },
  {
   "property": "C71",
   "status": "proved",
   "theorems": [
    "Verif.View.C71_nodes_of_boundary",
    "Verif.View.C71_with_nodes_round_trip",
    "Verif.View.C71_boundary_round_trip",
    "Verif.View.C71_witness_lost"
   ],
   "note": "For views with at most one link per port, in particular all views of a PortGraph; with several links internal_nodes follows the first link only (see C54)."
  },
  {
   "property": "C72",
   "status": "proved",
   "theorems": [
    "Verif.Hier.C72_attach_detach",
    "Verif.Hier.C72_detach_attach",
    "Verif.Hier.C72_swap_swap",
    "Verif.Hier.C72_rekey",
    "Verif.Hier.C72_remove",
    "Verif.Hier.C72_detach_detach",
    "Verif.Hier.C72_attach_same",
    "Verif.Hier.C72_attach_attach",
    "Verif.Hier.C72_detach_children",
    "Verif.Hier.C72_witness_order",
    "Verif.Hier.C72_witness_errors"
   ],
   "note": "States are compared by their child lists, which determine all accessors (C23). That two attachments must have different parents and both succeed is needed (C72_witness_order), as is the root for the agreement of push_child and insert_after (C72_witness_errors)."
  },
  {
   "property": "C73",
   "status": "proved",
   "theorems": [
    "Verif.Words.C73_call",
    "Verif.Words.C73_history",
    "Verif.Words.C73_injective",
    "Verif.Words.C73_queries",
    "Verif.Words.C73_port_offset",
    "Verif.Words.C73_nonzero"
   ],
   "note": "Refinement of the word model by the number model, call by call, from an invariant on the stored words (top bit clear or all ones; port slots hold the word of a node below 2^31 - 1)."
  },
  {
   "property": "C74",
   "status": "partial",
   "theorems": [
    "Verif.Words.C74_fresh_partial",
    "Verif.Words.C74_witness_reused",
    "Verif.Words.C74_witness_port",
    "Verif.Words.C74_witness_word"
   ],
   "note": "C74_fresh_partial: true while the vectors have at most 2^31 - 1 slots. Beyond, false: after 2^31 calls of add_node(0, 0) the next one returns a node that is in use (C74_witness_reused); the node with index 2^31 - 1 gets ports that read with the wrong direction and whose port_node panics (C74_witness_port); PortIndex::new(2^31) aliases port 0 and is stored as it is (C74_witness_word)."
  },
  {
   "property": "C75",
   "status": "partial",
   "theorems": [
    "Verif.PG.C75_capacity",
    "Verif.PG.C75_bounds",
    "Verif.PG.C75_in_place_partial",
    "Verif.PG.C75_witness_exact"
   ],
   "note": "C75_capacity is an exact effect per call; C75_bounds an invariant; C75_in_place_partial: in place if the new number of ports is positive and less than the capacity. With exactly as many ports as slots, or with none, the node is reallocated (C75_witness_exact)."
  },
  {
   "property": "C76",
   "status": "proved",
   "theorems": [
    "Verif.Words.C76_call",
    "Verif.Words.C76_history",
    "Verif.Words.C76_injective",
    "Verif.Words.C76_queries",
    "Verif.Words.C76_children",
    "Verif.Words.C76_descendants",
    "Verif.Words.C76_forest",
    "Verif.Words.C76_witness_alias",
    "Verif.Words.C76_witness_cycle",
    "Verif.Words.C76_witness_shrink"
   ],
   "note": "C76_call and C76_history: equality of answers, panics and memory. C76_forest combines it with the forest specification of C24. C76_witness_alias, _cycle and _shrink show what happens with the top bit set (a consequence of disagreement 1 about NodeIndex::new). Only for shrink_to: the capacity of the vector is at most 2^31."
  },
  {
   "property": "C77",
   "status": "proved",
   "theorems": [
    "Verif.Algo.C77_toposort",
    "Verif.Algo.C77_postorder",
    "Verif.Algo.C77_dominators",
    "Verif.Algo.C77_same_graph",
    "Verif.Algo.C77_compact_nodes",
    "Verif.Algo.C77_compact_ports",
    "Verif.Algo.C77_swap_nodes",
    "Verif.Algo.C77_insert_graph"
   ],
   "note": "C77_toposort, C77_postorder and C77_dominators for any copy; C77_same_graph, C77_compact_nodes, C77_compact_ports, C77_swap_nodes and C77_insert_graph for the ways copies arise. compact_ports under the condition of C16 (no node without ports owns slots), swap_nodes under that of C17."
  },
  {
   "property": "C78",
   "status": "partial",
   "theorems": [
    "Verif.Lca.C78_new",
    "Verif.Lca.C78_root",
    "Verif.Lca.C78_lca_partial",
    "Verif.Lca.C78_witness_square"
   ],
   "note": "C78_new and C78_root prove the documented bounds. The claim for lca is false of the code: i.max(...) on line 165 restarts the search after each move. C78_lca_partial proves at most k(k+1)/2 rounds below depth 2^k, and C78_witness_square that for every depth 2^(k+1)-1 up to the limit of the node indices one round fewer is not enough."
  },
  {
   "property": "C79",
   "status": "partial",
   "theorems": [
    "Verif.Render.C79_read_partial",
    "Verif.Render.C79_flat_partial",
    "Verif.Render.C79_forest_partial",
    "Verif.Render.C79_witness_custom"
   ],
   "note": "Proved for styles without own arrows and without line breaks outside of labels (Styles.Clean), for labels without # and < (C51 shows why), and with a hierarchy for views that contain the children of their nodes (as in C44). For own arrows the claim is false: C79_witness_custom."
  },
  {
   "property": "C80",
   "status": "partial",
   "theorems": [
    "Verif.PG.C80_normal_form_partial",
    "Verif.PG.C80_idempotent_partial",
    "Verif.PG.C80_nodes_twice",
    "Verif.PG.C80_ports_twice_partial",
    "Verif.PG.C80_witness_slack"
   ],
   "note": "C80_nodes_twice holds without condition. The normal form is proved for graphs in which nodes without ports own no port slots; otherwise compact_ports leaves such slots behind (disagreement recorded with C16) and C80_witness_slack shows two graphs that no query tells apart, of which one panics later."
  },
  {
   "property": "C81",
   "status": "proved",
   "theorems": [
    "Verif.Multi.C81_refines",
    "Verif.Multi.C81_set_bits",
    "Verif.Multi.C81_equality",
    "Verif.Multi.C81_same_future",
    "Verif.Multi.C81_witness_history"
   ],
   "note": "C81_witness_history: equality depends on the history, as the lengths of the bit vectors do (disagreement 45)."
  },
  {
   "property": "C82",
   "status": "partial",
   "theorems": [
    "Verif.Multi.C82_normal_form_partial",
    "Verif.Multi.C82_same_future_partial",
    "Verif.Multi.C82_nodes_twice",
    "Verif.Multi.C82_ports_twice_partial",
    "Verif.Multi.C82_witness_lengths",
    "Verif.Multi.C82_witness_copy_order"
   ],
   "note": "Missing: slots that belong to nodes without ports (false, C80_witness_slack) and the lengths of the bit vectors (false, C82_witness_lengths). C82_witness_copy_order: the shown graph without the copy nodes does not determine the result (disagreement 47)."
  },
  {
   "property": "C83",
   "status": "partial",
   "theorems": [
    "Verif.View.C83_positions_partial",
    "Verif.View.C83_position_lt_partial",
    "Verif.View.C83_lines_of_node_partial",
    "Verif.View.C83_line_count_partial",
    "Verif.View.C83_size_partial",
    "Verif.View.C83_paths_partial",
    "Verif.View.C83_minimal_partial",
    "Verif.View.C83_witness_lines"
   ],
   "note": "Missing: several links into one port (false, new panics: C54_witness_panic_multi). C83_witness_lines: the comment that there are fewer lines than nodes is false (disagreement 48)."
  },
  {
   "property": "C84",
   "status": "partial",
   "theorems": [
    "Verif.Convex.Line.C84_rounding",
    "Verif.Convex.Line.C84_ties",
    "Verif.Convex.Line.C84_guess",
    "Verif.Convex.Line.C84_gap_endless",
    "Verif.View.C84_find_index_partial",
    "Verif.View.C84_find_index_outside",
    "Verif.View.C84_is_node_convex_partial",
    "Verif.View.C84_is_convex_partial",
    "Verif.View.C84_intervals_partial",
    "Verif.View.C84_by_intervals_partial",
    "Verif.View.C84_try_extend_partial",
    "Verif.View.C84_nodes_in_intervals_partial",
    "Verif.View.C84_witness_gap"
   ],
   "note": "Missing: several links into one port (false, new panics: C54_witness_panic_multi); positions in a gap of the line (false: C84_gap_endless, C84_witness_gap: the loop of find_index never ends, disagreement 49). C84_rounding: the model of the rounding gives the nearest floating point number."
  },
  {
   "property": "C85",
   "status": "proved",
   "theorems": [
    "Verif.Slots.C85_removed",
    "Verif.Slots.C85_resized",
    "Verif.Slots.C85_bounded",
    "Verif.Slots.C85_memory",
    "Verif.Slots.C85_witness_extra",
    "Verif.Slots.C85_tiling",
    "Verif.Slots.C85_length",
    "Verif.Slots.C85_clean",
    "Verif.Slots.C85_reuse",
    "Verif.Slots.C85_witness_compact"
   ],
   "note": "For histories without compact_ports on a graph with a node without ports that owns slots; after such a call it fails (C85_witness_compact, disagreement 3)."
  },
  {
   "property": "C86",
   "status": "proved",
   "theorems": [
    "Verif.Slots.C86_full_abstraction",
    "Verif.Slots.C86_witness_order"
   ],
   "note": "C86_witness_order: equal answers to queries now do not suffice."
  },
  {
   "property": "C87",
   "status": "partial",
   "theorems": [
    "Verif.Follow.C87_rekey_iff",
    "Verif.Follow.C87_rekey_partial",
    "Verif.Follow.C87_swap",
    "Verif.Follow.C87_remove",
    "Verif.Follow.C87_step_partial",
    "Verif.Follow.C87_history_partial",
    "Verif.Follow.C87_witness_documented"
   ],
   "note": "False for the documented callback: compact_nodes reports every live node, also those that keep their index, and rekey panics for them if they are in use. C87_rekey_iff says exactly when (disagreement 50). With swap_nodes as the callback (C87_swap), or if no node in use keeps its index (C87_rekey_partial), it holds."
  },
  {
   "property": "C88",
   "status": "partial",
   "theorems": [
    "Verif.Weights.C88_step_partial",
    "Verif.Weights.C88_history_partial",
    "Verif.Weights.C88_witness_documented_swap",
    "Verif.Weights.C88_witness_documented_shrink"
   ],
   "note": "Proved for the rekey callbacks, with the weights of a removed node and its ports removed by the user and shrink_to only after a compaction. False for the documented swap callback of set_num_ports and for the documented shrink_to after remove_node without a compaction (disagreements 51 and 52). Calls that the graph itself refuses are outside (Call.ok)."
  },
  {
   "property": "C89",
   "status": "partial",
   "theorems": [
    "Verif.Weights.C89_step_partial",
    "Verif.Weights.C89_history_partial",
    "Verif.Weights.C89_witness_counts"
   ],
   "note": "Proved for the rekey callbacks, with the weights of a removed node and its ports removed by the user, and shrink_to after a compaction to the counts of as_portgraph(). False for shrinking to the node_count() and port_count() of the multigraph: helpers are not counted but take indices (C89_witness_counts, disagreement 53). Calls outside MOp.ok (disagreement 15 and others) are outside."
  },
  {
   "property": "C90",
   "status": "partial",
   "theorems": [
    "Verif.Follow.C90_step_partial",
    "Verif.Follow.C90_history_partial",
    "Verif.Follow.C90_witness_count"
   ],
   "note": "Proved for the callback swap_nodes, and for the documented rekey if no node in use keeps its index (disagreement 50); shrink_to with as_portgraph().node_count(). False for shrinking to the multigraph's node_count(): helpers are not counted (C90_witness_count, disagreement 54). Calls outside MOp.ok are outside."
  },
  {
   "property": "C91",
   "status": "partial",
   "theorems": [
    "Verif.Follow.C91_region_partial",
    "Verif.Follow.C91_multi_region_partial",
    "Verif.Follow.C91_multi_flat_partial",
    "Verif.Follow.C91_portgraph_compact_partial",
    "Verif.Follow.C91_portgraph_swap_partial",
    "Verif.Follow.C91_portgraph_remove_partial",
    "Verif.Follow.C91_portgraph_flat_partial",
    "Verif.Follow.C91_portgraph_same_partial",
    "Verif.Follow.C91_compact_partial",
    "Verif.Follow.C91_swap_partial",
    "Verif.Follow.C91_remove_partial",
    "Verif.Follow.C91_same_partial"
   ],
   "note": "The histories are those of C87 and C90 (the documented rekey callback only if no node in use keeps its index, disagreement 50). All parts are proved for port graphs and for multigraphs. For foreign nodes the region is wrong (C38_witness_foreign), which these histories exclude."
  },
  {
   "property": "C92",
   "status": "partial",
   "theorems": [
    "Verif.Convex.C92_contract",
    "Verif.Convex.C92_together",
    "Verif.Convex.C92_line_partial",
    "Verif.Convex.C92_view_partial",
    "Verif.Convex.C92_witness_multi"
   ],
   "note": "Full for port graphs and the topological checker (C92_contract, C92_together). The line checker needs a list of distinct nodes that is not empty (C32); views need at most one link per incoming port, otherwise the claim is false (C92_witness_multi)."
  },
  {
   "property": "C93",
   "status": "proved",
   "theorems": [
    "Verif.View.C93_multi_partial",
    "Verif.View.C93_replace",
    "Verif.View.C93_convex",
    "Verif.View.C93_weakest",
    "Verif.View.C93_witness_cycle"
   ],
   "note": "C93_replace for views with at most one link per port, so for port graphs and parts of them; C93_convex and C93_weakest also for multigraphs with at most one link per incoming port. C93_multi_partial is the extension of C93_replace to such multigraphs if no port has links both into the set and out of it. C93_witness_cycle shows a replacement that makes a cycle when neither condition holds."
  },
  {
   "property": "C94",
   "status": "proved",
   "theorems": [
    "Verif.View.C94_with_nodes_order",
    "Verif.View.C94_determined",
    "Verif.View.C94_nodup",
    "Verif.View.C94_witness_twice"
   ],
   "note": "For all views whose queries agree. A node given twice has its ports on the boundary twice (C94_witness_twice)."
  },
  {
   "property": "C95",
   "status": "partial",
   "theorems": [
    "Verif.View.C95_filtered",
    "Verif.View.C95_with_nodes",
    "Verif.View.C95_new_subgraph",
    "Verif.View.C95_same_nodes",
    "Verif.View.C95_increasing",
    "Verif.View.C95_stack",
    "Verif.View.C95_flat_region_partial",
    "Verif.View.C95_region_partial",
    "Verif.View.C95_witness_flat_region",
    "Verif.View.C95_witness_region"
   ],
   "note": "Full for filtered graphs, and for subgraphs of graphs that list their nodes in increasing order, as port graphs and stacks of these views do. A flat region and a region list their nodes in the order of the hierarchy, so the claim holds for them exactly if the two orders agree (C95_flat_region_partial, C95_region_partial; C95_witness_flat_region, C95_witness_region)."
  }
 ]
}