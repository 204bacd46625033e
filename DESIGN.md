# Formal model of CQCL/portgraph in Lean 4

The properties are listed in `properties.jsonl` (C01, C02, …). This file says, for
each of them, what part of `/repo` is modelled, how the property is proved, and what
is left out. `MANIFEST.json` maps properties to theorem names.

## Trusted base

* Lean 4.33.0's kernel. The only axioms used are Lean's own `propext`,
  `Classical.choice` and `Quot.sound` (each property file ends with `#print axioms`
  for its theorems). No axioms are added, no `sorry`, no `native_decide`, no
  `bv_decide`.
* The hand translation of the Rust text to Lean definitions. Every definition cites
  the file and lines it models. The Rust code was never run.
* The Rust standard library and the crates `bitvec`, `itertools`, `delegate`,
  `smallvec`, … are modelled by their documented behaviour (`Vec` as `List`,
  `HashMap`/`HashSet`/`BTreeSet` as functions or lists).

## Modelling conventions

* A function that may panic returns `Option`; `none` is a panic (failed `assert!`,
  `unwrap`, index out of bounds, underflow in a debug build). A Rust `Result` is
  `Except` inside it. `&mut self` becomes a returned new state.
* `Vec<T>` is `List T`; reading past the end is a panic, as in Rust.
* Inside the graph model an index is a `Nat`. `Verif/Words` models the same functions on the
  words of the representation, and C73 proves that they agree for graphs with at most
  `2^31 - 1` node and port slots and arguments below `2^31`; the graph theorems speak about
  these. C74 shows what happens beyond. `usize` (positions in vectors, counts) stays `Nat`.
* `u16` counts are kept: `as u16` is `% 65536` and the assertions of `NodeMeta::new`
  are modelled.
* Callbacks (`rekey`) are modelled by the list of calls they receive, in order.
* Capacity reservations (`reserve`, `shrink_to_fit`, `Vec::capacity`) have no
  observable effect and are not modelled.
* When the code contradicts a property, the code is modelled as it is, the negation is
  proved on a concrete witness, and a `_partial` theorem states what does hold. These
  disagreements are listed below under "Disagreements".

## Plan per property

| Property | Model | Proof |
|---|---|---|
| C01–C03 | `Verif/Index/*`: `BitField` over any width, indices, maybe-indices, offsets | arithmetic |
| C04–C11, C17, C18, C46 | `Verif/PortGraph/*`: the exact representation (node slots with the doubly linked free list, port slots, slab free lists, counters) | invariant with ghost owner map, preserved by every operation; refinement to an abstract graph of (node, direction, offset) endpoints |
| C12–C14 | same, `set_num_ports` with both branches and the callback trace | loop invariants for the moves, refinement |
| C15, C16 | same, `compact_nodes`, `compact_ports` | loop invariants, order isomorphism |
| C19 | iterators of `src/portgraph/iter.rs` as state machines | run of the machine equals a filtered list |
| C20, C47 | `insert_graph`, `link_nodes`, `link_offsets`, `get_connection`, `connected` (provided trait methods) | refinement |
| C21, C22 | the secondary map implementations | refinement to total functions |
| C23–C26 | `Verif/Hierarchy/*`: the intrusive sibling lists | refinement to ordered forests |
| C27, C28 | iterators over an abstract link view, instantiated with the port graph | loop invariants |
| C29 | post order numbering and the fixpoint loop | loop invariants |
| C30 | DFS time stamps and climb lists | induction over forests |
| C31, C32 | checker loops over an abstract DAG and an arbitrary topological order | loop invariants |
| C33, C34 | Pearce–Kelly style order, as coded | negation on witnesses, partial theorems |
| C35 | `Verif/Boundary/*`: the loop of `port_ordering` over an arbitrary view | loop invariant: sets of reaching inputs, remaining neighbour counts; order laws |
| C36–C38 | views over an abstract link view | extensional equality |
| C45 | `copy_in_parent` over an abstract host graph (`CopyIn/Model.lean`), with instances for `PortGraph` and `MultiPortGraph`; `reserve` is left out, the iteration order of the node map and of the undo loop is any permutation | loop invariant over the laws of a host (`CopyIn/Loop.lean`) |
| C39–C41 | `Verif/Multi/*`: multiport graph over the port graph model | invariant on the flags and helper nodes, refinement of every call to a multigraph of shown nodes, ports and links |
| C48 | capacities of the views | direct from the definitions, counts from the invariants |
| C42 | weights as secondary maps, sequential rekey | induction over the callback trace |
| C43, C49, C50 | `petgraph` traits over an abstract view (`Petgraph/Model.lean`); iterators are lists of items; the `VisitMap` of a `HashSet` is code of `petgraph` and not modelled | exact contents for all views, negations where the contract fails |
| C44 | mermaid explorer and dot renderer over an abstract view, as the lists of statements they write (`Render/Model.lean`); the iteration order of the hash map of links is any permutation | invariant on the exploration stack (`Render/Lemmas.lean`) |
| C51 | labels, styles, and the builder that turns mermaid statements into text (`Render/Style.lean`) | induction over the statements |
| C53 | the algorithms of C27–C31 on any `GView` with `GView.Ok` (`ViewAlgo/*`) | the loop invariants of C27–C31 hold for arbitrary views; queries about nodes outside the view are never made |
| C54 | `LineConvexChecker` with all its queries on any `GView` (`Convex/LineModel`, `LineOps`, `ViewAlgo/LineModel`) | the frontier invariant of the construction, for any number of links per outgoing port; the intervals of a set are found, extended and merged by induction over the lines of a node; `kmerge_by` is specified as a relation, its result is unique |
| C55, C56 | the derived and hand written `Serialize`/`Deserialize` implementations on trees of values (`Serde/Model.lean`) | the readers undo the writers on numbers in range; all stored numbers of reachable graphs are in range (`Serde/Bounds.lean`), by induction over the calls |
| C57 | `MaybeNodeIndex`, `BitField`, `Direction` and their orders on bit vectors of any width (`Index/MaybeModel.lean`) | refinement: after every sequence of calls the bits encode the option, or the number with its flag |
| C58 | the state machines of the iterators with `next`, `next_back`, `nth`, `count`, `len`, `size_hint` (`Iter/Model.lean`) | simulation of the list of items left, kept by each call |
| C59 | `BoundaryPort` and the accessors of `Boundary` and `PortOrdering` (`Boundary/AccessModel.lean`) | list reasoning on positions; induction on the calls of `add_order`; with C35 for computed orders |
| C60 | the generators of `src/proptest.rs` for any draw, written once for both kinds of graph (`Gen/Model.lean`) | induction on vertices and edges with the laws of `add_node` and `link_ports` shared by both graphs |
| C61 | `insert_graph` over the record `Host` of the graph calls and any `GView` (`Insert/Model.lean`) | invariant of the double loop: the graph is the old one with copies of the nodes and links so far; the links listed by the loop are all links once |
| C62 | `==` of `PortGraph`, `Hierarchy`, `Region` (`Equality/Model.lean`); `Region` with its cache | the fields of a graph without unused slots are determined by its observations; `kids` determines the map; cache invariant of C25 |
| C63 | the wrappers of `View/Model.lean`; spec `SameGraph` (`ViewLaws/Spec.lean`) | equality of the records of answers; a view that describes a graph is determined by nodes and port links |
| C64 | the calls of `PG` and `MG` side by side (`Simulate/Spec.lean`) | each call step by step with all flags false, induction on the calls; queries by C63 style reasoning on `ofMG` and `ofPG` |
| C65 | the text written by `DotFormatter::finish` character by character (`Render/DotText.lean`); spec: a reader for lines, tags and numbers that does not know the graph (`Render/DotTextSpec.lean`) | prefix and search lemmas for the reader, digits of numbers, induction on nodes, links and ports; witnesses for texts with markup |
| C66 | the calls as modelled for C01-C24, `==` on hierarchies as for C62; spec: `SameButFree`, answers to sequences of calls (`Undo/Spec.lean`) | each call leaves the rest of the state alone whatever the length of the free lists (`Undo/Free.lean`), then equality of all fields; hierarchies by lists of children |
| C67 | as C66; spec: the ports a call touches, the parent a call refers to (`Undo/Spec.lean`) | each call is a list of writes decided by the touched ports (`Undo/LinkLemmas.lean`), hierarchies by lists of children; witnesses that the conditions are needed |
| C68 | the models of C26-C34 and C38; spec: `Before`, `Acyclic`, chains of immediate dominators, `Yields` (`Agree/Props.lean`) | from the characterisations of the single algorithms; walks and chains for dominators (`Agree/Lemmas.lean`) |
| C69 | as C39-C42; spec: the subports a call touches, `SameObs` (`Undo/MultiSpec.lean`) | subport calls are port calls on the flat graph, so C66 and C67 carry over (`Undo/Exact.lean`); the others from the effects of calls |
| C70 | the delegated calls (`Dyn/PassModel.lean`); spec: `Valid` order of C33 | effects of the graph calls on nodes and arcs; equivalences for the calls that break the order, negation on witnesses |
| C71 | the models of C36; spec: `Leaves`, `Near` (`View/RoundProps.lean`) | from the characterisations of C36, induction over `Inner` and over paths within the set |
| C72 | the model of C23; spec: child lists, `Op.attaches` (`Hierarchy/LawProps.lean`) | from the call specification of C24; commuting attachments by splitting an ancestor path at the new child |
| C73, C74 | `Verif/Words/*`: the representation of `PortGraph<u32, u32, PO>` in words of 32 and 16 bits, function by function; spec: the words of a graph of numbers (`encG`) | commutation with decoding per function; invariant on the stored words; overflow states by induction on the number of calls |
| C75 | `PG.nodePortCapacity` and the calls of `PG` (`Verif/PortGraph/Model.lean`); spec: `CapEffect`, least power of two (`Verif/PortGraph/PropsCap.lean`) | effect per call from the invariant, induction over histories |
| C76 | `Hierarchy` with words: `WData`, `WH`, all calls and iterators (`Verif/Words/HierModel.lean`); spec: `encH` (`Verif/Words/HierSpec.lean`) | every call commutes with the encoding, induction over histories |
| C77 | as C15–C17, C20, C27–C29; spec: `Copied`, `SameTraversals` (`Verif/Algo/EmbedProps.lean`) | simulation of the traversals step by step (`Verif/Algo/Embed.lean`), fuel drops out as both runs end |
| C78 | as C30; the fuel of each loop counts its rounds (`lcaWith` has one limit per loop) | potential function for the search loop (`sweeps`, `Verif/Lca/Cost.lean`), more fuel does not change answers; the bound is attained on chains of every length (`C78_witness_square`). Disagreement 43 |
| C79 | as C44 and C51; a reader of mermaid text that knows only lines, numbers and brackets (`Verif/Render/ReadSpec.lean`) | reading the text gives back the statements (`C79_read_partial`), by one lemma per kind of line; equal statements give equal nodes, parents and counts of links (`SameDrawing`). Own arrows: `C79_witness_custom`, disagreement 44 |
| C80 | as C04, C15, C16; both compactions in either order | the queries define when two graphs correspond in order (`PG.OrderIso`, `Verif/PortGraph/NormalSpec.lean`); the compactions keep this relation, and two graphs without gaps and slack that correspond are equal, because an order preserving relation between initial segments of the numbers is equality (`dense_eq`) |
| C81 | `MultiPortGraph` with its two `BitVec` fields (`Verif/Multi/BitsModel.lean`), all mutating calls | each call commutes with reading the flags (`BMG.flags`), hence all lists of calls; the numbers of set bits follow from the invariant of C39 by counting; equality of lists of bits |
| C82 | `compact_nodes`, `compact_ports` of `MultiPortGraph` with bit vectors | the correspondence of C80 with flags is kept by both compactions (flags follow the ranks); normal multigraphs that correspond are equal, flags at free slots being unset and the counters being determined by the flags |
| C83 | `LineConvexChecker::new`, `extend_line_ends_frontier` on any view | the invariant of the construction (C54) also says that a node has `max 1 (max in out)` lines, of which the first `in` continue lines of its predecessors, and that its position is 0 or one more than that of a predecessor; paths are read off the lines, and double counting and counting the starts of paths give the sizes and the minimality |
| C84 | `find_index` with `f64` on any view | `f64` arithmetic as rational arithmetic with rounding to the nearest number with 53 binary digits and exponent at least -1074, shown to be nearest; rounding is monotone and keeps integers up to 2^53, so the step is at most `high - low`; the search then equals one with a guess clipped to the bounds and the theorems of C54 apply |
| C85 | `alloc_ports`, `free_ports` and their callers | the slots of all slabs are listed by reading the tables (`Slots/Spec.lean`); the representation invariant has a ghost owner for each slot, never missing below the length of the tables, and every call preserves it; the effect of each call on the lists of free slabs (`Slots/Effects.lean`) and on the number of nodes of each capacity gives the bound by induction on the history |
| C86 | all calls of `PG.Op` with their answers | `Indist` quantifies over all call sequences. From `SameButFree`: `C66_same_future`. To it: `swap_nodes(k, k)` panics beyond the node table, repeated `add_node` lists the free nodes and the free slabs of every size, removing a node shows its place; the invariant of C85 fixes all remaining entries |
| C87 | graph and hierarchy changed together, with the callback of `compact_nodes` applied to the reported calls in order | a compaction is a product of transpositions; induction on the reported calls, for which all slots from the next new index on that are in use are still to be moved. Child lists by `C24_calls_partial`, the graph by `C15_compact_nodes`; histories by induction (`Follow/Props.lean`). For the documented callback it is false, and `C87_rekey_iff` gives the exact condition |
| C88 | graph and weights changed together, all calls with their `rekey` callbacks, `remove` of the weights of what is removed | weights read as functions of nodes and endpoints; each call restricts them to what exists, or moves them along a renaming (`Weights/HistSpec.lean`). Invariant: a slot of no node and no port holds the default; per call from C15, C16, C17, C42 and the slots of the graph, histories by induction (`Weights/HistProps.lean`). False for the documented callbacks |
| C89 | multigraph and weights changed together; helper moves reported by `set_num_ports`, `compact_nodes`, `compact_ports` reach the weights too | invariant: a slot of no shown node and no shown port holds the default, so helper moves carry defaults; per call from `C39_calls_partial` and the reported calls of the port graph inside (`Weights/MultiSpec.lean`, `Weights/MultiProps.lean`) |
| C90 | multigraph and hierarchy changed together; the callbacks of `compact_nodes` include helpers | invariant: what is in use is shown; compaction by `C87_swap` and `C87_rekey_partial` on the port graph inside and the renaming of `C39_calls_partial` (`Follow/MultiModel.lean`, `Follow/MultiProps.lean`) |
| C91 | a pair of C87 or C90 and a region of it, given by the answers of `is_descendant` and the items of `descendants` | regions from C38 and C26 (levels), the invariant of C87/C90 removes their hypothesis; the levels of the renamed child lists are the renamed levels; removal cuts the subtree (`Follow/RegionProps.lean`) |
| C92 | the checkers of C31, C32, C53, C54; spec: arcs between the classes of a contraction, lists in topological order (`Convex/ReplaceProps.lean`) | a path of the contraction is a path of the graph or passes through the set; from a topological order, the nodes above the set, the set, and the rest give one with the set in one piece |
| C93 | the orders of C35, the boundary of C36, the checker of C31; the result of a replacement, for which the code has no function, is a specification of arcs (`Boundary/ReplaceProps.lean`) | induction on a path that starts outside: each stretch through the replacement has, by the comparison of the orders, a path through the set from the same input to the same output; for a convex set the path is mapped to the contraction of C92; `C93_weakest`: for a pair that is missing, the surroundings that join only this output to this input |
| C94 | `with_nodes` and `collect_boundary_ports` of C36; spec: a relation "stands before" on ports, by the given list and the list of ports of a node (`View/OrderProps.lean`) | the lists are pairwise in this relation, which is asymmetric; two lists with the same members that are pairwise in an asymmetric relation are equal |
| C95 | the views of C36–C38; spec: each list is a sublist of that of the graph below (`View/KeepProps.lean`) | filters give sublists; of two increasing lists, one with fewer members is a sublist of the other; the relation is transitive along a stack |
| C52 | the iterators of `multiportgraph/iter.rs` and the link iterator of `portgraph/iter.rs` as state machines (`Multi/IterModel.lean`) | a relation between iterator states and the list still to come, kept by each call |

## Modelling notes per area

**Port graph** (`Verif/PortGraph`). Representation exact up to `Nat` indices. `PG.Reach` are the
graphs reached from `PortGraph::new()` by calls that meet `Op.ok`; the calls excluded there are
those that corrupt the representation (disagreements 2, 3, 5). Port counts grown by
`set_num_ports` are not limited by the offset type, so C07 speaks about (direction, index)
pairs, and about encoded offsets only up to the maximum offset.

**Secondary maps** (`Verif/Secondary`). `Vec` based maps with default value, `BitVec` maps,
`HashMap` maps as functions. `ensure_capacity` and `shrink_to` may leave a capacity larger than
asked; the model has a parameter for the extra part. `UnmanagedDenseMap::iter` also yields entries
that hold the default.

**Hierarchy** (`Verif/Hierarchy`). The intrusive sibling lists. Walks get fuel and it is proved
to suffice. Histories (`Op.ok`) have indices below 2^31 and no `push_child(n, n)`. Counter
overflow panics as in a debug build.

**Weights** (`Verif/Weights`). Node and port maps with the `rekey` callbacks applied one by one.

**Traversals** (`Verif/Algo`). They use a graph only by the queries in `View`; `View.WF` are the
facts they rely on, proved for every reachable port graph (`ofPG_wf`). The visited map is a
function with a default value `dflt`, filters are pure functions. Toposort's `add_sources`
ignores nodes without ports; duplicate sources are yielded twice, `size_hint` may underflow with
foreign sources, post order panics on sources past the capacity. Post order is compared with a
recursive search (`Dfs`).

**Words** (`Verif/Words`). The same functions as `Verif/PortGraph/Model.lean` with the stored words:
`NodeIndex`, `PortIndex` and their optional forms as `BitVec 32`, `PortMeta` as `BitVec 32`, counts as
`BitVec 16`. `NodeIndex::new` panics from `2^32` on only. Iterators are not repeated in words: they
count in `usize` and make an index of each number, which `dropPorts`, `movePorts` and `portIndex`
show. Disagreement 39.

**Dominators** (`Verif/Algo/Dom*`). The iteration of Cooper, Harvey and Kennedy over post order
numbers; `usize::MAX` is `none`. An entry refused by the filter panics. Disagreement 10.

**Lowest common ancestor** (`Verif/Lca`). Maps as functions; `Covered` says which nodes the
search from the root reached.

**Convexity** (`Verif/Convex`). `BTreeSet` as an increasing list. `TopoConvexChecker`: nodes not
in the graph have position 0 and are misread (`C31_witness_foreign_node`).
`LineConvexChecker`: the interpolation search is an arbitrary guess within the bounds, and C84
models the `f64` operations and shows that their guess is within the bounds; an absent frontier key is a key without lines; `u32` line numbers are unbounded;
`is_node_convex([])` panics; nodes given twice violate the documented precondition and give a
wrong answer (`C32_witness_duplicate`).

**Dynamic sort** (`Verif/Dyn`). `HashMap` as function, `HashSet` as a list without repetition (the
answers do not depend on its order). Disagreements 11, 12, 17, 38.

**Views** (`Verif/View`). A view is the record `GView` of its answers to the queries; an iterator
is the list of its items. `GView.Ok` says that all queries describe one graph; it holds for every
reachable port graph and is kept by `FilteredGraph`, `FlatRegion`, `Region` and `Subgraph`, so the
results apply to nested views. Filters are pure functions. The cache of `Region` is modelled for
one and for many threads (atomic reads and writes under the lock; a poisoned lock is not
modelled). `BTreeSet` as an increasing list; the visited set of `internal_nodes` as a list.
`port_as_input` and the like are delegations and left out. Disagreements 13, 14, 20.

**Boundary order** (`Verif/Boundary`). The maps of boundary nodes are given by their keys; the
sets of ports are lists. The traversal is the toposort of `Verif/Algo` run on the view. Proved for
acyclic views with one link at each incoming port in which the boundary ports are not linked, in
particular for the boundary of every `Subgraph::with_nodes` (`C35_subgraph`, and for multigraphs
`C35_subgraph_multi_partial`). Disagreements 21 and 46.

**Random graphs** (`Verif/Gen`). The strategies of the crate `proptest` are not modelled; what they
draw is a parameter limited to the ranges they are asked for, and the order of the hash set of
vertices is any order. The loops are written over the record `Host` of the calls of a graph.

**Serialisation** (`Verif/Serde`). A format is a tree of nulls, numbers, strings, sequences and
maps, as JSON and MessagePack have; the bytes are not modelled. The code generated by `derive` of
`serde` is modelled by hand (structs by name or position, unknown fields ignored, duplicated fields
refused, externally tagged and untagged enums). The bit vectors are serialised by the crate `bitvec`,
which is a parameter. The model of `PortGraph` agrees with the snapshot in the repository (an
`example` in `Serde/Props.lean`). Disagreement 33.

**Optional indices** (`Verif/Index/MaybeModel.lean`) and **iterators** (`Verif/Iter`). Bit fields are
bit vectors of any width. An iterator is a record of its methods; `nth` and `count` are the defaults
of `core` where the type does not define them, with fuel. `Enumerate`, `Range`, `IterOnes` and slice
iterators of the standard library and of `bitvec` are modelled by their documented behaviour.

**Multiport graph** (`Verif/Multi`). The flat port graph with the two flag vectors as total
functions. `m.obs` is what the queries show (nodes, positions of ports, links between subports,
subports); `Effect` states each call in these terms. `MReach` are the graphs reached from any
reachable port graph by calls that meet `MOp.ok`: arguments are no helpers, the ports of
`link_ports` exist and have at most 32766 subports or one without link (a node cannot have more than
32768 ports; otherwise it panics, `C39_link_returns_iff`),
`set_num_ports` moves no port to the place of a removed multiport, `compact_ports` as for port
graphs. Queries about helper ports assert or answer about helpers; the view `ofMG` masks them.
The lists of the iterators are modelled in
`Multi/Model.lean`; `Multi/IterModel.lean` models the iterators themselves (`next`, `next_back`,
`size_hint`, the cached copy node) and C52 ties them to the lists. Disagreements 15, 22.

**Examples** are checked by evaluation in the kernel (`decide +kernel`, no axioms). Mathlib
modules are imported one by one, for lists, relations and finite cardinalities.

## How the model was compared with the code

The code cannot be run here. Its own tests record what it does, so they were transcribed and run on the model:
`lean/Verif/Conform/*.lean` holds every unit test of `/repo/src`; no definition had
to be changed to make them pass. A test is a program in `Option`, checked by
`example : test = some () := by decide +kernel`. These are tests and not proofs; no theorem uses them.

* `PortGraph`: `src/portgraph.rs` and the examples in the documentation of `src/view.rs`.
* `Multi`, `Hierarchy`, `View`: `src/multiportgraph.rs`, `src/hierarchy.rs`, `src/view/*.rs`.
* `Algo`, `Dyn`: `src/algorithms/*.rs` and `src/boundary.rs`.
* `Render`: the nine snapshot files of dot and mermaid; the model writes the same text, character by character.
* `Data`: `src/index.rs`, `src/unmanaged.rs`, `src/weights.rs`, the serialization tests, and the snapshot of
  the JSON of a multiport graph, again character by character.

Left out: the random tests (`src/proptest.rs`, `prop_serialization`), `test_capacity` of `src/unmanaged.rs`
(the capacity of a vector is not part of the map), and the two `Debug` texts of `src/index.rs`.

## Disagreements found so far (code versus property)

1. C02: `BitField::new` only checks that the index fits the integer type, so the top
   bit of an over-large index is silently dropped.
2. C04/C17: `swap_nodes` with the slot that is first in the free list leaves the head of this
   list stale, and the next `add_node` panics. With two free slots one of the two is
   lost for good (`C17_swap_two_free`). Other
   free slots are fine.
3. C04/C16: `compact_ports` does not update nodes without ports that own capacity. Removing such a
   node later always panics or takes a port of another node (`C16_compact_ports_breaks`).
4. C10: an unknown second port is reported as the first port.
5. C14: more than 32768 ports overflow the `u16` capacity; zero ports still
   allocate a slab.
6. C22: `rekey` writes `V::default()` instead of the map's default.
7. C23: `push_child(n, n)` succeeds for a childless root.
8. C25: `rekey(n, n)` panics unless `n` is untouched.
9. C27: with several links per port (`MultiPortGraph`) a node may be emitted before
   one of its predecessors (`C53_witness_toposort_multi`).
10. C29: predecessors unreachable from the entry are taken for post order index 0
    (`C29_dominators_exact` says what this computes).
11. C33: `update_order` overwrites unrelated nodes in the order
    (`C33_witness_node_lost`) and writes the cones in search order
    (`C33_witness_backward`); `C33_connect_valid` is the exact condition.
12. C34: `has_path_outside_subgraph` does not require the path to come back
    (`C34_is_convex_exact` says what it decides); `link_ports` of the checker tests the
    wrong direction, so it panics on parallel and transitive links; with the input port
    first it always panics; `can_reach_inputs` visits each node once and so forgets a path
    which leaves the set when it has come to the same node inside (`C34_witness_shortcut`;
    `C34_is_convex_ports_partial` says what is decided). `new` takes a graph with a cycle, then
    `unlink_port` panics (`C34_unlink_untracked`, `C34_witness_unlink_panics`).
13. C37: `FilteredGraph::link_count` counts each non-self link twice; `subport_link` ignores
    the node filter.
14. C38: `Region::clone` may start with an empty cache, which gives wrong answers
    (`C38_witness_locked_clone`); `FlatRegion::is_empty` is always false.
15. C41: `unlink_port` of a multiport returns the port itself, and of a port linked to a
    multiport a hidden port (`C41_witness_unlink_result`); `set_num_ports` that moves a port to
    the place of a removed multiport loses links, leaves a flag on a free slot and makes
    `link_count` wrong (`C41_witness_shrink_links`, `C41_witness_stale_flag`,
    `C40_witness_shrink`).
16. C43: `VisitMap::visit` returns the negation (`C43_visit_opposite`); `node_bound` is the node
    count, which is right exactly if the indices have no gaps (`C43_node_bound_partial`).
17. C34: `remove_node` on an unknown node panics in the checker, the graph ignores it;
    `clear`, `swap_nodes`, `compact_nodes` leave the checker's order stale.
18. C31/C32: see the notes on foreign and duplicate nodes.
19. C30, C26: no disagreement. C21: `UnmanagedDenseMap::iter` yields default entries.
20. C36: a link between two inner nodes is shown although it passes through boundary ports
    (`C36_witness_boundary_link`); nodes that are not in the graph are contained when they are
    given to `with_nodes`.
21. C35: `port_ordering` panics when an input is linked to an unvisited node of the given graph
    (`C35_witness_linked`: the boundary of a subgraph, asked in the whole graph) and on cycles
    (`C35_witness_cycle`); repeated ports are related at the first position only.
22. C39: `link_ports(a, b)` with an unknown `b` first allocates a helper node for `a`; if `b` is the
    index of a helper port created just then, the call succeeds or corrupts `a`
    (`C39_witness_unknown_port`). `port_node`, `ports`, `num_ports` answer for helper nodes;
    `compact_nodes` counts helper nodes (`C39_witness_compact_gaps`).
23. C45: a node that `set_num_ports` has given 32768 ports cannot be copied, `add_node` panics after
    part of the copy is made (`C45_witness_wide_node`); indices that are no nodes are copied to
    nodes without ports (`C45_witness_foreign`).
24. C49: `edge_references` yields each link twice, although `len` is the number of links; `edges` also
    yields the links to the node; `edges_directed(n, Incoming)` exchanges source and target
    (`C49_witness_edge_references`, `C49_witness_edges`).
25. C50: `node_capacity` of a `MultiPortGraph` may be smaller than its node indices, so that
    `adjacency_matrix` mixes up pairs or panics (`C50_witness_multiport`).
26. C44: the mermaid explorer follows the hierarchy below a node of a view even if the children are
    not in the view. A flat region is drawn with the grandchildren of its root
    (`C44_witness_flat_region`); a filtered graph may draw nodes twice, and the nodes that were
    filtered out (`C44_witness_filtered`).
27. C44: if the root of a tree is not in the view, links of inner nodes are drawn inside their source
    subgraph, where the target does not belong, before the target is drawn
    (`C44_witness_link_place`).
28. C44: `NodeStyle::Hidden` promises that no edges are connected to the node, but the dot output has
    the edges into hidden nodes (`C44_witness_hidden`), and the mermaid output has all of them.
29. C51: a quote in a label and the text `#quot;` are written alike (`C51_witness_collision`); a custom
    edge style loses its label (`C51_witness_custom`); `with_attrs` is ignored for `NodeStyle::Box`.
    Labels in dot outputs are not escaped at all (see 37).
30. C52: `size_hint` of `port_links` promises one link for a port that is not linked
    (`C52_witness_port_links`); `next_back` of the link iterator of a port graph does not look at the
    ignored range, so `all_links` from the back yields a link of a node to itself twice
    (`C52_witness_all_links_back`).
31. C53: `node_capacity` of a subgraph, region or multiport graph may be smaller than its node indices,
    and then `postorder` and `dominators` panic (`C53_witness_capacity_subgraph`,
    `C53_witness_capacity_multi`). With several links per port, `toposort` may emit a node before a
    predecessor (`C53_witness_toposort_multi`), the convexity check built on it is wrong
    (`C53_witness_convex_multi`), and `postorder` follows the first link only
    (`C53_witness_postorder_multi`).
32. C54: with several links into a port, `LineConvexChecker::new` panics on an acyclic graph, as its
    order is wrong (`C54_witness_panic_multi`). `is_convex` of both checkers looks at the first link of
    an output port only and misses a link from an output to an input port
    (`C54_witness_is_convex_multi`). `internal_nodes` follows only the first link of a port and may
    yield a node twice, so that `get_intervals_from_boundary` panics (`C54_witness_boundary_multi`).
33. C56: an index out of range is read as another index or as `None`, or the reader panics
    (`C56_witness_index_out_of_range`); the same for offsets (`C56_witness_offset_out_of_range`). An
    inconsistent graph is read without an error and its calls panic (`C56_witness_inconsistent`). A
    missing `node_free` is read as `None` (`C56_witness_missing_field`).
34. C57: `flip_bit_flag` of an unset bit field does not panic as `set_bit_flag` does but makes an index
    above the maximum (`C57_witness_flip_unset`). `new` above the maximum may give the unset value, which
    is lost when stored, or an index that reads as another one but compares unequal
    (`C57_witness_out_of_range`).
35. C58: the iterator of a dense map with keys above the maximum of the index type panics
    (`C58_witness_key_too_large`).
36. C62: `==` of port graphs compares the private vectors. The graph after `add_node(1,1)`,
    `remove_node(0)`, `add_node(1,1)` has the nodes, ports, links and even slots of the graph after one
    `add_node(1,1)`, but is not equal to it: its vector of free port lists is longer. Witness
    `C62_witness_history`.
37. C65: dot texts are written as given. A custom edge style with a quote and a line break makes the text
    of one graph equal to the text of another (`C65_witness_edge_style`), and a node label with tags shows
    a port that does not exist (`C65_witness_label`).
38. C70: `swap_nodes`, `compact_nodes` and `clear` of the dynamic checker change the nodes of the graph and not
    the order. After a swap the answers of `is_convex` may be wrong (`C70_witness_swap`), after
    `compact_nodes` nodes of the graph are refused and `remove_node` panics (`C70_compact_nodes_lost`,
    `C70_witness_compact`).
39. C74: `NodeIndex::new` does not panic above the maximum (C02), so neither does a growing graph. The
    `2^31 + 1`-th node without ports gets the index of the first one (`C74_witness_reused`), the ports of the node
    with index `2^31 - 1` read with the wrong direction and `port_node` panics on them (`C74_witness_port`), and
    the indices with the top bit set are other names of the first ports (`C74_witness_word`).
40. C39: two ports of a `MultiPortGraph` can be linked 32767 times; the next `link_ports` panics
    (`C39_witness_full`), as the helper node cannot have more than 32768 ports, while `SubportIndex::new_multi`
    speaks of `2^16` subports and `link_ports` documents no panic.
41. C75: `node_port_capacity` documents that a node is not reallocated until the number of ports exceeds the
    capacity; `set_num_ports` also reallocates if it equals the capacity, and for no ports (`C75_witness_exact`).
42. C76: `NodeIndex::new` accepts indices with the top bit set, and in a `Hierarchy` these are second names of the first
    nodes: listed as children under a name whose data are those of another (`C76_witness_alias`), not seen by the check for cycles
    (`C76_witness_cycle`), and `shrink_to(2^31)` with a capacity of `2^31 + 1` disconnects node 0
    (`C76_witness_shrink`).
43. C78: `LCA::lca` documents O(log n) (lines 13 and 122). The line `i = i.max(self.climb_nodes[u].len() - 1)` (165;
    "ensure `i` is within bounds" suggests `min`) starts the search over at the top of the table after every move, so
    that it takes k(k+1)/2 rounds for two nodes 2^k - 1 levels deep, the square of a logarithm
    (`C78_witness_square`); this is also the most it takes (`C78_lca_partial`).
44. C79: `EdgeStyle::Custom` is copied between the numbers of the two nodes without a separator, so the text of a link
    with an own arrow that ends in a digit is that of a link to another node (`C79_witness_custom`).
45. C81: `==` of `MultiPortGraph` is derived and so compares the lengths of its bit vectors, which are never shortened:
    two multigraphs that were compacted and have the same port graph and flags are not equal if one of them once had
    a port with two links (`C81_witness_history`). No later call can tell them apart (`C81_same_future`).
46. C35, C36: on multigraphs `internal_nodes` follows only the first link of a port, so `Subgraph::new_subgraph` misses
    nodes (`C36_witness_multi`); and a port with one link inside and one that leaves is a boundary port which
    `port_ordering` does not pass, so that it panics on the boundary of `with_nodes` (`C35_witness_fan_out`).
47. C82: after both compactions a `MultiPortGraph` still depends on where its copy nodes were made: the same nodes, ports
    and links, shown in the same order, can have different numbers (`C82_witness_copy_order`), and the lengths of the bit
    vectors differ (`C82_witness_lengths`).
48. C83: the comment on `LineIndex` (line_convex_checker.rs:66, "the number of lines is always smaller than the total
    number of nodes") is false: two nodes with three links have three lines (`C83_witness_lines`). The number of lines is
    at most the number of nodes and links (`C83_line_count_partial`). The comment on `Position` (78) is true
    (`C83_position_lt_partial`).
49. C84: `find_index` (line_convex_checker.rs:453-497) returns an option, but for a position between those of the ends of the
    line at which the line has no node its loop never ends (`C84_gap_endless`, `C84_witness_gap`). It is private and its
    callers pass positions on the line, unless `is_convex_by_intervals` or `try_extend_intervals` is given intervals of
    another checker.
50. C87: the documentation of `src/hierarchy.rs` (lines 45-48) propagates a compaction by `compact_nodes(|old, new| rekey(old, new))`.
    `compact_nodes` (portgraph.rs:585-614) calls back for every live node, also when its index does not change, and `rekey`
    (hierarchy.rs:470-484) tests whether slot `new` is occupied before it tests `old == new`. So the documented calls panic
    exactly if a node with a parent or children has only live nodes below its index (`C87_rekey_iff`,
    `C87_witness_documented`), for instance whenever node 0 is a live parent. With `swap_nodes` as callback they work (`C87_swap`).
51. C88: the documentation of `src/weights.rs` (lines 32-34) keeps port weights through `set_num_ports` with `swap`. A swap leaves the
    weight of a removed port in a slot that a new port of the same node may take, so that the new port does not have the default
    weight (`C88_witness_documented_swap`). With `rekey` it does (`C88_step_partial`).
52. C88: the same documentation (lines 36-39) shrinks the weights to `node_count()` and `port_count()` after `remove_node`. Counts
    are not bounds of indices: without a compaction in between, remaining nodes and ports lose their weights
    (`C88_witness_documented_shrink`). After a compaction shrinking loses nothing (`C88_step_partial`).
53. C89: for a `MultiPortGraph`, `weights.nodes.shrink_to(graph.node_count())` (`src/weights.rs` lines 36-39) loses weights even right
    after `compact_nodes`: `node_count` and `port_count` leave out helpers (multiportgraph.rs:134-145), but compaction keeps helpers
    among the nodes, so that shown nodes have indices above the counts (`C89_witness_counts`; see `C39_witness_compact_gaps`).
    With the counts of `as_portgraph()` nothing is lost (`C89_step_partial`).
54. C90: for a `MultiPortGraph`, `hierarchy.shrink_to(graph.node_count())` (`src/hierarchy.rs` line 48) detaches shown nodes whose
    indices lie behind those of helpers, right after `compact_nodes` (`C90_witness_count`). With
    `graph.as_portgraph().node_count()` nothing is lost (`C90_step_partial`).
55. C94: `Subgraph::with_nodes` makes a set of the given nodes, but takes the boundary from the list as given (src/view/subgraph.rs:95-98):
    a node given twice has its ports on the boundary twice (`C94_witness_twice`). On such a boundary `port_ordering` finds an order
    for the first copy of a port only (`C35_witness_repeated`).
56. C95: `nodes_iter` of a `FlatRegion` or `Region` follows the hierarchy, while filtered graphs and subgraphs follow the graph
    (`C95_witness_flat_region`, `C95_witness_region`). The documentation promises no order.
