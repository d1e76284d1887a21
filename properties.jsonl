{"id": "C01", "title": "calc_path returns the minimum weight", "statement": "For every graph built with add_edge/add_edge_bidir and frozen, every preparation (prepare, prepare_with_params, prepare_with_order of a permutation) that returns, and every pair of nodes s, t: if calc_path returns Some(p) then p.get_weight() equals the minimum total weight over all walks from s to t along the accepted edges (those with weight >= 1), and no such walk is cheaper.", "quantifier": "all graphs, all weights, all parameter values and priority functions, all contraction orders, all tie-breaking choices of the heaps, all node pairs", "why_tests_cant": "random tests sample 50-node graphs with weights below 100; the claim quantifies over all graphs, orders and tie-breaks", "anchors": ["src/lib.rs:calc_path", "src/path_calculator.rs:calc_path", "src/fast_graph_builder.rs:run_contraction", "src/node_contractor.rs:contract_node", "src/witness_search.rs:find_max_weight"]}
{"id": "C02", "title": "calc_path returns None exactly when there is no path", "statement": "For every prepared graph and every s, t in range, a returning calc_path gives None if and only if no walk from s to t of total weight below usize::MAX exists in the input graph.", "quantifier": "all graphs, preparations, node pairs", "why_tests_cant": "absence of a path cannot be sampled exhaustively; depends on completeness of shortcuts for every order", "anchors": ["src/path_calculator.rs:calc_path_multiple_sources_and_targets", "src/node_contractor.rs:handle_shortcuts"]}
{"id": "C03", "title": "Returned node list is a real path of the reported weight", "statement": "If calc_path returns Some(p), p.get_nodes() starts with s, ends with t, every consecutive pair is an edge of the frozen input graph, and the sum of those edge weights is exactly p.get_weight(); get_source()/get_target() are the first and last node.", "quantifier": "all graphs, preparations, node pairs", "why_tests_cant": "shortcut unpacking is recursive with unbounded nesting; tests check a few shapes", "anchors": ["src/path_calculator.rs:extract_nodes", "src/path_calculator.rs:unpack_fwd", "src/path_calculator.rs:unpack_bwd", "src/fast_graph_builder.rs:finish_contraction"]}
{"id": "C04", "title": "Returned path visits no node twice", "statement": "The node list of a returned single-pair path has no repeated node.", "quantifier": "all graphs, preparations, node pairs", "why_tests_cant": "needs optimality plus positivity for all inputs", "anchors": ["src/path_calculator.rs:extract_nodes", "src/input_graph.rs:do_add_edge"]}
{"id": "C05", "title": "Path from a node to itself", "statement": "calc_path(g, s, s) for s in range returns Some with weight 0 and node list [s], for every prepared graph.", "quantifier": "all prepared graphs, all nodes", "why_tests_cant": "universally quantified over graphs and calculator state", "anchors": ["src/path_calculator.rs:calc_path"]}
{"id": "C06", "title": "Multi source/target query is optimal", "statement": "If calc_path_multiple_sources_and_targets returns Some(p), p.get_weight() is the minimum of start_weight + walk weight + end_weight over all listed sources, all listed targets and all walks between them.", "quantifier": "all graphs, preparations, source lists and target lists (with duplicates, arbitrary initial weights)", "why_tests_cant": "unbounded lists and weights", "anchors": ["src/path_calculator.rs:calc_path_multiple_sources_and_targets"]}
{"id": "C07", "title": "Multi query result decomposes", "statement": "If the multi query returns Some(p), then there are entries (s,ws) in sources and (t,wt) in targets with p.get_source()=s, p.get_target()=t, p.get_nodes() a real path from s to t of weight w in the input graph and p.get_weight() = ws + w + wt.", "quantifier": "all graphs, preparations, source and target lists", "why_tests_cant": "the result mixes labels from two searches with stalling and pruning; must be consistent for every schedule of heap pops", "anchors": ["src/path_calculator.rs:extract_nodes", "src/path_calculator.rs:calc_path_multiple_sources_and_targets"]}
{"id": "C08", "title": "Multi query returns None exactly when nothing is reachable", "statement": "The multi query returns None iff there is no source entry, target entry and walk whose total weight is below usize::MAX; in particular entries with weight usize::MAX never contribute.", "quantifier": "all graphs, preparations, source and target lists", "why_tests_cant": "negative existential over unbounded lists and walks", "anchors": ["src/path_calculator.rs:calc_path_multiple_sources_and_targets"]}
{"id": "C09", "title": "A reused calculator answers like a fresh one", "statement": "For every history of queries (on any graphs with the same node count), the next query on the reused PathCalculator returns exactly the same result (found/not found, weight, node list, or panic) as the same query on a freshly created calculator.", "quantifier": "all query histories of any length, including more than 2^32 queries; all graphs", "why_tests_cant": "histories are unbounded and the u32 generation counter wraps only after 2^32 queries", "anchors": ["src/path_calculator.rs:calc_path_multiple_sources_and_targets", "src/valid_flags.rs:invalidate_all"]}
{"id": "C10", "title": "Any permutation is a valid contraction order", "statement": "For every frozen graph and every permutation of its node ids, prepare_with_order returns Ok (or fails only by arithmetic overflow) and the result answers every query optimally.", "quantifier": "all graphs and all n! permutations", "why_tests_cant": "n! orders", "anchors": ["src/fast_graph_builder.rs:build_with_order", "src/fast_graph_builder.rs:run_contraction_with_order"]}
{"id": "C11", "title": "Order length mismatch is the only Err", "statement": "prepare_with_order returns Err exactly when the order's length differs from the number of nodes.", "quantifier": "all graphs and all order slices", "why_tests_cant": "unbounded slices", "anchors": ["src/fast_graph_builder.rs:build_with_order_with_params"]}
{"id": "C12", "title": "Parameters, orders and heap tie-breaking never change answers", "statement": "Two preparations of the same graph with any parameters, node priorities, orders, and priority-queue tie-breaking give the same found/not-found outcome and the same weight for every query.", "quantifier": "all graphs, all pairs of preparations, all queries", "why_tests_cant": "product of two infinite configuration spaces", "anchors": ["src/fast_graph_builder.rs:build_with_params", "src/fast_graph_builder.rs:Params", "src/lib.rs:prepare_with_params"]}
{"id": "C13", "title": "get_node_ordering is a permutation and the inverse of the ranks", "statement": "For a prepared graph, get_node_ordering() lists each node id exactly once, has length get_num_nodes(), and equals the order in which nodes were contracted; for prepare_with_order it returns the given order.", "quantifier": "all prepared graphs", "why_tests_cant": "all graphs and contraction runs", "anchors": ["src/fast_graph.rs:get_node_ordering", "src/fast_graph_builder.rs:run_contraction"]}
{"id": "C14", "title": "Re-preparing with the own ordering reproduces the graph", "statement": "If prepare_with_params(g, params) returns fg then prepare_with_order_with_params(g, fg.get_node_ordering(), max_settled_nodes_contraction of params) returns Ok of exactly the same FastGraph.", "quantifier": "all graphs and parameters", "why_tests_cant": "depends on witness searches being history independent over all interleaved priority computations", "anchors": ["src/fast_graph_builder.rs:run_contraction", "src/fast_graph_builder.rs:run_contraction_with_order", "src/witness_search.rs:init"]}
{"id": "C15", "title": "Preparation never panics except on integer overflow", "statement": "prepare, prepare_with_params and prepare_with_order with a permutation never hit an assertion, an out-of-bounds index or an explicit panic on a frozen graph; the only possible panics are arithmetic overflow of weights (overflow checks on) or capacity exhaustion.", "quantifier": "all frozen graphs built through the API, all parameters and orders", "why_tests_cant": "all inputs; panics hide in rare structural states", "anchors": ["src/preparation_graph.rs:disconnect", "src/preparation_graph.rs:remove_edge_with_adj_node", "src/witness_search.rs:init", "src/fast_graph_builder.rs:get_in_edge_id", "src/fast_graph_builder.rs:get_out_edge_id"]}
{"id": "C16", "title": "Queries panic exactly on invalid arguments", "statement": "On a prepared graph a query with in-range nodes, non-empty lists and a calculator of matching size never panics except for weight overflow; with an out-of-range node, an empty list or a calculator of different size it panics.", "quantifier": "all prepared graphs, calculators and arguments", "why_tests_cant": "all inputs", "anchors": ["src/path_calculator.rs:calc_path_multiple_sources_and_targets", "src/path_calculator.rs:extract_nodes", "src/fast_graph.rs:is_shortcut"]}
{"id": "C17", "title": "Queries terminate with a linear number of heap operations", "statement": "Every query on a prepared graph terminates after at most |sources| + |targets| + num_out_edges + num_in_edges iterations, and path unpacking recursion is no deeper than the number of nodes.", "quantifier": "all prepared graphs, queries, tie-breakings", "why_tests_cant": "termination is not testable", "anchors": ["src/path_calculator.rs:calc_path_multiple_sources_and_targets", "src/path_calculator.rs:unpack_fwd"]}
{"id": "C18", "title": "Preparation terminates", "statement": "Preparation terminates on every frozen graph: every witness search loop ends after at most heap size + number of edges pops and exactly num_nodes nodes are contracted.", "quantifier": "all frozen graphs, parameters", "why_tests_cant": "termination is not testable", "anchors": ["src/witness_search.rs:find_max_weight", "src/fast_graph_builder.rs:run_contraction"]}
{"id": "C19", "title": "freeze canonicalises the edge list", "statement": "After freeze(), get_edges() is strictly sorted by (from, to), contains for each (from,to) that was ever accepted exactly one edge, and its weight is the minimum of all accepted weights for that pair.", "quantifier": "all sequences of add_edge/add_edge_bidir/freeze/thaw", "why_tests_cant": "unbounded op sequences", "anchors": ["src/input_graph.rs:freeze", "src/input_graph.rs:sort", "src/input_graph.rs:remove_duplicate_edges"]}
{"id": "C20", "title": "Insertion order of edges is irrelevant", "statement": "Adding the same edges in any order (or with bidir split in two adds, or with redundant heavier duplicates) and freezing gives an identical InputGraph, hence an identical FastGraph.", "quantifier": "all permutations of all edge lists, any correct unstable sort", "why_tests_cant": "factorially many permutations; unstable sort may order ties arbitrarily", "anchors": ["src/input_graph.rs:sort", "src/input_graph.rs:remove_duplicate_edges"]}
{"id": "C21", "title": "freeze/thaw protocol", "statement": "add_edge panics iff the graph is frozen, freeze panics iff it is already frozen, accessors panic iff it is not frozen, thaw never panics; freeze, thaw, freeze gives the same frozen graph as a single freeze.", "quantifier": "all operation histories", "why_tests_cant": "unbounded histories", "anchors": ["src/input_graph.rs:freeze", "src/input_graph.rs:thaw", "src/input_graph.rs:check_frozen", "src/input_graph.rs:do_add_edge"]}
{"id": "C22", "title": "Accepted edges and node count", "statement": "add_edge returns 1 (add_edge_bidir 2) and records the edge(s) when from != to and weight >= 1, otherwise returns 0 and changes nothing; get_num_nodes() is always 1 + the largest node id of all accepted edges (0 if none), also after freeze/thaw cycles.", "quantifier": "all operation histories", "why_tests_cant": "unbounded histories", "anchors": ["src/input_graph.rs:do_add_edge", "src/input_graph.rs:get_num_nodes"]}
{"id": "C23", "title": "to_file / from_file round trip", "statement": "For every frozen graph reachable through the API, from_file applied to the text produced by to_file yields an identical frozen graph (edges and node count).", "quantifier": "all reachable frozen graphs", "why_tests_cant": "infinitely many graphs and number renderings", "anchors": ["src/input_graph.rs:to_file", "src/input_graph.rs:read_from_file", "src/input_graph.rs:read_arc_line"]}
{"id": "C24", "title": "to_dimacs_file / from_dimacs_file round trip", "statement": "For every frozen graph reachable through the API, from_dimacs_file applied to the text produced by to_dimacs_file yields an identical frozen graph.", "quantifier": "all reachable frozen graphs", "why_tests_cant": "infinitely many graphs", "anchors": ["src/input_graph.rs:to_dimacs_file", "src/input_graph.rs:read_from_dimacs"]}
{"id": "C25", "title": "DIMACS node count is honoured", "statement": "A graph read from a DIMACS file whose problem line declares N nodes has N nodes, so every declared node can be queried.", "quantifier": "all DIMACS files", "why_tests_cant": "infinitely many files; trailing isolated nodes are rarely tested", "anchors": ["src/input_graph.rs:read_from_dimacs"]}
{"id": "C26", "title": "Text readers accept exactly the documented lines", "statement": "from_file ignores every line not starting with 'a ' and otherwise adds exactly the edges listed, in any line order with the same result; from_dimacs_file panics unless there is exactly one problem line before the arcs, all arc endpoints are in 1..=N and the number of arc lines equals M.", "quantifier": "all text files", "why_tests_cant": "infinitely many files", "anchors": ["src/input_graph.rs:read_from_file", "src/input_graph.rs:read_from_dimacs", "src/input_graph.rs:read_arc_line"]}
{"id": "C27", "title": "32-bit conversion round trips", "statement": "If every value in the graph is below 2^32 (or is usize::MAX), FastGraph32::new followed by convert_to_usize gives back an identical FastGraph.", "quantifier": "all FastGraphs whose values fit in 32 bits", "why_tests_cant": "2^32 values per field, boundary at u32::MAX", "anchors": ["src/fast_graph32.rs:usize_to_u32", "src/fast_graph32.rs:u32_to_usize", "src/fast_graph32.rs:new", "src/fast_graph32.rs:convert_to_usize"]}
{"id": "C28", "title": "32-bit conversion rejects exactly what does not fit", "statement": "FastGraph32::new panics iff some stored value is at least 2^32 and not usize::MAX.", "quantifier": "all FastGraphs", "why_tests_cant": "unbounded graphs", "anchors": ["src/fast_graph32.rs:usize_to_u32"]}
{"id": "C29", "title": "Queries are unaffected by the 32-bit round trip", "statement": "For a prepared graph that fits into 32 bits, every query on the round-tripped graph returns exactly the same result as on the original.", "quantifier": "all prepared graphs that fit, all queries", "why_tests_cant": "unbounded graphs and queries", "anchors": ["src/lib.rs:serialize_32", "src/lib.rs:deserialize_32", "src/fast_graph32.rs:convert_to_usize"]}
{"id": "C30", "title": "32-bit conversion terminates on every platform", "statement": "FastGraph32::new terminates for every prepared graph on platforms with 64-bit and with 32-bit usize.", "quantifier": "all graphs, both pointer widths", "why_tests_cant": "tests run on a 64-bit host only", "anchors": ["src/fast_graph32.rs:usize_to_u32"]}
{"id": "C31", "title": "A node order that is not a permutation is never silently accepted", "statement": "prepare_with_order on an order of the right length that is not a permutation of the node ids does not return Ok with a graph that answers queries wrongly.", "quantifier": "all graphs and all order slices", "why_tests_cant": "documented precondition that is not checked for duplicates; needs a proof of violation or of safety", "anchors": ["src/fast_graph_builder.rs:run_contraction_with_order", "src/fast_graph_builder.rs:build_with_order_with_params"]}
{"id": "C32", "title": "Release and debug builds agree unless overflow occurs", "statement": "Whenever a preparation or query run with overflow checks does not panic with an overflow, the same run without overflow checks (wrapping arithmetic) returns the identical result, and no debug assertion fails. This includes input graphs no client can build and orders that are no permutations.", "quantifier": "all values of the types InputGraph and FastGraph, all preparations, orders and queries", "why_tests_cant": "tests run in one profile", "anchors": ["src/node_contractor.rs:handle_shortcuts", "src/witness_search.rs:find_max_weight", "src/path_calculator.rs:calc_path_multiple_sources_and_targets"]}
{"id": "C33", "title": "Small enough weights never overflow", "statement": "There is an explicit bound on input weights and node count (and on initial weights) under which no preparation and no query overflows, so they always return.", "quantifier": "all graphs and queries meeting the bound", "why_tests_cant": "depends on the worst possible shortcut nesting", "anchors": ["src/node_contractor.rs:handle_shortcuts", "src/witness_search.rs:find_max_weight", "src/path_calculator.rs:calc_path_multiple_sources_and_targets"]}
{"id": "C34", "title": "Search marks reset correctly after any number of queries", "statement": "The per-node 'visited' marks behave like a set that is emptied at the start of each query, for any number of queries including wrap-around of the 32-bit generation counter.", "quantifier": "all sequences of mark/test/reset operations of any length", "why_tests_cant": "2^32 resets needed to reach the wrap", "anchors": ["src/valid_flags.rs:ValidFlags", "src/valid_flags.rs:invalidate_all"]}
{"id": "C35", "title": "FastGraph edge ranges are well formed", "statement": "For a prepared graph, begin_out_edges(v) <= end_out_edges(v) <= get_num_out_edges() for every node (same for in-edges), the ranges of different nodes are disjoint, they cover all edges, and every edge leads from its node to a node contracted later.", "quantifier": "all prepared graphs, all nodes", "why_tests_cant": "all graphs", "anchors": ["src/fast_graph.rs:begin_out_edges", "src/fast_graph.rs:end_out_edges", "src/fast_graph.rs:begin_in_edges", "src/fast_graph.rs:end_in_edges", "src/fast_graph_builder.rs:run_contraction"]}
{"id": "C36", "title": "Every stored edge is realisable", "statement": "Every edge of a prepared graph (original or shortcut) has exactly the weight of some walk in the input graph between its endpoints, so no stored weight is below the shortest distance.", "quantifier": "all prepared graphs, all edges", "why_tests_cant": "unbounded shortcut nesting", "anchors": ["src/node_contractor.rs:handle_shortcuts", "src/preparation_graph.rs:add_or_reduce_edge", "src/fast_graph_builder.rs:finish_contraction"]}
{"id": "C37", "title": "Undirected graphs give symmetric answers", "statement": "If all edges were added with add_edge_bidir, calc_path(s,t) and calc_path(t,s) agree on found/not found and on weight.", "quantifier": "all bidirectional graphs, preparations, pairs", "why_tests_cant": "forward and backward searches are separate code over different edge arrays", "anchors": ["src/input_graph.rs:add_edge_bidir", "src/path_calculator.rs:calc_path"]}
{"id": "C38", "title": "Triangle inequality", "statement": "If calc_path finds s->t with weight a and t->u with weight b and a+b < usize::MAX, then it finds s->u with weight at most a+b.", "quantifier": "all graphs, preparations, triples", "why_tests_cant": "all triples of all graphs", "anchors": ["src/path_calculator.rs:calc_path"]}
{"id": "C39", "title": "Adding edges never makes routes longer", "statement": "If graph B contains all accepted edges of graph A, every pair found in A is found in B with weight at most that in A.", "quantifier": "all pairs of graphs with inclusion, all preparations", "why_tests_cant": "metamorphic relation over all graphs", "anchors": ["src/input_graph.rs:add_edge", "src/path_calculator.rs:calc_path"]}
{"id": "C40", "title": "Sub-paths of returned paths are shortest", "statement": "For any two positions i <= j in a returned node list, calc_path between those two nodes returns exactly the summed weight of the piece between them.", "quantifier": "all graphs, returned paths, positions", "why_tests_cant": "all positions of all paths", "anchors": ["src/path_calculator.rs:calc_path", "src/path_calculator.rs:extract_nodes"]}
{"id": "C41", "title": "to_file returning Ok means the file is complete", "statement": "If to_file (or to_dimacs_file) returns Ok(()), the file holds the text of every edge, for every point at which the disk may start failing.", "quantifier": "all graphs, all failure points of the underlying writes", "why_tests_cant": "needs fault injection at every write, in particular in the last buffered flush", "anchors": ["src/input_graph.rs:to_file", "src/input_graph.rs:to_dimacs_file"]}
{"id": "C42", "title": "Source and target list order and redundancy are irrelevant", "statement": "Permuting the source or target list, or adding an entry for an already listed node with a larger or equal weight, or an entry with weight usize::MAX, does not change found/not found or the weight of the multi query.", "quantifier": "all lists and permutations", "why_tests_cant": "factorially many lists", "anchors": ["src/path_calculator.rs:calc_path_multiple_sources_and_targets"]}
{"id": "C43", "title": "Single query is the singleton multi query", "statement": "calc_path(s,t) equals the multi query with [(s,0)] and [(t,0)]; and the multi query's weight equals the minimum over entries of ws + calc_path(s,t).weight + wt.", "quantifier": "all graphs, preparations, lists", "why_tests_cant": "all lists", "anchors": ["src/path_calculator.rs:calc_path", "src/path_calculator.rs:calc_path_multiple_sources_and_targets"]}
{"id": "C44", "title": "The reference oracles used by the test-suite are correct", "statement": "The Floyd-Warshall oracle returns the exact shortest distance (usize::MAX if unreachable) and the Dijkstra oracle the exact shortest path for every graph whose distances do not overflow, so agreement with them means correctness.", "quantifier": "all graphs, all pairs", "why_tests_cant": "oracles themselves are only checked on one example graph", "anchors": ["src/floyd_warshall.rs:FloydWarshall::prepare", "src/dijkstra.rs:Dijkstra::calc_path"]}
{"id": "C45", "title": "Witness search contract", "statement": "The weight returned while checking whether a shortcut is needed is never below the true shortest distance avoiding the contracted node; if it is at most the limit a path of that weight exists; and if the settled-node budget is not exhausted, a result above the limit means no path within the limit exists.", "quantifier": "all graphs, start/avoid/target nodes, sequences of calls after one init, limits", "why_tests_cant": "early stopping, search-tree reuse and limits interact across calls", "anchors": ["src/witness_search.rs:init", "src/witness_search.rs:find_max_weight"]}
{"id": "C46", "title": "Reversing all edges reverses answers", "statement": "Preparing the graph with every edge reversed, calc_path(t,s) on it agrees with calc_path(s,t) on the original in found/not found and weight.", "quantifier": "all graphs, preparations, pairs", "why_tests_cant": "metamorphic relation over all graphs", "anchors": ["src/path_calculator.rs:calc_path", "src/fast_graph_builder.rs:run_contraction"]}
{"id": "C47", "title": "Scaling weights scales answers", "statement": "Multiplying every input weight by k >= 1 (nothing reaching usize::MAX) multiplies every returned weight by k.", "quantifier": "all graphs, k, pairs", "why_tests_cant": "metamorphic relation over all graphs", "anchors": ["src/path_calculator.rs:calc_path"]}
{"id": "C48", "title": "Heaps used by the code satisfy the priority-queue contract", "statement": "The binary heap with HeapItem's ordering always pops an item of minimal weight and never loses or duplicates items.", "quantifier": "all push/pop sequences", "why_tests_cant": "unbounded sequences with ties", "anchors": ["src/heap_item.rs:HeapItem", "src/witness_search.rs:find_max_weight", "src/path_calculator.rs:calc_path_multiple_sources_and_targets"]}
{"id": "C49", "title": "Graphs written on 64-bit and read on 32-bit platforms answer correctly", "statement": "A graph prepared on a 64-bit platform with fewer than u32::MAX nodes and edges and weights below u32::MAX can be written with the 32-bit representation and read on a platform with 32-bit usize, and every query there returns the shortest path (None exactly when nothing below that platform's usize::MAX exists).", "quantifier": "all such graphs, all queries, all pairs of pointer widths", "why_tests_cant": "tests run on a 64-bit host only", "anchors": ["src/lib.rs:serialize_32", "src/lib.rs:deserialize_32", "src/fast_graph32.rs:u32_to_usize", "src/fast_graph32.rs:usize_to_u32"]}
{"id": "C50", "title": "The preparation graph starts as the input graph", "statement": "PreparationGraph::from_input_graph of a frozen input graph never panics, has exactly the input edges, and its incoming lists mirror its outgoing lists with at most one arc per pair and no loops.", "quantifier": "all frozen input graphs", "why_tests_cant": "all graphs", "anchors": ["src/preparation_graph.rs:from_input_graph", "src/preparation_graph.rs:add_edge"]}
{"id": "C51", "title": "Contracting a node preserves distances", "statement": "Contracting a node removes all its edges, keeps the graph consistent, and leaves every shortest distance below usize::MAX between the remaining nodes unchanged, for any settled-node limit, any tie-breaking and any earlier use of the search object.", "quantifier": "all consistent graphs, nodes, limits, search states", "why_tests_cant": "a missing shortcut shows only for particular graphs and limits", "anchors": ["src/node_contractor.rs:contract_node", "src/node_contractor.rs:handle_shortcuts", "src/witness_search.rs:find_max_weight"]}
{"id": "C52", "title": "Estimating relevance does not change the graph", "statement": "calc_relevance leaves the preparation graph exactly as it was.", "quantifier": "all graphs, nodes, parameters, search states", "why_tests_cant": "the simulated contraction shares code with the real one", "anchors": ["src/node_contractor.rs:calc_relevance", "src/node_contractor.rs:handle_shortcuts"]}
{"id": "C53", "title": "Preparation graph operations", "statement": "add_or_reduce_edge gives the edge the smaller of the old and new weight and changes nothing else; disconnect removes exactly the edges at the node; both keep incoming and outgoing lists consistent and never panic for valid nodes.", "quantifier": "all consistent graphs, nodes, weights", "why_tests_cant": "two mirrored adjacency lists are updated separately", "anchors": ["src/preparation_graph.rs:add_or_reduce_edge", "src/preparation_graph.rs:disconnect"]}
{"id": "C54", "title": "Bounded weights: everything returns and everything is right", "statement": "If all input weights are at most W with 2^(n+2)*W <= usize::MAX, n*n < usize::MAX and (when the library computes the order) n*n <= i32::MAX, then in every build prepare returns, every single query on the result returns, and the answer is None exactly when the target is unreachable and otherwise a path of the input graph of exactly the shortest distance.", "quantifier": "all graphs meeting the bound, parameters, heaps, node pairs, builds with and without overflow checks", "why_tests_cant": "combines absence of panics, completeness and optimality over all graphs", "anchors": ["src/lib.rs:prepare_with_params", "src/lib.rs:prepare_with_order_with_params", "src/lib.rs:calc_path"]}
{"id": "C55", "title": "create_calculator agrees with the one-off functions", "statement": "A calculator made by create_calculator answers every query, after any earlier use for this or other graphs, exactly like calc_path_multiple_sources_and_targets which makes a fresh one: same result or same panic.", "quantifier": "all graphs, use histories, queries", "why_tests_cant": "state kept between queries", "anchors": ["src/lib.rs:create_calculator", "src/lib.rs:calc_path_multiple_sources_and_targets", "src/path_calculator.rs:new"]}
{"id": "C56", "title": "Comparing answers", "statement": "is_found holds for every returned path; == on ShortestPath is an equivalence relation; answers to the same single query on differently prepared graphs compare equal.", "quantifier": "all graphs, preparations, pairs", "why_tests_cant": "hand-written PartialEq ignores the node list", "anchors": ["src/shortest_path.rs:is_found", "src/shortest_path.rs:eq"]}
{"id": "C57", "title": "Witness searches respect their budget", "statement": "After init and any number of find_max_weight calls with settled limits of at most K, on any graphs and after any earlier use of the object, at most K nodes are settled, and settled_nodes is exactly their number.", "quantifier": "all call sequences, graphs, limits", "why_tests_cant": "the counter is shared by all searches from one start node", "anchors": ["src/witness_search.rs:find_max_weight", "src/witness_search.rs:init"]}
{"id": "C58", "title": "With enough budget only necessary shortcuts are added", "statement": "If the settled-node limit exceeds the number of nodes, every edge that contract_node adds is u->v->x through the contracted node with exactly that weight and marked with v, and every walk from u to x avoiding v was strictly longer.", "quantifier": "all consistent graphs, nodes, search states", "why_tests_cant": "unnecessary shortcuts change no answer, so comparing answers cannot see them", "anchors": ["src/node_contractor.rs:contract_node", "src/node_contractor.rs:handle_shortcuts", "src/witness_search.rs:find_max_weight"]}
{"id": "C59", "title": "A saved graph is loaded unchanged", "statement": "load_from_disk returns exactly the graph given to save_to_disk, whatever follows in the file, on every platform whose usize holds all numbers of the graph, and fails on every other; the graph a client prepares fits the platform it was prepared on; files that are cut off are rejected; what is accepted was written by save_to_disk; a smaller platform rejects the file of every client with an edge lighter than usize::MAX. (A larger platform accepts it, but its queries panic: proved by an example.)", "quantifier": "all graphs, clients, platforms of at most 64 bits, trailing bytes, cut positions", "why_tests_cant": "tests write a single small graph and read it on the same machine", "anchors": ["src/lib.rs:save_to_disk", "src/lib.rs:load_from_disk"]}
{"id": "C60", "title": "Saving in 32 bits moves graphs between platforms", "statement": "A client's graph below the 32-bit limits saved by save_to_disk32 on a platform with more than 32 bits is loaded by load_from_disk32 on every platform with 32 to 64 bits: unchanged if usize is the same there, with correct queries if it is smaller. The file has half the size of the one of save_to_disk plus 20 bytes, shorter parts of it are rejected, and saving panics exactly when a number does not fit.", "quantifier": "all clients, platforms, trailing bytes, cut positions", "why_tests_cant": "the tests have a single platform", "anchors": ["src/lib.rs:save_to_disk32", "src/lib.rs:load_from_disk32", "src/lib.rs:serialize_32", "src/lib.rs:deserialize_32"]}
{"id": "C61", "title": "Reading 32-bit graphs exactly", "statement": "convert_to_usize maps u32::MAX to usize::MAX and leaves all other numbers and the node count unchanged; it panics only if the node count is usize::MAX.", "quantifier": "all 32-bit graphs, platforms with at least 32 bits", "why_tests_cant": "covers numbers that no small test graph contains", "anchors": ["src/fast_graph32.rs:convert_to_usize", "src/fast_graph32.rs:u32_to_usize"]}
{"id": "C62", "title": "The i32 shortcut counter overflows at hubs, without harm in release builds", "statement": "num_shortcuts in calc_relevance is an i32. If a node has in- and out-neighbors whose product of counts exceeds i32::MAX and no in-neighbor reaches an out-neighbor without it, preparing panics in builds with overflow checks, even if all weights are 1 (a star with 46341 in- and 46341 out-edges). In builds without checks the wrapped counter only influences the order: the graph is one a checked build produces for some order, and for bounded weights all its answers are right.", "quantifier": "all graphs with such a node, all parameters and heaps; all graphs with bounded weights for the second part", "why_tests_cant": "needs graphs with more than 90000 edges and two billion witness searches", "anchors": ["src/node_contractor.rs:calc_relevance", "src/node_contractor.rs:handle_shortcuts", "src/fast_graph_builder.rs:run_contraction"]}
{"id": "C63", "title": "Size of prepared graphs", "statement": "A prepared graph stores at most one out-edge and one in-edge per ordered pair of nodes, hence at most n(n-1)/2 edges in either direction, shortcuts included. Every input edge is stored with its weight or a smaller one, as an out-edge of its source or an in-edge of its target; so at least as many edges are stored as the input graph has.", "quantifier": "all graphs, all ways of preparing, all orders", "why_tests_cant": "a duplicate edge or a lost input edge only costs memory or is hidden by another path on test graphs", "anchors": ["src/fast_graph_builder.rs:run_contraction", "src/preparation_graph.rs:add_or_reduce_edge", "src/node_contractor.rs:contract_node", "src/fast_graph.rs:get_num_out_edges", "src/fast_graph.rs:get_num_in_edges"]}
{"id": "C64", "title": "Generous budgets keep shortcuts simple", "statement": "If the budget of the contraction (max_settled_nodes_contraction, or the limit given with an order) exceeds the number n of nodes, every stored edge has the weight of a path of the input graph that visits no node twice. With weights of at most W no stored weight exceeds (n-1)W, preparing never overflows when 4(n-1)W <= usize::MAX, and queries never overflow when the initial weights plus 2n(n-1)W fit. For smaller budgets even a total weight of all edges below usize::MAX/2 does not suffice: a checked build can panic and an unchecked one can report a weight no walk has.", "quantifier": "all graphs, all orders, all budgets above the number of nodes, all priority functions", "why_tests_cant": "shortcuts that go in circles need interplay of the search budget, the order and the weights; they never appear on random test graphs with default budgets", "anchors": ["src/fast_graph_builder.rs:run_contraction", "src/fast_graph_builder.rs:run_contraction_with_order", "src/node_contractor.rs:contract_node", "src/node_contractor.rs:handle_shortcuts", "src/witness_search.rs:find_max_weight"]}
{"id": "C65", "title": "Rounding never inverts priorities", "statement": "The priority of a node, computed in f32 and cast to usize, never decreases with the level or the number of shortcuts and never increases with the number of edges, for all finite factors that are not negative. For factors that are zero or between 2^-125 and 2^20 it is the exact value of the formula up to one part in 2^20 and rounding down; with default parameters it is 1000*(level/10 + (shortcuts+1)/(edges+1)) up to one part in 2^19. A node without edges starts with 1000. NaN factors make all priorities 0, an infinite ratio makes them 0 or usize::MAX. The remark that only the relation of the two factors matters is wrong: dividing both by ten exchanges nodes.", "quantifier": "all factors as stated, all levels, counts of shortcuts and edges up to 2^64 (accuracy) or 2^127 (monotonicity)", "why_tests_cant": "rounding errors show only at particular values among 2^192 inputs", "anchors": ["src/node_contractor.rs:calc_relevance", "src/fast_graph_builder.rs:Params::new", "src/fast_graph_builder.rs:run_contraction"]}
{"id": "C66", "title": "What is counted for priorities, and which node comes first", "statement": "The number of shortcuts that calc_relevance counts for a node v lies between the number of pairs of neighbors that need a shortcut when v is removed (no walk around v is as short) and the number of pairs connected over v; with a budget above the number of nodes it is exactly the former. The number of edges it uses is the number of out-neighbors plus the number of in-neighbors. If the queue pops nodes of least priority and the budget for the initial priorities exceeds the number of nodes, the node of rank 0 has the least initial priority of all nodes of the input graph.", "quantifier": "all preparation graphs, all nodes, all earlier witness searches, all budgets; all input graphs, parameters and heaps", "why_tests_cant": "a wrong count only changes the order of contraction, every answer stays right", "anchors": ["src/node_contractor.rs:calc_relevance", "src/node_contractor.rs:handle_shortcuts", "src/witness_search.rs:find_max_weight", "src/fast_graph_builder.rs:run_contraction"]}
{"id": "C67", "title": "Panics leave calculators and graphs usable", "statement": "A panic that is caught does not damage anything. A PathCalculator that has been used for any sequence of queries, on any graphs and with any arguments, some of which panicked at any point, answers the next query like a fresh calculator; on a prepared graph the answer is a shortest path. A query rejected because of its arguments changes nothing in the calculator. A call on an InputGraph that panics leaves it as it was, so that a client that carries on gets the graph of the calls that succeeded.", "quantifier": "all histories of queries on all graphs, all arguments, both build profiles (the last claim: with overflow checks); all sequences of calls on an input graph", "why_tests_cant": "the state left behind depends on where the panic happened; tests would have to catch panics at every point of a search", "anchors": ["src/path_calculator.rs:calc_path_multiple_sources_and_targets", "src/path_calculator.rs:update_node_fwd", "src/path_calculator.rs:update_node_bwd", "src/valid_flags.rs:invalidate_all", "src/input_graph.rs:do_add_edge", "src/input_graph.rs:freeze"]}
{"id": "C68", "title": "The printed form of a graph is a program that rebuilds it", "statement": "unit_test_output_string (and Debug) prints one statement g.add_edge(<from>, <to>, <weight>); per edge, in the order of the edges, on a line of its own. Running these statements on a new graph gives the printed edges and node count, and freezing gives the printed graph if it was frozen. Two graphs with the same output have the same edges.", "quantifier": "all graphs built by the API, frozen or not, all word sizes", "why_tests_cant": "needs all graphs and all numbers; a formatting fault shows for particular numbers of digits or edges only", "anchors": ["src/input_graph.rs:unit_test_output_string", "src/input_graph.rs:fmt"]}
{"id": "C69", "title": "The order of contraction", "statement": "Whenever prepare contracts a node, its priority is at most that of every node that is left. The priority of a node is the formula applied to its level (the length of the longest chain of contracted nodes below it, each a neighbor of the next one when contracted), to the number of shortcuts found by the search made when its last neighbor was contracted (at the beginning if there was none) and to its current number of edges. The number of shortcuts lies between the pairs that needed a shortcut then and the pairs connected over the node now; with budgets above the number of nodes it is exactly the former, so the comparison is determined by the input graph.", "quantifier": "all frozen input graphs, all parameters, all relevance formulas, every queue that pops least priorities, every point of the contraction", "why_tests_cant": "the order influences sizes and speed but no answers, so query tests cannot see a priority that is not updated or computed from the wrong level", "anchors": ["src/fast_graph_builder.rs:run_contraction", "src/node_contractor.rs:calc_relevance"]}
{"id": "C70", "title": "What is stored for every node", "statement": "For every node the prepared graph stores exactly the edges the node has in the graph that is left when the nodes before it in the node order have been contracted: the same neighbors and weights in the same order, for out-edges and in-edges. Levels strictly increase along every stored edge.", "quantifier": "all frozen input graphs, all orders and parameters, every node", "why_tests_cant": "an edge stored too early, too late or twice often leaves all distances correct", "anchors": ["src/fast_graph_builder.rs:run_contraction", "src/fast_graph_builder.rs:run_contraction_with_order"]}
{"id": "C71", "title": "Which nodes a query visits", "statement": "When a query returns, each direction of the search has given a weight exactly as follows. A weight is an initial weight of a source, or the weight of an expanded node plus the weight of a stored edge from there, and it is the smallest one offered. A node is not expanded if a stored in-edge from a higher node with a weight offers less (stall-on-demand); every other node with a weight is expanded, unless its weight is above the weight of the answer. So only nodes are visited to which stored edges lead up from a source (backwards: from a target), and every weight belongs to a walk of the input graph.", "quantifier": "all prepared graphs, all source and target lists, calculators with any history including caught panics, both directions", "why_tests_cant": "stalling and pruning influence speed but no answers: a query test cannot tell whether they happen at all", "anchors": ["src/path_calculator.rs:calc_path_multiple_sources_and_targets", "src/path_calculator.rs:is_stallable_fwd", "src/path_calculator.rs:is_stallable_bwd"]}
{"id": "C72", "title": "Heap operations of a query", "statement": "When a query returns, every item pushed to one of its heaps has been popped, in ascending order of the weights. A node is pushed again only with a smaller weight, so its last push is its final weight. The edges of a node are relaxed at most once: the number of pushes of the forward search is at most the number of sources plus the number of out-edges stored for the expanded nodes, and so at most the sources plus the out-edges of the prepared graph (backwards: targets and in-edges). If a node is both a source and a target, no node above the sum of its two initial weights is expanded. Writing down pushes and pops changes neither answers nor panics.", "quantifier": "all prepared graphs, all source and target lists, all heap implementations, calculators with any history including caught panics, both directions", "why_tests_cant": "the heap is private and running times are noisy: tests see neither the number of heap operations nor a node that is expanded twice", "anchors": ["src/path_calculator.rs:calc_path_multiple_sources_and_targets", "src/path_calculator.rs:update_node_fwd", "src/path_calculator.rs:update_node_bwd"]}
{"id": "C73", "title": "Text files are read as UTF-8, byte for byte", "statement": "from_file and from_dimacs_file return a graph exactly if the file exists and its bytes are the UTF-8 encoding of a text from which this graph is read; on such files they do what the text says, including panics. A missing file and a file with invalid UTF-8 in any line, even one that would be ignored, lead to a panic. If the file can be created and every write takes at least one byte, reading the file written by to_file or to_dimacs_file gives the graph back, whatever the file held before.", "quantifier": "all byte sequences, all texts, all input graphs, all disks, all word sizes, with and without overflow checks", "why_tests_cant": "there are infinitely many byte sequences, and the tests read only small ASCII files", "anchors": ["src/input_graph.rs:read_from_file", "src/input_graph.rs:read_from_dimacs", "src/input_graph.rs:to_file", "src/input_graph.rs:to_dimacs_file"]}
{"id": "C74", "title": "A failed save keeps the old file", "statement": "When to_file or to_dimacs_file does not succeed, the file that was there before is unchanged.", "quantifier": "all graphs, all disks, all previous contents", "why_tests_cant": "the tests never save to an existing file and never make a save fail", "anchors": ["src/input_graph.rs:to_file", "src/input_graph.rs:to_dimacs_file"]}
{"id": "C75", "title": "Saving a prepared graph is all or error", "statement": "If save_to_disk returns Ok, the file is complete and loading it gives the graph back, whatever the disk did in between. If it returns an error, the file could not be created and is unchanged, or at least one byte at its end is missing and loading it is refused; a wrong graph is never loaded. The same holds for save_to_disk32, which in addition leaves the file alone when a number does not fit into 32 bits.", "quantifier": "all prepared graphs, all disks (any write may fail or take part of the bytes), all previous contents, all platforms with up to 64 bits", "why_tests_cant": "tests run on a disk that never fails", "anchors": ["src/lib.rs:save_to_disk", "src/lib.rs:load_from_disk", "src/lib.rs:save_to_disk32", "src/lib.rs:load_from_disk32"]}
{"id": "C76", "title": "Input graphs from outside", "statement": "An InputGraph can be deserialised and then need not satisfy what add_edge and freeze establish. Every preparation of a value that is not frozen or has a node id out of range, a loop or two edges with the same end points panics (and does not hang). Every prepared value is therefore well-formed, and on it paths, weights and None are exactly the shortest paths along the edges of the value, even if edges are unsorted or weigh zero. Well-formed values can be prepared under the same bounds as graphs built by the API. Paths visit no node twice if all weights are positive; with weights of zero they can.", "quantifier": "all values of the type InputGraph, all heaps, parameters and orders that are permutations, all sources and targets", "why_tests_cant": "the tests only prepare graphs built by add_edge and freeze", "anchors": ["src/input_graph.rs:InputGraph", "src/preparation_graph.rs:from_input_graph", "src/preparation_graph.rs:remove_edge_with_adj_node", "src/node_contractor.rs:contract_node", "src/witness_search.rs:init", "src/fast_graph_builder.rs:build"]}
{"id": "C77", "title": "Fast graphs from outside", "statement": "A FastGraph can be deserialised and then need not be what a preparation returned. On any value whatsoever a query ends, except when unpacking some shortcut recurses without end, which needs a shortcut that replaces itself, directly or through others; such a value exists and is accepted by load_from_disk. If every stored edge stands for an edge or for two stored edges meeting at a lower node, queries with legal arguments only panic on overflow, and a returned path is a path along these edges that weighs at most what is reported. It can weigh less. Prepared graphs satisfy both conditions.", "quantifier": "all values of the type FastGraph, all histories of the calculator, all sources and targets", "why_tests_cant": "the tests only query graphs that were prepared; hanging cannot be tested", "anchors": ["src/fast_graph.rs:FastGraph", "src/path_calculator.rs:calc_path_multiple_sources_and_targets", "src/path_calculator.rs:unpack_fwd", "src/path_calculator.rs:unpack_bwd", "src/path_calculator.rs:extract_nodes"]}
{"id": "C78", "title": "Exactly which fast graphs answer correctly", "statement": "On a graph all of whose stored edges stand for walks, a query that does not panic returns the right weight exactly if a lightest walk goes up and then down along stored edges. All queries are right, including multiple sources and targets, if two local conditions hold: every edge is covered by an up-down walk, and wherever stored edges go down to a node and up again there is a way above this node that is not longer. The local conditions are necessary as well, and prepared graphs satisfy them.", "quantifier": "all values of the type FastGraph with consistent edges, all histories of the calculator, all sources and targets", "why_tests_cant": "an equivalence over all graphs and queries", "anchors": ["src/fast_graph.rs:FastGraph", "src/path_calculator.rs:calc_path_multiple_sources_and_targets", "src/path_calculator.rs:is_stallable_fwd", "src/path_calculator.rs:is_stallable_bwd"]}
{"id": "C79", "title": "The queue of nodes to be contracted is a map from which the least is taken", "statement": "After any sequence of push, change_priority and pop the priority queue stands for the map from nodes to priorities a client expects: pop returns None exactly if the map is empty, otherwise it removes a node of the map and no other node has a smaller priority. So the theorems about preparation and about the order of contraction apply to it.", "quantifier": "all sequences of calls, all nodes and priorities", "why_tests_cant": "the array heap has unboundedly many states; a misplaced element only shows up in a later pop", "anchors": ["src/fast_graph_builder.rs:run_contraction"]}
{"id": "C80", "title": "The randomised tests cannot fail", "statement": "On every graph built by the API and for every list of queries the comparison the randomised tests make succeeds: path calculator, Dijkstra and Floyd-Warshall agree, also for several weighted sources and targets (unless a route weighs exactly usize::MAX). With the numbers the tests use there is no panic at all, so for every outcome of the random generator a test fails only because of its statistical limits (more than 100 different paths or 500 missing ones out of 1000). A random graph is the graph a client builds with the drawn edges up to the wanted number; the loop does not end for one node or for no edge. The checksums of the performance tests are the sum of the distances and the number of unconnected pairs, whichever way the graph was prepared.", "quantifier": "all graphs built by the API, all random numbers in the ranges of the tests, all lists of queries, all heaps", "why_tests_cant": "a randomised test samples the random numbers; that it can never fail is a statement about all of them", "anchors": ["src/lib.rs:run_test_on_random_graph", "src/lib.rs:routing_with_multiple_sources_and_targets_on_random_graph", "src/lib.rs:do_run_performance_test", "src/input_graph.rs:build_random_graph", "src/dijkstra.rs:calc_path", "src/floyd_warshall.rs:prepare"]}
{"id": "C81", "title": "Input graphs in binary form", "statement": "An input graph stored with serde and bincode is read back unchanged, frozen or not. Another platform accepts the bytes exactly if all numbers fit, and then the graph is the one the same calls would have built there, so everything proved about clients holds for it. Every accepted file begins with the bytes of the graph that is returned; a file that was cut off is rejected. The file has 24 bytes per edge and 17 more.", "quantifier": "all input graphs, all byte strings, all platforms up to 64 bits", "why_tests_cant": "no test stores an input graph; the derived traits are public API", "anchors": ["src/input_graph.rs:InputGraph", "src/input_graph.rs:Edge"]}
{"id": "C82", "title": "With generous budgets the prepared graph is determined by the input", "statement": "When all witness-search budgets exceed the number of nodes, neither their values nor the order in which the heap returns items of equal weight influence the preparation: contraction of a node, relevance of a node, and the whole prepared graph are determined by the input graph and the order (or the relevance formula and the queue of nodes). So on graphs with less than 100 nodes preparing again with the order found gives the identical graph although the default budgets differ. With smaller budgets this is false.", "quantifier": "all graphs, orders, heaps and budgets", "why_tests_cant": "tests run one heap implementation; a dependence on ties would only show after an upgrade of the standard library", "anchors": ["src/witness_search.rs:find_max_weight", "src/node_contractor.rs:handle_shortcuts", "src/fast_graph_builder.rs:run_contraction_with_order", "src/fast_graph_builder.rs:run_contraction"]}
{"id": "C83", "title": "Node ids only name nodes", "statement": "Two clients whose graphs correspond under an injective renaming of the nodes get the same weights for corresponding queries with one or several sources and targets, however each graph was prepared. The second graph may hold further nodes and edges as long as no edge leads from the renamed part to them.", "quantifier": "all pairs of corresponding graphs, all preparations, heaps and queries", "why_tests_cant": "a metamorphic relation over two graphs; the tests never compare a graph with a renamed copy", "anchors": ["src/lib.rs:calc_path", "src/path_calculator.rs:calc_path_multiple_sources_and_targets", "src/fast_graph_builder.rs:run_contraction"]}
{"id": "C84", "title": "Stack needed by queries", "statement": "The recursion that unpacks shortcuts is never deeper than the number of nodes (C17) and this bound is attained: for every m there are a graph with m + 1 nodes and an order accepted by prepare_with_order such that the only edge a query can use needs exactly m nested calls. So the stack a query needs grows linearly with the graph for some orders.", "quantifier": "all line lengths, all budgets and heaps", "why_tests_cant": "tests use small or random graphs whose hierarchies are flat; the effect needs a bad order on a large graph", "anchors": ["src/path_calculator.rs:unpack_fwd", "src/path_calculator.rs:unpack_bwd", "src/path_calculator.rs:extract_nodes", "src/fast_graph_builder.rs:run_contraction_with_order"]}
{"id": "C85", "title": "Files that end too early", "statement": "If a file written by to_file or to_dimacs_file is cut off anywhere, the graphs that can be read from it are exactly these: for from_file the graphs with the first k edges, for from_dimacs_file the complete graph or, if nothing is left, the empty graph; in both cases the weight of the last edge may have lost some of its last digits. Every other cut panics. In particular a failed or incomplete save never yields a graph with other edges, but a missing end can go unnoticed.", "quantifier": "all graphs built by clients, all beginnings of the file, all behaviours of the disk", "why_tests_cant": "tests read complete files only; the interesting cuts fall inside the last number", "anchors": ["src/input_graph.rs:to_file", "src/input_graph.rs:to_dimacs_file", "src/input_graph.rs:read_from_file", "src/input_graph.rs:read_from_dimacs"]}
{"id": "C86", "title": "Changes away from the returned path", "statement": "If edges are removed or made heavier but the path returned before is still there with its weight, the query on the newly prepared graph returns a path of the same weight.", "quantifier": "all pairs of graphs, preparations, heaps, nodes", "why_tests_cant": "the two graphs get different shortcuts; tests never compare prepared graphs of related inputs", "anchors": ["src/path_calculator.rs:calc_path", "src/fast_graph_builder.rs:run_contraction"]}
{"id": "C87", "title": "Effect of one more edge", "statement": "After one more edge from u to v of weight w was added and the graph was prepared again, the weight from s to t is the minimum of the old weight and (old weight s to u) + w + (old weight v to t), where None counts as usize::MAX.", "quantifier": "all graphs, new edges (also with new nodes as long as the old queries return), preparations, heaps, s and t", "why_tests_cant": "an exact equation between four queries on two prepared graphs", "anchors": ["src/path_calculator.rs:calc_path", "src/input_graph.rs:add_edge"]}
{"id": "C88", "title": "Potentials", "statement": "If every edge from a to b gets the weight w + pi(b) - pi(a) (where this is a usize), the weight of an answer from s to t becomes weight + pi(t) - pi(s), as long as that is below usize::MAX, and the path returned before is still a shortest one.", "quantifier": "all pairs of graphs, all potentials, preparations, heaps, nodes", "why_tests_cant": "preparation decides by weights, so the two prepared graphs are unrelated; only the answers correspond", "anchors": ["src/path_calculator.rs:calc_path", "src/fast_graph_builder.rs:run_contraction"]}
{"id": "C89", "title": "Several sources and targets as one query", "statement": "calc_path_multiple_sources_and_targets has the same weight as calc_path between two new nodes of a larger graph, joined to the sources and from the targets by edges that carry the initial weights.", "quantifier": "all graphs, source and target lists, preparations of both graphs, heaps", "why_tests_cant": "the multi query only ever runs inside one graph; the reduction compares it with the single query in another one", "anchors": ["src/path_calculator.rs:calc_path_multiple_sources_and_targets", "src/path_calculator.rs:calc_path"]}
{"id": "C90", "title": "Edges no prepared graph can do without", "statement": "If all other nodes on shortest routes from s to t are ranked lower than both s and t, every fast graph that answers all queries correctly with these ranks stores an edge from s to t with the weight of the distance. So does every prepared graph, with all parameters.", "quantifier": "all graphs, ranks, preparations, heaps, pairs of nodes", "why_tests_cant": "a statement about every prepared graph and even about every graph that answers correctly; tests look at few prepared graphs and mostly at their answers", "anchors": ["src/fast_graph_builder.rs:run_contraction", "src/node_contractor.rs:contract_node"]}
{"id": "C91", "title": "More witness search, fewer edges", "statement": "As the comments on Params and ParamsWithOrder say, a higher limit for the witness searches of the contraction never leads to more edges of the fast graph when the node order is the same.", "quantifier": "all graphs, orders, limits, heaps", "why_tests_cant": "compares two preparations of the same graph; no test does", "anchors": ["src/fast_graph_builder.rs:run_contraction_with_order", "src/fast_graph_builder.rs:Params", "src/node_contractor.rs:handle_shortcuts"]}
{"id": "C92", "title": "When the number of edges is the least possible", "statement": "If no other node lies on a route between the ends of an edge that is not longer than the edge (e.g. if all weights are equal) and the limit of the contraction exceeds the number of nodes, the prepared graph stores exactly the unavoidable edges of C90, and no graph with these ranks that answers correctly has fewer edges.", "quantifier": "all such graphs, orders, parameters, heaps", "why_tests_cant": "minimality is a statement about all graphs that answer correctly", "anchors": ["src/fast_graph_builder.rs:run_contraction", "src/fast_graph_builder.rs:run_contraction_with_order", "src/witness_search.rs:find_max_weight"]}
{"id": "C93", "title": "Failing reads", "statement": "Whatever the reads of a file do (short reads, interruptions, errors), from_file, from_dimacs_file, load_from_disk and load_from_disk32 return a graph only if it is the one in the file. Without errors they do what the contents of the file say. An error before the whole file was delivered (for saved graphs: before their last byte) is never overlooked: the text readers panic, loading returns Err.", "quantifier": "all files, all sequences of results of read, all platforms", "why_tests_cant": "the tests never make a read fail, and the operating system decides how a file is cut into reads", "anchors": ["src/input_graph.rs:read_from_file", "src/input_graph.rs:read_from_dimacs", "src/lib.rs:load_from_disk", "src/lib.rs:load_from_disk32"]}
{"id": "C94", "title": "Clients of release builds", "statement": "If node ids are below usize::MAX and weights are bounded (2^(n+2) W <= usize::MAX, or 4 (n-1) W <= usize::MAX with budgets above n), every graph that a build without overflow checks prepares is one that a build with checks can prepare for the same input, so all properties of prepared graphs hold for it, and queries return the same in both builds. Without the bound this is false.", "quantifier": "all graphs, orders, parameters, heaps, histories", "why_tests_cant": "tests run in one profile", "anchors": ["src/fast_graph_builder.rs:run_contraction", "src/path_calculator.rs:calc_path_multiple_sources_and_targets", "src/input_graph.rs:do_add_edge"]}
{"id": "C95", "title": "Work of a preparation", "statement": "The witness searches of a preparation come in sessions, one for every edge into the node under contraction, each with one search per edge out of it. In a session items are popped in ascending order, a node is pushed again only with a smaller weight, at most K nodes are settled (K is the limit), and there are at most 1 + (arcs of the settled nodes) pushes. prepare_with_order has one session per stored incoming edge, prepare at most one per edge of the graph, one per stored incoming edge and n - 1 per stored edge, so the pushes are at most 1 + K (n - 1) times these numbers.", "quantifier": "all graphs, orders, parameters, heaps, node queues, earlier uses of the witness search", "why_tests_cant": "tests measure times of a few maps", "anchors": ["src/node_contractor.rs:handle_shortcuts", "src/witness_search.rs:find_max_weight", "src/fast_graph_builder.rs:run_contraction", "src/fast_graph_builder.rs:run_contraction_with_order"]}
{"id": "C96", "title": "What the randomised tests notice", "statement": "Nothing is assumed about the fast graph and the calculator. If the comparison loop of the randomised test ends without a panic, every answer given during it has the right ends and the weight of a lightest path between the queried nodes (None or usize::MAX only if there is no path below usize::MAX), and at most num_different_paths of the answers have nodes that are not such a path; likewise for several weighted sources and targets, where the second counter is the number of None. A fast graph that returns nodes which are no path passes all queries on a small graph, counted once.", "quantifier": "all fast graphs and calculators, all graphs built by the API as reference, all lists of queries, all heaps", "why_tests_cant": "whether a test suite would notice a wrong program is a statement about all programs, and no test of the right program can say it", "anchors": ["src/lib.rs:run_test_on_random_graph", "src/lib.rs:routing_with_multiple_sources_and_targets_on_random_graph", "src/dijkstra.rs:calc_path", "src/floyd_warshall.rs:calc_weight"]}
{"id": "C97", "title": "Unique lightest paths", "statement": "If the graph has only one lightest path between two nodes, every answer to the query is that path with its weight and its nodes, whatever the preparation parameters, the node order and the heap; with several weighted sources and targets the same holds if only one pair of entries with one path gives the least sum. Two different answers to the same query show that there are two different lightest paths.", "quantifier": "all graphs built by the API, all preparations, all heaps, all queries", "why_tests_cant": "the test suite compares nodes with another algorithm and only counts the differences; it cannot tell ties from errors", "anchors": ["src/path_calculator.rs:calc_path", "src/path_calculator.rs:calc_path_multiple_sources_and_targets", "src/lib.rs:prepare", "src/lib.rs:prepare_with_order"]}
{"id": "C98", "title": "Orders that need no shortcuts", "statement": "If every edge that comes into a node from above and every edge that leads from it to above belong to one neighbour, the preparation adds nothing: the stored edges are the edges of the input, each once, none of them a shortcut, however small the budgets of the witness searches are. This is so for forests contracted from the leaves to the roots, and then a query only visits ancestors of its sources and targets, at most depth + 1 of each. With budgets larger than the graph it suffices that every way from above to above over a node is matched by an input edge that is not heavier.", "quantifier": "all inputs, orders, budgets, heaps, queues, forests and queries", "why_tests_cant": "A test counts the shortcuts of particular graphs; that no budget and no tree produces one is a statement about all of them.", "anchors": ["src/node_contractor.rs:contract_node", "src/node_contractor.rs:handle_shortcuts", "src/fast_graph_builder.rs:run_contraction_with_order"]}
{"id": "C99", "title": "Which edges matter for a query", "statement": "Two graphs give answers of the same weight for the same sources and targets if they agree, up to parallel edges, in the edges that are on walks from a source to a target, or if they agree in the edges that are not heavier than the answer. If the nodes fall into parts without edges between them, queries between parts give None and queries within a part give the weight that the part alone gives. The graphs may have different numbers of nodes and be prepared in different ways.", "quantifier": "all pairs of inputs, preparations, heaps and queries", "why_tests_cant": "Relates the answers for two graphs and two preparations, of which a test compares only a few.", "anchors": ["src/path_calculator.rs:calc_path_multiple_sources_and_targets", "src/fast_graph_builder.rs:run_contraction", "src/lib.rs:calc_path"]}
{"id": "C100", "title": "Prepared undirected graphs are stored symmetrically", "statement": "If only add_edge_bidir was used, the prepared graph has, for every node, the same out-edges as in-edges with the same weights, and get_num_out_edges equals get_num_in_edges.", "quantifier": "all undirected inputs, heaps, orders and limits", "why_tests_cant": "A test looks at a few graphs; that an edge is stored in one direction only depends on the order in which witness searches and shortcuts alternate.", "anchors": ["src/node_contractor.rs:handle_shortcuts", "src/fast_graph_builder.rs:run_contraction", "src/fast_graph.rs:get_num_out_edges", "src/fast_graph.rs:get_num_in_edges", "src/witness_search.rs:find_max_weight"]}
{"id": "C101", "title": "The two text formats", "statement": "Every file that from_dimacs_file accepts is also read by from_file: with the same edges and weights, every id one higher, and one node more (no node if there is no edge). The only exception with overflow checks are graphs with usize::MAX nodes, where from_file panics. After preparation, queries on the second graph with every id one higher give the same weights. The other way round never works: from_dimacs_file panics on every file of to_file that has an edge.", "quantifier": "all texts, heaps, kinds of preparation and queries, all word sizes", "why_tests_cant": "a comment calls the format of to_file compatible to DIMACS files; the tests never read a file with the other reader", "anchors": ["src/input_graph.rs:to_file", "src/input_graph.rs:read_from_file", "src/input_graph.rs:read_from_dimacs", "src/input_graph.rs:read_arc_line"]}
{"id": "C102", "title": "Single precision arithmetic follows IEEE 754", "statement": "The arithmetic of priorities is that of IEEE 754 binary32 with rounding to nearest, ties to even: conversion from integers, multiplication, addition, division and the literal 0.1 give the exact result rounded, the cast to usize cuts off and saturates, comparison and the rules for NaN and infinities are the usual ones. The priority of a node is the formula evaluated operation by operation in this way.", "quantifier": "all numbers, all levels and counts", "why_tests_cant": "tests check a few values; ties, overflow and NaN do not occur in them", "anchors": ["src/node_contractor.rs:calc_relevance", "src/fast_graph_builder.rs:Params"]}
{"id": "C103", "title": "What the log says", "statement": "Logging changes no result. Every call of add_edge or add_edge_bidir that adds nothing because of a loop or a weight of zero is reported once, in the order of the calls, with its arguments, and no other call is. freeze reports how many edges it dropped, and nothing if there are none, so that stored edges and reported edges together are the accepted edges; for a graph frozen once the number is that of the accepted edges minus the connected pairs. A preparation gives one message per node, numbered 1 to n, with the numbers of out- and in-edges stored so far, also up to the point where a preparation panics.", "quantifier": "all sequences of calls, all graphs, parameters and orders", "why_tests_cant": "tests do not read the log; a warning left out or a wrong count there goes unnoticed", "anchors": ["src/input_graph.rs:do_add_edge", "src/input_graph.rs:remove_duplicate_edges", "src/fast_graph_builder.rs:run_contraction", "src/fast_graph_builder.rs:run_contraction_with_order"]}
{"id": "C104", "title": "Shortcut weights can grow exponentially", "statement": "For every budget k of at least two settled nodes and every m of at least three there is a graph with 3m+k+2 nodes and weights of at most 8m+20 and an order of its nodes such that a preparation with that order and budget stores a shortcut of weight 2^(m-1)*(8m+20), or panics if that does not fit into a usize. With the default budget of 100 prepare_with_order panics on a 64 bit platform for a graph with 273 nodes and weights of at most 476. No power of the number of nodes times the largest weight bounds the stored weights.", "quantifier": "All budgets of at least two, all numbers of levels, all platforms with an odd largest usize, all priority queues", "why_tests_cant": "The weights grow only for particular graphs with particular orders; random tests have small graphs and random orders, and no test looks at the weights of shortcuts", "anchors": ["src/node_contractor.rs:handle_shortcuts", "src/witness_search.rs:find_max_weight", "src/fast_graph_builder.rs:run_contraction_with_order", "src/lib.rs:prepare_with_order"]}
{"id": "C105", "title": "A witness search looks no further than it must", "statement": "The first search after init settles no node farther away than the weight limit. As soon as it has settled a node with an edge to the target that keeps within the limit it stops: no settled node is farther away than that one. The target itself is never settled.", "quantifier": "All graphs, start nodes, avoided nodes, targets, limits below usize::MAX, budgets, earlier uses of the object, all priority queues", "why_tests_cant": "The results are the same if the search goes on; only the settled nodes, which count against the budget, tell the difference, and tests do not look at them", "anchors": ["src/witness_search.rs:find_max_weight", "src/witness_search.rs:init"]}
{"id": "C106", "title": "Routes across a border", "statement": "If every edge that leaves a region ends at one of the nodes B, the weight from a node inside to a node outside is the least sum (weight to b) + (weight from b) over the nodes b of B. The first part can be asked from a graph that only has the edges starting in the region; a query with the weights found as start weights to the whole graph then has the weight of the direct query.", "quantifier": "all graphs, regions, borders, nodes, preparations of both graphs, heaps", "why_tests_cant": "an equation between many queries on two prepared graphs; tests never split a graph", "anchors": ["src/path_calculator.rs:calc_path", "src/path_calculator.rs:calc_path_multiple_sources_and_targets"]}
{"id": "C107", "title": "Nodes in the middle of edges", "statement": "If an edge of weight a + b is replaced by two edges of weight a and b over a new node, no weight between other nodes changes, also with several sources and targets. From the new node the weights are those from the end of the edge plus b.", "quantifier": "all graphs, edges, weights a and b, preparations, heaps, source and target lists without the new node", "why_tests_cant": "the two graphs are prepared in different orders with different shortcuts; tests never compare prepared graphs of related inputs", "anchors": ["src/path_calculator.rs:calc_path", "src/fast_graph_builder.rs:run_contraction"]}
{"id": "C108", "title": "The randomised tests in release builds", "statement": "With small enough weights the comparisons with Dijkstra and Floyd-Warshall cannot fail in builds without overflow checks either and count the same paths. The two randomised tests of the repository fail in a release build only by the number of different or missing paths. With weights that overflow all three algorithms can agree on a wrong weight, so the comparison does not notice.", "quantifier": "all random numbers in the ranges of the tests, all heaps and queues; all client graphs within the weight bound", "why_tests_cant": "release builds wrap silently; the tests compare three implementations with the same arithmetic", "anchors": ["src/lib.rs:run_test_on_random_graph", "src/lib.rs:routing_with_multiple_sources_and_targets_on_random_graph", "src/dijkstra.rs:calc_path", "src/floyd_warshall.rs:prepare"]}
{"id": "C109", "title": "How the text readers fail", "statement": "from_file fails only by an unwrap/assert (exactly if the first unreadable line starts with `a ` and is not of the form `a <from> <to> <weight>`) or, in builds with overflow checks, by an overflow (exactly if the first unreadable line lists an arc that is neither a loop nor of weight 0 and has an end usize::MAX); it succeeds exactly if all lines can be read. from_dimacs_file fails by unwrap/assert/panic only: node ids bounded by the problem line cannot overflow.", "quantifier": "For every text and every word size, with and without overflow checks.", "why_tests_cant": "There are infinitely many texts; tests with malformed files do not show which panics can occur, and the largest node id is not tested at all.", "anchors": ["src/input_graph.rs:read_from_file", "src/input_graph.rs:read_from_dimacs", "src/input_graph.rs:read_arc_line", "src/input_graph.rs:do_add_edge"]}
{"id": "C110", "title": "Start weights", "statement": "Start weights of a query act as expected: answers change by at most as much as the start weights; a source that is reached from another source with no more than its own start weight is irrelevant; the answer for two lists of sources (or targets) together is the better of the two answers; the same amount more at every source is that amount more in the answer, and nothing is found iff that is no weight any more.", "quantifier": "all graphs, preparations, source and target lists", "why_tests_cant": "ranges over all weights, including those close to usize::MAX", "anchors": ["src/lib.rs:calc_path_multiple_sources_and_targets", "src/path_calculator.rs:calc_path_multiple_sources_and_targets"]}
{"id": "C111", "title": "Preparing with the order of another graph", "statement": "The recipe of the README: the node order of a prepared graph can be used for any other graph. With a different number of nodes the result is Err; otherwise it is a correct prepared graph with the same order, unless an overflow is reported. If only weights change the number of nodes stays the same.", "quantifier": "all pairs of graphs, all preparations of the first", "why_tests_cant": "tests use one pair of graphs", "anchors": ["src/lib.rs:prepare_with_order", "src/fast_graph.rs:get_node_ordering", "src/fast_graph_builder.rs:build_with_order"]}
{"id": "C112", "title": "The largest node id", "statement": "In builds without overflow checks an edge with the end usize::MAX is accepted and the node count wraps, but such a graph can never be prepared: every preparation function panics (or returns Err because of the order's length). So whoever has a prepared graph, of whatever build, knows that the node count did not wrap.", "quantifier": "all call sequences, all builds, all preparation functions", "why_tests_cant": "tests do not use such ids, and test builds check overflows", "anchors": ["src/input_graph.rs:do_add_edge", "src/preparation_graph.rs:add_edge_or_shortcut", "src/fast_graph_builder.rs:build_with_params"]}
{"id": "C113", "title": "Weights that are a little off", "statement": "If every edge gets at most a/b times as heavy, shortest path weights get at most a/b times as large; if every edge gets at most c heavier, the new path weighs at most c more per edge of the old one. In both cases the path is still found as long as the bound is below the maximum weight.", "quantifier": "all pairs of graphs whose edges correspond in this way, all preparations, all pairs of nodes, all a, b and c", "why_tests_cant": "tests never compare the answers of two graphs", "anchors": ["src/lib.rs:calc_path", "src/path_calculator.rs:calc_path"]}
{"id": "C114", "title": "The nearest targets", "statement": "A client who queries from a node to all of a list of targets, drops the target found and repeats gets the targets in ascending order of distance: each path is a shortest one to a target of its own, no target left over is nearer than one that was found, and if the loop ends early the targets left over cannot be reached.", "quantifier": "all graphs, preparations, sources, target lists and numbers of repetitions", "why_tests_cant": "tests make single queries with several targets and never combine their answers", "anchors": ["src/lib.rs:calc_path_multiple_sources_and_targets", "src/path_calculator.rs:calc_path_multiple_sources_and_targets"]}
{"id": "C115", "title": "A trip over stops planned stage by stage is the lightest one", "statement": "A client plans a trip that starts at one of several weighted sources and stops at one node of each of several lists, in their order: for every stage the client asks one multi-source query per possible stop, with the stops reached so far and their weights as sources, and goes on with the answers. Every stop in the final result has the weight of an actual trip, no trip to it is lighter, and every stop reached by a trip lighter than usize::MAX is in the result; a last query to a target returns the lightest trip to it, and none only if no trip is lighter than usize::MAX. With existing nodes the plan returns or panics with an arithmetic overflow, nothing else.", "quantifier": "all client-built graphs and preparations, all heaps, all weighted sources, all lists of stop lists, all targets", "why_tests_cant": "the number of trips is the product of the lengths of all lists times the number of walks between stops; tests only compare single queries", "anchors": ["src/lib.rs:calc_path_multiple_sources_and_targets", "src/path_calculator.rs:calc_path_multiple_sources_and_targets"]}
{"id": "C116", "title": "Turn restrictions and turn costs", "statement": "A client who makes every road a node and every allowed turn an edge (weight: cost of the turn plus the road entered), and asks from all roads leaving s, each with its own weight, to all roads arriving at t, gets the lightest drive from s to t that uses only allowed turns, with turn costs counted; none is returned only if every such drive weighs usize::MAX or more.", "quantifier": "all lists of roads without loops and zero weights, all turn tables, all s and t, all preparations and heaps", "why_tests_cant": "the lightest drive may use a node several times and need not be a shortest path of the road graph, so no test of the library compares with it", "anchors": ["src/lib.rs:calc_path_multiple_sources_and_targets", "src/input_graph.rs:add_edge", "src/path_calculator.rs:calc_path_multiple_sources_and_targets"]}
{"id": "C117", "title": "The second best route", "statement": "A client who leaves out the edges of one leg of the returned path at a time, prepares again and asks again finds the second best route: every answer is a simple path of the graph other than the first and no lighter, and every other simple path between the two nodes that is lighter than usize::MAX is at least as heavy as one of the answers.", "quantifier": "all client-built graphs, all nodes, all preparations of all reduced graphs, all heaps", "why_tests_cant": "the number of simple paths is exponential in the number of nodes; tests look only at the best one", "anchors": ["src/lib.rs:calc_path", "src/lib.rs:prepare", "src/path_calculator.rs:calc_path"]}
{"id": "C118", "title": "Round trips", "statement": "A client who wants to leave s and come back (calc_path from s to s is the empty path) asks from the neighbours of s, each with the weight of its edge, to s: s followed by the returned nodes is a closed walk of the reported weight that visits no node twice before it is back, no closed walk through s with at least one edge is lighter, and none means that every such walk weighs usize::MAX or more.", "quantifier": "all client-built graphs, all nodes, all preparations and heaps", "why_tests_cant": "the library has no such query, so no test looks at closed walks", "anchors": ["src/lib.rs:calc_path_multiple_sources_and_targets", "src/path_calculator.rs:calc_path_multiple_sources_and_targets"]}
{"id": "C119", "title": "One calculator per thread", "statement": "The README asks for a separate calculator per thread. Whatever the schedule in which the queries of several threads take turns, on whatever graphs they share, and whether or not some of them panic in between, every query gets the answer (or the panic) of a fresh calculator, a thread sees the same answers as if it ran alone, and on prepared graphs these are shortest paths.", "quantifier": "all numbers of threads, all schedules, all requests including invalid ones, all heaps, both builds; the last part for checked builds", "why_tests_cant": "schedules are not enumerable, and the tests are sequential", "anchors": ["src/lib.rs:create_calculator", "src/path_calculator.rs:calc_path_multiple_sources_and_targets"]}
{"id": "C120", "title": "The README's condition for 32 bits", "statement": "A graph with fewer than 2^32 nodes and edges and with weights below 2^32 can be stored with save_to_disk32 / serialize_32 (README, section on 32-bit WebAssembly), and only such graphs can.", "quantifier": "all client-built, prepared graphs", "why_tests_cant": "Tests convert graphs with small weights; whether shortcuts overflow depends on the order of contraction and the number of nodes.", "anchors": ["src/fast_graph32.rs:FastGraph32::new", "src/fast_graph32.rs:usize_to_u32", "README.md:84"]}
{"id": "C121", "title": "Two criteria in one weight", "statement": "If weights are K*a + b with K above all sums of b along simple paths, queries return a path that is best for a and, among those, best for b; weight / K and weight % K are the two sums. With b = 1 and K at least the number of nodes: a lightest path with the fewest edges.", "quantifier": "all client-built graphs, sources, targets, factors", "why_tests_cant": "Ties and the bound on the second criterion depend on the whole graph; tests compare weights only.", "anchors": ["src/path_calculator.rs:calc_path", "src/lib.rs:calc_path"]}
{"id": "C122", "title": "From the server to the device", "statement": "For fewer than 500 nodes and weights of at most W with 2*n*(n-1)*W < 2^32: preparing with the default parameters on a 64-bit platform returns, save_to_disk32 succeeds, load_from_disk32 on a platform with 32 to 64 bits succeeds, and there every query of every calculator returns the right answer, in builds with and without overflow checks. The same holds for graphs prepared by any of the four functions with a budget above the number of nodes, of at most 65535 nodes, and for queries with several sources and targets whose largest weights A and B leave room: A + B + 2*n*(n-1)*W < 2^32 - 1.", "quantifier": "all client-built graphs in these bounds, all platforms, builds, heaps, histories, nodes", "why_tests_cant": "needs two platforms and two builds; tests run on one and never load what another one has saved", "anchors": ["src/lib.rs:save_to_disk32", "src/lib.rs:load_from_disk32", "src/lib.rs:prepare", "src/path_calculator.rs:calc_path", "src/fast_graph32.rs:FastGraph32::new"]}
{"id": "C123", "title": "Routes that follow rules", "statement": "A client who makes k copies of every node, one for each state of a finite automaton reading labels of roads, and asks from the start in the initial state to the target in all final states gets the lightest route whose sequence of labels the automaton accepts; dividing the node ids by k gives the route.", "quantifier": "all labelled graphs, automata, preparations, heaps, nodes", "why_tests_cant": "the set of routes is infinite and the rules are arbitrary; tests know only plain weights", "anchors": ["src/lib.rs:calc_path_multiple_sources_and_targets", "src/input_graph.rs:add_edge", "src/path_calculator.rs:calc_path_multiple_sources_and_targets"]}
{"id": "C124", "title": "Stations within reach of each other", "statement": "A client who asks for the shortest paths between all pairs of stations, adds those of weight at most R as edges of a second graph, prepares it and asks there gets the lightest way from station to station on which no leg is longer than R, each leg being any walk of the first graph; no answer means there is no such way (below the maximum weight).", "quantifier": "all graphs, sets of stations, limits R below the maximum weight, preparations and heaps of both graphs", "why_tests_cant": "needs the exactness of all first answers and of the second graph together, for every sequence of stops", "anchors": ["src/input_graph.rs:add_edge", "src/lib.rs:calc_path", "src/path_calculator.rs:calc_path"]}
{"id": "C125", "title": "Work of unpacking a path", "statement": "For any value of type FastGraph and any calculator, a query that returns a path with m edges, made of t edges of the two search trees, calls unpack_fwd and unpack_bwd exactly 2m - t times in total, so between m and 2m times; a query without path calls neither. On prepared graphs there are at most 2(n - 1) calls. Counting changes neither answers nor panics.", "quantifier": "all graphs including corrupt ones, calculators with any history, source and target lists, heaps", "why_tests_cant": "call counts are not visible from outside; the bound must hold for every nesting of shortcuts", "anchors": ["src/path_calculator.rs:unpack_fwd", "src/path_calculator.rs:unpack_bwd", "src/path_calculator.rs:extract_nodes"]}
{"id": "C126", "title": "The height of the hierarchy bounds unpacking", "statement": "Call a list of nodes a chain if each one was a neighbor of the next when that was contracted (an edge between them is stored there). If no chain of a prepared graph has more than H edges, unpacking any stored edge needs at most H nested calls, and every returned path is made of at most 2H edges of the two search trees. Ranks decrease along chains, so H is at most n - 1 and C17 is a special case; for flat hierarchies the bound is far smaller.", "quantifier": "all prepared graphs, stored edges, queries, calculators with any history", "why_tests_cant": "depends on the longest chain over all nodes, which tests do not compute", "anchors": ["src/path_calculator.rs:unpack_fwd", "src/path_calculator.rs:unpack_bwd", "src/path_calculator.rs:extract_nodes", "src/fast_graph_builder.rs:run_contraction"]}
{"id": "C127", "title": "Heaviest routes in graphs without cycles", "statement": "The library minimises and accepts no negative weights. For a graph without cycles, with layers that increase along its edges and weights below C, a client who adds each edge from u to v with the weight C * (layer v - layer u) - w gets as nodes of the answer a heaviest route of the original graph, of weight C * (layer t - layer s) minus the reported one; no answer means that there is no route, if this number is below the maximum weight.", "quantifier": "all graphs without cycles, layers, C, preparations, heaps, nodes", "why_tests_cant": "all routes of the graph must be compared, in every preparation; tests only look for lightest paths", "anchors": ["src/input_graph.rs:add_edge", "src/lib.rs:calc_path", "src/path_calculator.rs:calc_path"]}
{"id": "C128", "title": "The levels kept during preparation are the heights of the prepared graph", "statement": "After prepare_with_params or prepare_with_order_with_params, for every node x: the level of x at the moment it was contracted (the longest chain of nodes contracted one after the other, each a neighbor of the next when it was contracted, as used in the priorities) equals the number of edges of the longest chain of stored edges down from x in the prepared graph. When the loop of run_contraction ends, its array levels holds these numbers for all nodes. Consequently the greatest level bounds the nesting of calls when stored edges are unpacked.", "quantifier": "for every sequence of construction calls, preparation, queue, parameters or order, and every node", "why_tests_cant": "It relates numbers kept while preparing (and then thrown away) to the structure of the result, for all graphs; tests look at neither.", "anchors": ["src/fast_graph_builder.rs:run_contraction", "src/fast_graph_builder.rs:run_contraction_with_order", "src/path_calculator.rs:unpack_fwd", "src/path_calculator.rs:unpack_bwd"]}
{"id": "C129", "title": "Prepared graphs inside a client's own struct", "statement": "A client's struct with any number of prepared graphs among other fields, some of them with serialize_32/deserialize_32 as in the README, is written without panic if these graphs are below the 32-bit limits. On a platform with 32 to 64 bits reading it returns for every field what was written (for serialize_32 the graph that a file of its own would give, the same graph if the platforms agree) and leaves the bytes after the struct alone; queries on the graphs are correct. If the struct was cut off anywhere, reading is an error and no panic.", "quantifier": "for every list of fields, every other field with a round-tripping encoding, all clients' graphs below the 32-bit limits, all pairs of platforms, all bytes that follow", "why_tests_cant": "The field layout is the client's; the crate's tests only store a graph on its own.", "anchors": ["src/lib.rs:serialize_32", "src/lib.rs:deserialize_32", "src/fast_graph32.rs:new", "src/fast_graph32.rs:convert_to_usize"]}
{"id": "C130", "title": "Priorities without ties determine the prepared graph", "statement": "If there is an order of the nodes in which every node has, when its turn comes, a smaller priority than all nodes after it, then prepare_with_params contracts the nodes in exactly this order, whichever queue that hands out a node of least priority is used, and returns the graph that prepare_with_order_with_params returns for the order; with any other such queue preparation returns as well, and the same graph. If the budgets of the witness searches exceed the number of nodes, neither the heap nor the budgets matter either. With ties this fails: there are an input graph, a priority formula and two such queues with different node orderings.", "quantifier": "for every sequence of construction calls, parameters, priority formula, queue and order", "why_tests_cant": "Which of several equal nodes priority_queue hands out is not documented; tests run with one version of it and cannot tell what holds for any other.", "anchors": ["src/fast_graph_builder.rs:run_contraction", "src/fast_graph_builder.rs:build_with_params", "src/fast_graph_builder.rs:build_with_order_with_params"]}
{"id": "C131", "title": "Only comparisons of priorities matter", "statement": "If two formulas for the priority of a node (from its level, its number of shortcuts and its number of edges) compare alike, prepare_with_params does the same with both: it returns the same prepared graph, also when there are ties, or panics with both. This holds for every queue that decides by comparing priorities, and the algorithm of priority_queue is one. In particular all priorities may be multiplied by a positive number (the factor 1000 in the code) and shifted.", "quantifier": "for every platform and build, heap, comparing queue, input graph, parameters and pair of formulas that compare alike", "why_tests_cant": "It is about all formulas and all states of the queue; tests run one formula.", "anchors": ["src/fast_graph_builder.rs:run_contraction", "src/node_contractor.rs:calc_relevance"]}
{"id": "C132", "title": "The calls of the queue of nodes", "statement": "During prepare_with_params every node is pushed into the queue once, in ascending order; then the nodes are popped in the order of their ranks, and after the pop of v the priority is changed exactly once for each node that an edge stored at v leads to, in ascending order. A node is never pushed twice, and when a priority is changed the node has been pushed and not been popped, so change_priority finds it. Altogether there are at most 2 n calls plus one for each edge of the prepared graph.", "quantifier": "for all frozen graphs built by a client, all parameters and formulas for the priorities, all heaps and all queues that hand out a least priority, on a platform with overflow checks", "why_tests_cant": "A test sees the prepared graph and not the calls: a change for a node that has left the queue is ignored silently, and a missing change only leads to another order.", "anchors": ["src/fast_graph_builder.rs:run_contraction"]}
{"id": "C133", "title": "Preparation does not depend on the unit of the weights", "statement": "If the edges of one graph are those of another with every weight multiplied by k, and preparation of the scaled graph returns (so no weight overflows), then preparation of the original returns as well and the two prepared graphs have the same ranks, the same edges and the same shortcuts in the same places, with k times the weights; prepare_with_order_with_params also returns the same errors. k must be positive and must not divide usize::MAX (all even numbers are fine); for k = 3 there is a graph for which a shortcut gets lost because its weight becomes the value for 'no path'.", "quantifier": "for every frozen graph and factor k, every heap that decides by comparing weights (BinaryHeap does), every queue of nodes, all parameters, formulas and orders, on a platform with overflow checks", "why_tests_cant": "It compares two runs of preparation for all graphs, including the ties in both queues and the budgets of the witness searches; tests use one unit.", "anchors": ["src/fast_graph_builder.rs:run_contraction", "src/node_contractor.rs:handle_shortcuts", "src/witness_search.rs:find_max_weight"]}
{"id": "C134", "title": "The route does not depend on the unit of the weights", "statement": "If a query returns for the prepared graph with all weights multiplied by k (and the weights of sources and targets, too), then it returns for the original graph and the answer is the same path: the same source, target and nodes, with the weight divided by k, or no path in both cases. Together with C133: the route from prepare and calc_path is the same in every unit, also when there are several shortest paths. With weights that cannot overflow (the bound of C54 for the scaled weights) everything returns in both units, in debug and release builds. k must be positive and not divide usize::MAX; for k = 3 there is a graph that has a path which the scaled graph has not.", "quantifier": "for every value of type FastGraph, all sources and targets (entries of weight WEIGHT_MAX included), every heap that decides by comparing weights (BinaryHeap does), on a platform with overflow checks", "why_tests_cant": "Which of several shortest paths is returned depends on the order of equal entries in the heap; tests compare weights in one unit.", "anchors": ["src/path_calculator.rs:calc_path_multiple_sources_and_targets", "src/path_calculator.rs:calc_path"]}
{"id": "C135", "title": "What is stored for the first nodes depends only on the beginning of the order", "statement": "If prepare_with_order_with_params returns a graph for two orders that begin with the same k nodes (same graph, same parameters), then in the two graphs the offsets 0..k of both arrays of edges are equal, the edges of the k lowest ranks stand at the same places with the same ends and weights in both directions, and if no node is repeated in an order the k nodes have the same ranks. The rest of the order can change the number of edges stored later.", "quantifier": "all graphs, all budgets, all common beginnings and all continuations", "why_tests_cant": "pairs of orders that agree on a beginning are not among the sampled orders, and a step that looked ahead or touched edges stored earlier would need such a pair to be seen", "anchors": ["src/fast_graph_builder.rs:run_contraction_with_order", "src/fast_graph_builder.rs:finish_contraction", "src/node_contractor.rs:contract_node"]}
