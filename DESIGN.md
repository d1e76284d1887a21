# Formal model of easbar/fast_paths in Lean 4 — design

## 1. What is here

| path | contents |
|------|----------|
| `properties.jsonl` | the properties, in plain words, each with the code it is about |
| `lean/Verif/Model/*.lean` | the model, one file per Rust file (plus parts of the standard library the code leans on) |
| `lean/Verif/Spec*.lean` | the vocabulary of the statements: walks, distances, accepted edges, text files, 32-bit values. Does not use the model's helper functions |
| `lean/Verif/Proofs/*.lean` | lemmas, invariants, refinement |
| `lean/Verif/Props/*.lean` | the property theorems `Cnn_…`, each followed by `example`s that meet its hypotheses |
| `MANIFEST.json` | property → theorems, status |
| `seeded/LOG.jsonl` | wrong programs tried against the theorems (section 7) |

`cd lean && lake build` checks everything.

## 2. Trusted base

* The Lean 4.33.0 kernel and the Mathlib release shipped with it.
* Axioms: every theorem depends at most on `propext`, `Classical.choice` and `Quot.sound`. No axiom is added, there is no
  `sorry`/`admit`, and neither `native_decide` nor `bv_decide` is used. `decide +kernel` and `rfl` evaluate in the kernel.
* That the definitions in `Verif/Model` say what the Rust code does. Nothing checks this mechanically: the code was read, not
  run (no dependencies in the sandbox). Every definition cites file and lines so that it can be compared. Section 4 lists
  every deliberate difference. As a check of the model (a test, not a proof), `Verif/Replay.lean` runs all unit tests of the
  repository that need neither random numbers nor map files on the model, with the original inputs and expected values. Outside of
  this directory the generator of the performance tests was reproduced, and a shortest path program written from `Verif/Spec.lean`
  gave the checksum and the number of missing paths that lib.rs expects for the map `graph_23rd.gr`. The model itself, compiled and run on
  this map (2346 nodes, 5170 edges), stored 11478 outgoing and 11236 incoming edges, the numbers lib.rs:448 reports for the Rust code, which is evidence that the
  priorities, the order of equal ones and the witness searches are modelled as they are. It answered the 100000 queries of this test with the
  checksum 19438403873 and 20421 missing paths, as lib.rs:453-454 expects (again a test, not a proof).
* That `Verif/Spec*.lean` says what is meant: about 250 lines, to be read together with the theorem statements.

## 3. How Rust is represented

* **Panics are values.** A function that can panic returns `M α = Except Panic α` with the kinds `overflow`, `capacity` (a `Vec`
  that cannot grow), `index`, `assertion` (`assert!`, `panic!`, `unwrap`), `debugAssertion`, and `outOfFuel`.
* **Loops and recursion** without structural bound take fuel; running out is the error `outOfFuel`, which is not a Rust
  behaviour. It is proved unreachable for every client, which is the termination statement (C17, C18; C30 shows the one
  function of the crate that does not terminate). The fuel of a query is large enough for any graph, also for one that no preparation
  returned: where it runs out, no amount of fuel is enough (C77).
* **Platform.** `Plat` holds `usize::MAX` (any value; `debug64`, `release64`, `debug32` are instances) and whether overflow checks
  and debug assertions are on; Cargo's profiles switch both together. `INVALID_NODE = INVALID_EDGE = WEIGHT_MAX = usize::MAX` as
  in the code, so the sentinel collisions are in the model. `addW` panics or wraps accordingly.
* **Both build profiles.** Theorems about results are first proved for builds with checks, for every word size. A release
  build behaves identically whenever the debug build does not overflow (C32, proved by a relational argument through all
  functions); C33 and C54 give explicit bounds under which it does not.
* `&mut self` becomes a returned value. `Vec<T>` is `List T`. Reading `v[i]` is `idx`, writing `setIdx`, both with bounds checks.
* **External code is a parameter with laws**, so theorems hold for every implementation:
  * `std::collections::BinaryHeap<HeapItem>`: any `PQ` — pop returns an item no other item exceeds in `HeapItem::cmp`; ties are
    arbitrary. `Model/BinaryHeap` is the array heap of the standard library, proved to be a `PQ` (C48). C133 and C134 compare two
    runs of the same heap and ask that it decides by comparing weights (`ComparingHeap`); the array heap does.
  * `priority_queue::PriorityQueue`: any `NodeQueue` — a finite map from nodes to priorities, pop removes some key. Even minimality
    is not used, except in C66, C69, one theorem of C128, C130 and C132 (`Ordered`). `Model/ListQueue` is an instance, and so is
    `Model/PriorityQueue`, the array heap of the crate `priority-queue` 2.0.2, proved to take the least (C79). It was written from the published algorithm: the
    crate's source was not available.
  * the `f32` relevance formula: an arbitrary function of level, shortcuts and edges. All correctness properties hold whatever
    it returns. The formula itself is `relevanceF32` (`Model/Float32`, C65); `prepare` with default parameters is
    `prepare P pq nq (defaultRelevance P)`.
  * the file system when writing: an arbitrary `Env` that may fail or take part of the bytes at any write (C41).
* `sort_unstable_by` is insertion sort; `sorted_perm_unique` shows that any sorting algorithm gives the same list (C20).

## 4. What is modelled, what is not

Modelled function by function: `constants.rs`, `heap_item.rs`, `valid_flags.rs` (with the `u32` wrap), `input_graph.rs` (graph, both text
formats, buffered writing), `preparation_graph.rs`, `witness_search.rs`, `node_contractor.rs`, `fast_graph.rs`, `fast_graph_builder.rs`,
`path_calculator.rs`, `shortest_path.rs`, `fast_graph32.rs`, the public functions of `lib.rs`, and the test oracles `dijkstra.rs` and
`floyd_warshall.rs`; of the standard library `BinaryHeap`, `BufRead::lines`, `split_whitespace`, `usize::from_str`, `BufWriter`; of the
dependencies the binary format of `bincode` 1.3 as far as the graphs use it (`Model/Bincode`).

Differences and gaps:

* The messages logged by `add_edge`, `freeze` and the two preparations are in separate copies of these functions
  (`Model/Log`, C103 proves that both give the same results); other functions log nothing. Timing is left out. Of the `Debug` output only that of `InputGraph` is modelled (`Model/Output`, C68).
* Of the `#[cfg(test)]` code the two oracles, the random graphs, the randomised tests and the loop of the performance tests are modelled
  (`Model/TestSuite`); the random numbers are arguments, so C80 holds for all of them. The remaining tests are in `Verif/Replay.lean` or
  (reading and preparing the maps) left out.
* Weights and ids passed by a client are natural numbers; a Rust client can only pass `usize` values. Theorems that need it
  say so (`C05`: weights at most `usize::MAX`).
* `Vec` growth fails in the model only when the length reaches `usize::MAX` (Rust: earlier, at `isize::MAX` bytes, or when memory
  runs out). Capacity panics are allowed outcomes in C15/C18, so an earlier failure adds no new behaviour. The edge list of
  `InputGraph` and the heaps never fail to grow in the model. Memory exhaustion is not modelled.
* `M` forgets the state when a call panics. `Model/Unwind` is a second model of the `&mut self` calls (queries, changes of an input
  graph) that keeps every write made before the panic; C67 shows that both give the same results and that the state is usable.
* Text files are lists of characters in `Model/TextIO` and `Model/Writer`; `Model/TextBytes` adds opening a file, UTF-8 and the file that was
  there before a save (C73, C74). `Model/DiskReader` adds reads that are short, interrupted or fail (C93). Interrupted writes are repeated at once by the
  standard library and leave no trace, so they do not appear in the model.
* Binary files: the format is bincode's documented one (fixed-width little-endian numbers, eight bytes for `usize` and for
  lengths, one byte for `bool`, fields in order of declaration); the library's code was not available. Input graphs have this form as well
  (C81). `Model/Embed` adds graphs among the fields of a client's struct (C129), `Model/DiskWriter` disks that fail while saving (C75), `Model/DiskReader` while loading (C93); memory exhaustion when loading is
  not modelled.
* `f32` is IEEE 754 binary32 with rounding to nearest even, the two zeros identified, NaN without payload. C102
  proves the operations against a definition of rounding (`SpecFloat`: the nearest number with 24 binary digits, ties to the even one). As a test, not a proof,
  the operations were compared with the hardware's on 60000 random inputs.
* Arguments of the messages of failed assertions are not evaluated in the model. Some in the text readers add one to a line or edge
  count; this could overflow only after `usize::MAX` lines, and then only replace one panic by another.
* Concurrency: none in the crate. A client may use one calculator per thread; a schedule is modelled as a sequence of whole queries (C119), which
  is enough because a query writes only to its own calculator and the graph is read-only (`&mut self`, `&FastGraph`; guaranteed by Rust's borrow checker).
* `edges.len() + 1` style index arithmetic on lengths is done in `Nat`; lengths are below `usize::MAX` by the capacity check.

## 5. Layers of proof

1. Program logic for `M` (`Proofs/Logic`): `Tri m Q` — returns a value satisfying `Q` or panics with overflow/capacity, nothing else;
   `Saf`/`NoRes` (`Proofs/Safe`) — no overflow or capacity panic. Together they give total correctness. `RelM` relates two runs
   (history independence, `Proofs/Rel`, `Proofs/Reuse`); `Ref` relates debug and release builds (`Proofs/Refine`, `Proofs/RefineTests`).
2. `ValidFlags` with a data array refines a partial map that can be cleared (`Proofs/ValidFlags`, `Proofs/Table`).
3. Preparation graph: in- and out-lists mirror each other, one arc per pair, no loops (`WF`); kept by every operation
   (`Proofs/PrepGraph`). The witness search returns the weight of a walk that avoids the contracted node (`Proofs/WitnessSearch`).
   Contracting a node preserves distances between the remaining nodes (`Proofs/Contractor`, `Contracts`).
4. A sequence of contractions is a `Chain`, parametrised by what is known about each step (nothing, or that every new shortcut is
   needed, `Proofs/Simple`); every walk has an up-down walk of no larger weight (`Proofs/Hierarchy`).
5. Builder: the arrays hold exactly the recorded arcs (`Proofs/Csr`, `Recorded`), replaced edges are resolved (`Finish`); the result is
   an `FGood` graph (`Proofs/FastGraph`, `Assemble`).
6. Query on any `FGood` graph: the two-sided search with stall-on-demand and pruning returns a minimum, and unpacking gives
   a path of the input graph (`SearchGraph`, `Search`, `MainLoop`, `Extract`). The backward half is the forward half on the flipped graph.
7. Clients (`Model/History`, `Proofs/Api`): arbitrary sequences of `add_edge`/`add_edge_bidir`/`freeze`/`thaw`, any of the four
   preparations, arbitrary earlier queries on the same calculator.
8. Priorities: rounding is monotone (`Proofs/Float32`) and accurate (`Proofs/Accuracy`); the counter of `calc_relevance` counts the
   needed pairs (`Proofs/Priority`).
9. Order: a trace of the popped nodes (`Pops`, `Proofs/Reorder`) with the invariant that every queued priority is the formula applied to
   level, last count and current degree (`OInv`, `Proofs/Order`); the witness search may be replaced by a fresh one in every step
   (`freshStep`), so the graph left after a list of contractions is a function of that list (`remaining`).
10. Panics: `U` computations keep their state (`Proofs/Unwind`); `U.out` forgets it and gives the run in `M`, `U.Keeps` is an invariant
   that also holds after a panic.
11. Search space: a stronger invariant of the label tables (`LInv`, `Proofs/SearchSpace`). Weights of settled nodes never change, a label
   is a settled parent's weight plus an edge, and a labelled node that is neither settled nor queued is beaten by a higher node or above
   the best weight found.
12. Work of a query: the heap is a parameter of the model, so a heap that writes down its operations (`Spec.logged`) can be put in place
   of any other one. A run with logs is the run without them (`unlog_calcPathMulti`, `Proofs/SearchLog`), and the logs have invariants
   of their own (`WLog`, `ILog`).
13. Files: the decoder accepts exactly the encodings of texts (`decode_eq_some`), and a line end is one byte that occurs in no other
   character, so cutting bytes and cutting characters into lines agree (`Proofs/TextBytes`).
14. Input graphs that no API call produced (`Proofs/Shape`): `Lax` is what any loaded graph has (lengths, ids in range), `Bad u v` is a loop at
   `u` or a pair of parallel arcs from `u` to `v`; both survive every contraction of another node, and contracting `u` or `v` panics.
   `FrozenOk` is what the preparation needs of an input graph; it does not include sortedness or positive weights.
15. Fast graphs that no preparation returned (`Proofs/Foreign`): an invariant of the search that assumes nothing about the graph (a list of
   settled nodes in which parents come first) gives termination; if the recursion of unpacking ends at all, its depth is at most the
   number of edges (a repeated edge on the call stack repeats forever). `FSound` is the part of `FGood` that says what stored edges
   stand for; the soundness half of the query proof uses nothing else. `Covering` is completeness in local form; the equivalence is a contraction
   argument on stored edges, by rank (`Proofs/Covering`).
16. The tests: one step of a test keeps the invariants of calculator and oracle and cannot fail an assertion (`Proofs/TestSuite`), because
   both answers are the minimum; the oracles do not overflow under explicit bounds (`Proofs/SafeOracles`).

17. Generous budgets: the search started at a neighbor of the contracted node never looks at its start again once it is settled, so it works
   on the graph as it was before the shortcuts of that neighbor (`findMaxWeight_exact`). The contraction is therefore a function of the
   graph (`exactContract`, `Proofs/Budget`), whatever the heap.
18. Number of edges: without witness search every pair of neighbors is connected, so a graph prepared with any limit stays below this one, edge
   by edge (`Under`, `Proofs/ZeroBudget`). `Unavoidable` edges are stored by every correct graph because an up-down walk of minimal weight
   cannot contain another node; conversely a graph in which every arc is the only shortest route stays so under exact contraction (`Irr`,
   `Proofs/Minimal`).
19. Failing reads (`Proofs/DiskReader`): `readUntil` cuts the same lines whatever the pieces in which the file arrives; the decoders on an open
   file simulate those on bytes (`Sim`).
20. Work of a preparation (`Proofs/WitnessLog`, `Proofs/Sessions`): as in 12 with a heap that writes down its operations. The calls of the
   witness search are listed as sessions; running the list again gives the same state of the witness search, so nothing is missing from it.
21. Orders without shortcuts (`Proofs/Elimination`): as long as no step adds an arc, the graph between the nodes that are left is the part of
   the input between them (`Induced`), so a condition on the input and the ranks is enough to show that the next step adds none either.
22. Log (`Proofs/Log`): `Says c r l` — run on any log, `c` gives `r` and appends `l`. The messages of a preparation are read off the
   offsets of the arrays when they are complete, so they count the stored edges by rank.
23. Heavy shortcuts (`Proofs/Near`, `Proofs/Heavy`, `Proofs/HeavyRun`): `Near` counts the nodes closer to the start than the target;
    a search whose budget is smaller than that count answers with the weight of the best edge seen, otherwise with the distance.
    With that the edges after every single contraction of the family in `SpecHeavy` are computed (`Stage`: the function `weight` with
    its parameters says which levels are gone), by induction on the contractions.
24. Debug assertions (`Proofs/Halves`): a stored edge without a first half has no second half (`HalvesOk`). This holds whatever the input graph
    value and the order, and it is all that the assertions of `finish_contraction` need; no other step fails a debug assertion (`QErr`, `DTri`).
25. Two preparations in lockstep: the states agree except for the queues, which hold the same nodes with equal priorities (`QSim`,
    `Proofs/QueueSim`) or with priorities that compare alike at the same places of the array (`ItemsRel`, `Proofs/Comparisons`).
    `SameQueues` (`Proofs/Lockstep`) is the common form; a queue that writes down its calls is another instance (C132).
26. Two runs in different units (`Proofs/Scaled…`): `Back R m m'` — if `m'` returns then `m` returns, with results related by `R`. The
    direction matters, as the run with the larger weights can overflow where the other does not. Weights are related if one is `k`
    times the other or both are `usize::MAX`; a factor that does not divide `usize::MAX` keeps the two cases apart (`Factor`).

## 6. Where code and properties disagree

Properties that are false for the code as it is. Each has a theorem with a concrete counterexample and `_partial` theorems
that say what does hold.

* **C25** `from_dimacs_file` drops nodes without arcs at the end: the declared node count is only used to check ids.
  The count is honoured exactly when it is 0 or the last node occurs in an accepted arc (`C25_exactly_partial`).
* **C26** a DIMACS file without problem line and without arcs is accepted as the empty graph. Also, the doc comment describes
  `p <n> <m>` while the reader demands `p sp <n> <m>`.
* **C27, C29** a weight, id or offset equal to `u32::MAX` survives conversion to 32 bits but comes back as `usize::MAX`.
  After such a round trip a release build can report the weight 4 instead of 4294967300 and a debug build can panic in a query that
  used to work (`C29_false_release`, `C29_false_panic`). The round trip is the identity exactly when the number does not occur
  (`C27_round_trip_exactly_partial`; for clients: when no stored weight has this value, `C29_exactly_partial`).
* **C120** the README's condition for the 32-bit form (fewer than `2^32` nodes and edges, weights below `2^32`) is not sufficient
  when read for the input graph: shortcuts may be heavier than every edge. Whether a graph fits even depends on the order of
  contraction (`C120_depends_on_order`); `(n - 1) * W < 2^32 - 1` suffices with a budget above `n`.
* **C30** on platforms where `usize` has 32 bits `usize_to_u32` calls itself forever on `usize::MAX`; the value occurs in every
  prepared graph with an edge.
* **C31** `prepare_with_order` accepts some orders that are not permutations and returns a graph with wrong answers: only
  the length is checked, and ids against the node count. The answer can even be a path with another start
  (`C31_false_wrong_source`). If the order repeats `d` and leaves out `m`, no query from `m` to `d` is answered with a path from `m`
  (`C31_repeated_and_missing_partial`). So on graphs whose nodes all reach each other the answers are right exactly if the order is a
  permutation (`C31_right_iff_permutation_partial`); on other graphs a repetition can be harmless (last example of `Props/AnyOrder`).
* **C41** `to_file`/`to_dimacs_file` return `Ok` although the last buffered bytes could not be written: the `BufWriter` is dropped,
  not flushed. For texts below 8192 bytes `Ok` is returned whatever the disk does (`C41_small_always_ok`).
* **C91** a higher limit for witness searches can lead to more edges, against the comments on `Params` and `ParamsWithOrder`: with limit 2 a
  superfluous shortcut is added early that makes two later ones unnecessary (`C91_false`: six nodes, 8 edges with limit 2, 9 with limit 100).
  The limit 0 does give the most edges of all limits (`C91_no_search_most_edges_partial`), and limits above the node count give the fewest if
  no edge has a detour of at most its weight (C92).
* **C100** the prepared form of an undirected graph need not be symmetric. While a node is contracted, the search from one neighbour sees the
  shortcuts that were added for the neighbours before, but not those added for itself after it passed the start (`C100_false`: a triangle
  with a tail, 5 out-edges and 6 in-edges). It is symmetric without searches, and, with limits above the node count, if no edge has a
  detour that is not longer (`C100_no_search_partial`, `C100_no_detours_partial`). Answers are right in any case.
* **C74** a save that fails loses the old file: `File::create` comes before the check that the graph is frozen and before all writes.

Further observations, proved or shown by examples:

* Paths of weight `usize::MAX` or more are reported as not existing (C02 states the exact condition). A single edge of weight
  `usize::MAX` can be added but never be used.
* A query can overflow although every distance is small: initial weights are added for every pair of equal nodes, shortcut
  weights are added before comparing (C16 and its example). In release builds the sum wraps and the answer is wrong
  (`Props/Build`, last example: weight 0).
* `num_shortcuts` (node_contractor.rs:46) has no type annotation and is therefore an `i32`: preparing panics in checked builds at a
  node with more than `i32::MAX` shortcuts, e.g. a star with 46341 in- and 46341 out-edges (C62). Release builds wrap; only the
  order changes. Preparing with a given order is not affected.
* The comment on `edge_quotient_factor` says only its relation to `hierarchy_depth_factor` plays a role. Because of the constant 1.0 in
  the formula this is not so (`C65_only_the_relation_matters_false`).
* Which of several nodes with the same priority is contracted first is up to `priority_queue`, and the prepared graph depends on it
  (`C130_ties_decided_by_queue`: three nodes). Without ties it does not.
* Priorities are outdated in general: the number of shortcuts is only recomputed for neighbors of the contracted node, although a
  contraction can also remove witness paths elsewhere (C69 states which number is used).
* Without overflow checks `add_edge` with the id `usize::MAX` wraps the node count to 0 (C22); preparing the graph
  panics then (C112).
* A shortcut can weigh more than any simple path when witness searches are limited (`C33_linear_bound_false`: nine nodes,
  weights at most 100, a shortcut of weight 1000 while simple paths weigh at most 800). The proved bound is exponential in the
  number of nodes. Shortcuts can really grow like that: `Props/Simple` has a graph with 26 nodes, all edges of which together
  weigh less than half of `usize::MAX`, that cannot be prepared with budget 2 in a checked build; a release build prepares it and
  then reports weight 1 where the distance is 10. With a budget above the number of nodes all of this is impossible (C64).
  With light edges it happens too: the graphs of `SpecHeavy` have `n = 3 * m + k + 2` nodes and weights of at most `8 * m + 20`, and
  with budget `k` and their order a shortcut of weight `2 ^ (m - 1) * (8 * m + 20)` is stored (C104). `prepare_with_order` with its
  budget of 100 panics in a checked 64 bit build for such a graph with 273 nodes and weights of at most 476, although every shortest
  path is light. No power of `n * W` bounds the stored weights. As an experiment, not as a theorem, the model was also run without
  overflow checks on smaller words: with 16 bits, `m = 17` and `k = 2` the query from `s` to `t` reports weight 0 and a walk that
  goes through the levels again and again, its length exponential in `m`.
* The documentation of `find_max_weight` names as first reason to stop that the target has been settled. No search ever settles its
  target (C105): it is reached by an edge within the limit before, and that is the third reason.
* The randomised tests compare three implementations that add with the same arithmetic. In a release build all three can agree on a
  sum that went round (`C108_wrapped`: two edges of weight `2 ^ 63`, everyone answers 0). In debug builds this is a panic.
* The witness search for one start node is continued from target to target while shortcuts are being added at that node.
  These new arcs are not seen once the start node is settled; the only effect is a superfluous shortcut (`Props/Witness`).
* Which shortcuts are stored can depend on the order in which the heap returns items of equal weight (`C82_small_budget_false`: budget 2,
  the standard library does not specify this order). With budgets above the number of nodes it cannot (C82).
* A file written by `save_to_disk` on a 32-bit platform is accepted on a 64-bit platform, but queries on the graph panic: the
  mark `u32::MAX` is not recognised there (`C59_larger_platform_panics`). `save_to_disk32` does not help, it does not return on
  32-bit platforms (C30). So there is no way from 32 to 64 bits.
* `unpack_fwd`/`unpack_bwd` are recursive. On a line whose inner nodes are contracted one after the other a query needs as many nested
  calls as there are edges (C84), e.g. a million for a million nodes, which exceeds the usual stack of a thread. The model has no stack
  limit. Orders found by `prepare` are meant to be flatter (`hierarchy_depth_factor`).
* Text files that were cut off can be read without complaint (C85): `from_file` returns the first edges, and in both formats the last
  weight may have lost digits (`a 1 2 64` read as `a 1 2 6`). Together with C41 a disk that gets full can lead from `Ok(())` of `to_file`
  to a different graph in `from_file`. Everywhere else `from_dimacs_file` notices because of the number of arcs in its first line, except
  for an empty file.
* Deserialised input graphs are not validated. Loops, parallel edges and ids out of range do lead to a panic in the preparation, though
  in the middle of it; zero weights and unsorted edges are accepted and the distances are right (C76). With zero weights a returned
  path can visit a node twice (`C76_simple_path_false`).
* Deserialised fast graphs are not validated either. A shortcut that replaces itself makes a query recurse without end (stack overflow,
  `C77_cyclic_overflows`); nothing else can. If shortcuts are missing, the reported weight can be larger than the weight of the
  returned nodes (`C77_weight_inexact`).
* `FloydWarshall::prepare` on an object that was used before keeps stale entries; `calc_weight` with a target beyond the node
  count reads another row (`Props/Oracles`). Both are unreachable from the test-suite.
* `InputGraph::random` (tests only) does not return for one node or when no edge is wanted (C80). The test with several sources and targets
  would report a failure for a route of weight exactly `usize::MAX` (`C80_maximal_route_fails`); its random numbers cannot produce one.
* The randomised tests compare weights and ends exactly, but nodes only by counting differences from Dijkstra's. A program that returns
  nodes which are no path can pass as long as it does so in at most a tenth of the queries (`C96_wrong_nodes_pass`).

## 7. Wrong programs

`seeded/LOG.jsonl` records edits of the model, one per line, each made in a copy outside the repository and rebuilt: the definition, the
edit, the claim it breaks and where the build failed (`failed_where`, this is what was observed). How to read the rest:

* `theorems_failed` is computed, not observed: the property theorems whose proofs use one of the lemmas in `failed_where`. A build stops
  at the modules it cannot pass, so the theorems behind them were not tried one by one.
* A failed build shows that a proof noticed the edit, not that the claim became false. Proofs follow the code closely and also fail for
  harmless edits; those have a claim that starts with "none".
* Entries with the note "generated edit" are small edits made by a script (an operator, a constant, a field). Nobody formulated a claim
  for those that were noticed; their `claim` only lists properties that depend on the lemma that failed. They were made in a copy of an earlier state,
  without the newest property theorems.
* `"build": "succeeded"` marks edits that were not noticed at first. If a claim is false for the edited model, `theorems_tightened` names
  the theorems that notice it now, whether they were written for this purpose or were added in the meantime.

## 8. Property by property

What each theorem is about and how it is proved. The files are in `lean/Verif/Props`; the layers are those of section 5.

| property | files | what is modelled | how it is proved |
|---|---|---|---|
| C01 | Query | whole pipeline `add_edge … freeze`, any preparation, `calc_path` | `query_answer`: layers 3–6 composed; minimum over all walks of the accepted edges |
| C02 | Query | as C01 | `query_answer`; weights of `usize::MAX` and more count as unreachable, which the statement says |
| C03 | Query | as C01, unpacking | layer 6: unpacking follows realised edges (induction on the recursion) |
| C04 | Query | as C01 | a lightest walk with positive weights repeats no node |
| C05 | Bounds | as C01 | both searches start with label 0 at the same node and stop; stored weights fit, so nothing overflows; also in release builds (C32) |
| C06 | Query | `calc_path_multiple_sources_and_targets` | `query_answer` for lists of entries; C01 is the case of one entry |
| C07 | Query | as C06 | start and target entry are recorded with the meeting node (invariant of the label tables) |
| C08 | Query | as C06 | `query_answer`, empty case |
| C09 | Query | calculator with any history of requests | relational logic `RelM`: tables of a used calculator show the same map as fresh ones |
| C10 | Preparation | `prepare_with_order` | `Chain` over the given order; `Tri` excludes all panics but overflow and capacity |
| C11 | Preparation | `prepare_with_order` | case analysis on the length check, no other `Err` is constructed |
| C12 | Query | all four preparations, any heap and queue | both answers are the minimum of the same set |
| C13 | Preparation | `get_node_ordering`, ranks | invariant of the contraction loop: every node gets the next rank once |
| C14 | Preparation | both loops | relational: the recorded order replayed makes the same steps |
| C15 | Preparation, Pieces | both preparations | `Tri` through all functions |
| C16 | Query | argument checks and query | `checkArgs` for invalid arguments, `Tri` for valid ones |
| C17 | Query | main loop, unpacking | settled nodes grow (measure), recursion goes to lower ranks; `outOfFuel` unreachable |
| C18 | Preparation | contraction loops | the queue shrinks by one in every round; `outOfFuel` unreachable |
| C19 | Input | `freeze` | sorting and removal of duplicates, induction on the list |
| C20 | Input | `add_edge`, `freeze` | a strictly sorted list is determined by its members |
| C21 | Input | frozen flag | state machine over histories |
| C22 | Input | `add_edge` | induction over histories |
| C23 | Text | `to_file`, `from_file` on characters | reading inverts printing, line by line; numbers by induction on digits |
| C24 | Text | the same for DIMACS | as C23 with the problem line |
| C25 | Text | `from_dimacs_file` | false: witness; what holds is proved as `_partial` |
| C26 | Text, Pieces | both readers | grammar in `SpecText`, reader against grammar in both directions; false for DIMACS: witness |
| C27 | Convert | `fast_graph32.rs` | false for graphs holding `u32::MAX`: witness; exact condition as `_partial` |
| C28 | Convert | `FastGraph32::new` | induction over the edges, exact condition |
| C29 | Convert | conversion, then a query | false: witness; exact condition as `_partial` |
| C30 | Convert | conversion loops | false: the loop has no end on 32 bits; ends on 64 bits |
| C31 | AnyOrder, Preparation | `prepare_with_order` with arbitrary lists | false: witness; exactly which lists give right graphs as `_partial` |
| C32 | Build | all functions, both profiles | refinement `Ref`: the release run equals the debug run unless that overflows; `Halves` for the debug assertions |
| C33 | Bounds | preparations and queries | `Saf`: labels and shortcuts bounded by explicit sums |
| C34 | Structures | `valid_flags.rs` | refinement of a set that can be cleared, with the wrap of the `u32` counter |
| C35 | Preparation | offset arrays | layer 5 (`Csr`) |
| C36 | Preparation | stored edges | `FSound`: every stored edge is a walk of its weight |
| C37 | Query | as C01 | walks reversed, then C01 twice |
| C38 | Query | as C01 | walks appended, then C01 |
| C39 | Query | as C01 for two graphs | walks of the smaller graph are walks of the larger |
| C40 | Query | as C03 | exchange argument on sub-walks |
| C41 | Writing | `BufWriter` on a disk that may fail | false: witness (error of the last flush is lost); prefixes and good disks as `_partial` |
| C42 | Query | as C06 | only the least entry of each node counts in the minimum |
| C43 | Query | as C06 | minimum over pairs of entries |
| C44 | Oracles | `dijkstra.rs`, `floyd_warshall.rs` | loop invariants (settled set; intermediate nodes below k) |
| C45 | Witness | `witness_search.rs` | invariant of labels: walks that avoid the node; any earlier searches from the same start |
| C46 | Query | as C01 for two graphs | walks reversed |
| C47 | Query | as C01 for two graphs | weights of walks scale |
| C48 | Structures | `BinaryHeap` of std | sift invariants of the array heap |
| C49 | Convert | 32-bit form on another platform | conversion keeps all fields, then C01 |
| C50 | Witness | `PreparationGraph::from_input_graph` | induction over the edges |
| C51 | Witness | `contract_node` | layer 3: every route over the node has a shortcut or a witness |
| C52 | Witness | `calc_relevance` | the graph is only read |
| C53 | Witness | `add_or_reduce_edge`, `disconnect` | list lemmas, both directions mirrored |
| C54 | EndToEnd | everything | C33 with C01–C08 |
| C55 | EndToEnd | `create_calculator` | definitions unfolded, C09 |
| C56 | EndToEnd | `ShortestPath` | `==` compares weight and ends as the code does; with C01 |
| C57 | Witness | settled counter | loop invariant |
| C58 | Witness | `handle_shortcuts` | search without the limit is exact, so a shortcut beats every other walk |
| C59 | Disk | bincode format | decoder inverts encoder and accepts nothing else |
| C60 | Disk | 32-bit form in a file | C59 with C28 and C49 |
| C61 | Disk | `convert_to_usize` | induction over the edges, exact values |
| C62 | Hub | `i32` counter of `calc_relevance` | family of stars, induction on the number of neighbours |
| C63 | Sizes | stored edges | one arc per pair (`WF`), counted over ranks |
| C64 | Simple | preparation with large limits | `Chain` whose steps add only needed shortcuts |
| C65 | Relevance | `f32` formula | monotone rounding, error bounds |
| C66 | Relevance | counting in `calc_relevance`, first pop | counter equals the number of needed pairs |
| C67 | Unwind | calls that keep their state when they panic | `U` computations, invariant after panics |
| C68 | Output | `Debug` of `InputGraph` | printing is injective and is read back as calls |
| C69 | Order, Pieces | contraction loop with the queue | trace of pops with the invariant of the queued priorities |
| C70 | Order | recorded arcs | function of the list of contractions (`remaining`) |
| C71 | SearchSpace | query tables | `LInv` |
| C72 | Work | query with a logging heap | layer 12 |
| C73 | Bytes | files as bytes | UTF-8 decoder, cutting into lines commutes with decoding |
| C74 | Bytes | file on disk before and after | false: witness; the cases in which it holds |
| C75 | Saving | disk that may fail while saving | all writes are checked, induction on the writes |
| C76 | Values | input graphs not built by the API | `Lax`, `Bad`, `FrozenOk` |
| C77 | Foreign | fast graphs not built by the API | layer 15 |
| C78 | Foreign | as C77 | `Covering`, contraction argument by rank |
| C79 | Structures | crate `priority-queue` | heap and index arrays are inverse, sift invariants |
| C80 | TestSuite | randomised tests, all random numbers | one step keeps the invariants and cannot fail |
| C81 | InputBytes | bincode form of `InputGraph` | as C59 |
| C82 | Budget | preparation with large limits | layer 17 |
| C83 | Rename | two graphs with renamed nodes | walks renamed |
| C84 | Depth | recursion of unpacking | family of lines where the depth is reached |
| C85 | Truncate | prefixes of files | readers on prefixes of lines |
| C86 | Changes | two graphs | walks compared, C01 |
| C87 | Changes | two graphs | walks are cut where they use the new edge |
| C88 | Changes | two graphs | sums of potentials telescope |
| C89 | Changes | two extra nodes | walks over the extra nodes are routes |
| C90 | Minimal | any correct graph | layer 18 |
| C91 | Minimal | preparations with two limits | false: witness; limit 0 as `_partial` (`Under`) |
| C92 | Minimal | as C90 | `Irr` |
| C93 | Reading | reads that are short or fail | simulation `Sim` |
| C94 | Release | release builds | `Ref` with C33 |
| C95 | PrepWork | preparation with a logging heap | layer 20 |
| C96 | TestPower | randomised tests with any program in place of the library | a passed test implies agreement on the drawn pairs |
| C97 | Determined | as C01 | a unique minimum leaves one answer |
| C98 | Elimination | orders | layer 21 |
| C99 | Locality | two graphs | only edges on light routes occur in a minimum |
| C100 | Symmetric | undirected graphs | false: witness; without search or without detours as `_partial` |
| C101 | Compatible | both readers | a DIMACS line read by the other reader |
| C102 | Ieee | `f32` operations | against `SpecFloat` |
| C103 | Log | copies of the functions with messages | layer 22 |
| C104 | Heavy | family of graphs | layer 23 |
| C105 | Stop | witness search | invariant of settled labels |
| C106 | Border | two parts and border nodes | a walk is cut at its first or last border node |
| C107 | Subdivide | two graphs | walks translated in both directions |
| C108 | ReleaseTests | randomised tests in release builds | `Ref` for the tests and the oracles |
| C109 | ReadErrors | both readers | exact condition for each kind of panic |
| C110 | Starts | entries with weights | minimum over entries, inequalities between them |
| C111 | Recipe | order of one graph used for another | C10 and C13 |
| C112 | LargestId | `add_edge` with the largest id | wrap or panic of the node count, then index panics |
| C113 | Rounding | two graphs with close weights | weights of walks compared, C01 |
| C114 | Nearest | client loop over queries | induction on the repetitions |
| C115 | Trip | client loop over queries | induction on the stages |
| C116 | Turns | client that makes roads nodes | drives are walks of the client's graph (both directions), then C06 |
| C117 | SecondBest | client that leaves out edges | another simple path lacks a leg of the first; then C01–C04 on the reduced graphs |
| C118 | RoundTrip | client that starts at the neighbours | closed walks are routes from the neighbours (C06); simple because lightest |
| C119 | Threads | schedules of whole queries on several calculators | every calculator keeps its invariant (C67), induction over the schedule |
| C120 | Readme32 | conversion of prepared graphs, condition on the input graph | false: a shortcut of weight `2^32`, and it depends on the order; `_partial`: `(n-1)*W` suffices with a wide budget, node and edge counts are necessary |
| C121 | TwoCriteria | queries on graphs with merged weights | walks of the merged graph are walks with two sums; loops are cut out; C01, C04 |
| C122 | ServerDevice | prepare, save_to_disk32, load_from_disk32, queries on another platform | C64 (prepare, stored weights), C63, the codec (C60), moved graphs stay good (C49), totality of queries (C33), C32 and C94 for release builds |
| C123 | Rules | the calls that build the product graph, queries on it | walks of the product are runs of the automaton, both ways, by induction; C06 |
| C124 | Stations | queries of a first graph, the calls that build a second one from the answers, queries on that | edges of the second graph are shortest legs; both directions by induction over the stops; C01, C02 on both graphs |
| C125 | Unpack | `unpack_fwd`, `unpack_bwd`, `extract_nodes` and queries once more with counters (`Model/UnpackWork`) | mutual induction: a shortcut over k edges is a binary tree with 2k - 1 nodes; paths are simple (C04) for the bound by n |
| C126 | Height | stored edges of prepared graphs, `unpack_fwd`, `unpack_bwd`, queries with counters | the center of a shortcut extends every chain below it; parents in the search trees form chains; induction on the fuel |
| C127 | Heaviest | the calls that add the complementary weights, queries on that graph | the two weights of every walk add up to a number that depends only on its ends, by induction; C01, C02 |
| C128 | Levels | The levels of C69 (longest chain below a node in the graphs left while contracting) and the chains of stored edges of C126. | Chains in the two senses correspond, one edge at a time: an edge is stored at v exactly for the neighbors v has when its turn comes (C70); induction on the chain in both directions. For the array `levels`: the invariant of the contraction loop from C69, carried to the state in which the loop ends. |
| C129 | Embed | `serialize_32` and `deserialize_32` as readers and writers of one field among others (`Model/Embed`); the other fields are a parameter with an encoding of their own. | Every field reads back what it wrote and leaves the rest (the codec lemmas of C59/C60); induction on the list of fields. A cut lies in one field, those before it are read, that one fails. |
| C130 | NoTies | The contraction loop with any queue that hands out a node of least priority (as in C69); an order without ties is one in which every priority is smaller than all later ones at the same moment. | Induction on the common part of the two orders: at the first difference C69 and the absence of ties contradict each other; C14 gives the graph. That the other queue returns: the two runs go side by side, the states differ only in the queues, whose nodes and priorities agree. The failure with ties is shown by running the list queue and the model of `priority_queue` on three nodes. |
| C131 | Comparisons | Preparation with two formulas side by side (`Model/Builder`, `Model/PriorityQueue`); a queue that decides by comparing is one that hands out the same nodes when given priorities that compare alike. | The array heap of `priority_queue` keeps the same nodes at the same places, by induction on the loops of sifting; the two contraction loops run in lockstep, equal except for the queues, panics included. |
| C132 | QueueWork | a queue that behaves like a given one and writes down its calls (`loggedQueue`), run by the model of `run_contraction` | the run with the log goes in lockstep with the run without it; induction over the pops with the invariant of C69, which knows the graph that is left and so the neighbors; C128 relates them to the stored edges |
| C133 | Scaled | two preparations side by side (`Model/Builder`, `Model/WitnessSearch`, `Model/BinaryHeap`), the second one of the graph with `k` times the weights (`SpecScale`); a comparing heap is one that hands out the same nodes when given weights that compare alike | if the second run returns then so does the first, with the scaled result: a relation between the states that is kept by every step, among them the caches of the witness search, in which `usize::MAX` means "not reached" on both sides; the array heap of `BinaryHeap` keeps the same nodes at the same places; the need for the condition on `k` is shown by running a graph with a path of weight `usize::MAX / 3` |
| C134 | ScaledQuery | two queries side by side (`Model/PathCalculator`), the second one in the graph with `k` times the weights; comparing heaps as in C133 | as C133: if the second run returns then so does the first; labels, heaps, best weight and meeting node are related, a weight is either scaled and below `usize::MAX` or `usize::MAX` on both sides; unpacking does not look at weights; the need for the condition on `k` by running the graph of C133 |
| C135 | Beginning | two runs of `run_contraction_with_order` (`Model/Builder`) with orders `pre ++ rest` | both runs pass through the same state after `pre`; every later step only appends edges, writes later offsets and the ranks of later nodes (`Grown`); `finish_contraction` keeps ends and weights (`SameCore`); that the rest matters by running one graph |
