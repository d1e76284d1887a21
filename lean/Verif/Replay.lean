import Verif.Proofs.BinaryHeap
import Verif.Model.ListQueue
import Verif.Model.History
import Verif.Model.Dijkstra
import Verif.Model.FloydWarshall
import Verif.Model.FastGraph32
import Verif.Model.Float32
import Verif.Model.Bincode
/-!
# The unit tests of the repository, run on the model

These are tests of the model, not proofs: every unit test of `/repo/src` that does not use random numbers or map files is replayed
with the numbers and expectations of the original, so that a model that differs from the code in one of these cases would not
compile. They include what the theorems deliberately leave open, such as the number of nodes a witness search settles. The tests run on
a 64-bit debug build with the binary heap of the standard library; evaluation is done by the kernel.
-/
set_option autoImplicit false
namespace FP
namespace Replay
open Spec PreparationGraph

/-- A test that should pass. -/
def passes (m : M Unit) : Bool :=
  match m with
  | .ok _ => true
  | .error _ => false

/-- `#[should_panic]`; running out of fuel is not a panic. -/
def panics {α : Type} (m : M α) : Bool :=
  match m with
  | .ok _ => false
  | .error e => e != .outOfFuel

/-- `assert_eq!` -/
def eqM {α : Type} [BEq α] (a b : α) : M Unit := assertM (a == b)

/-- `usize::MAX` -/
def umax : Nat := 2 ^ 64 - 1

/-- A preparation graph with the given edges, added in this order. -/
def prepGraph (n : Nat) (es : List (Nat × Nat × Nat)) : M PreparationGraph :=
  forM (fun g (e : Nat × Nat × Nat) => addEdge debug64 g e.1 e.2.1 e.2.2) (PreparationGraph.new n) es

/-! ## dijkstra.rs -/

/-- dijkstra.rs `assert_path` and `assert_no_path` -/
def assertDijkstra (g : PreparationGraph) (d : Dijkstra binaryHeap) (s t : Nat) (want : Option (Nat × List Nat)) :
    M (Dijkstra binaryHeap) := do
  let (d, p) ← d.calcPath debug64 g s t
  eqM p (want.map (fun x => ⟨s, t, x.1, x.2⟩))
  .ok d

/-- dijkstra.rs `simple_path` -/
example : passes (do
    let g ← prepGraph 10 [(0, 1, 1), (1, 2, 1), (2, 3, 1), (3, 4, 20), (0, 5, 5), (5, 6, 1), (6, 4, 20), (6, 3, 20), (5, 7, 5),
      (7, 8, 1), (8, 9, 1), (9, 4, 1)]
    let d := Dijkstra.new debug64 binaryHeap 10
    let d ← assertDijkstra g d 4 0 none
    let d ← assertDijkstra g d 4 4 (some (0, [4]))
    let d ← assertDijkstra g d 6 3 (some (20, [6, 3]))
    let d ← assertDijkstra g d 1 4 (some (22, [1, 2, 3, 4]))
    let _ ← assertDijkstra g d 0 4 (some (13, [0, 5, 7, 8, 9, 4]))) = true := by decide +kernel

/-- dijkstra.rs `go_around` -/
example : passes (do
    let g ← prepGraph 4 [(0, 1, 10), (0, 2, 1), (2, 3, 1), (2, 3, 1), (3, 1, 1)]
    let _ ← assertDijkstra g (Dijkstra.new debug64 binaryHeap 4) 0 1 (some (3, [0, 2, 3, 1]))) = true := by decide +kernel

/-- dijkstra.rs `more` -/
example : passes (do
    let g ← prepGraph 11 [(0, 1, 1), (1, 2, 1), (1, 3, 1), (3, 4, 1), (3, 6, 1), (6, 7, 1), (3, 5, 1), (3, 8, 1), (8, 9, 1),
      (9, 10, 1)]
    let d := Dijkstra.new debug64 binaryHeap 11
    let d ← assertDijkstra g d 0 1 (some (1, [0, 1]))
    let d ← assertDijkstra g d 0 2 (some (2, [0, 1, 2]))
    let d ← assertDijkstra g d 0 4 (some (3, [0, 1, 3, 4]))
    let d ← assertDijkstra g d 0 3 (some (2, [0, 1, 3]))
    let d ← assertDijkstra g d 0 7 (some (4, [0, 1, 3, 6, 7]))
    let d ← assertDijkstra g d 0 5 (some (3, [0, 1, 3, 5]))
    let d ← assertDijkstra g d 0 10 (some (5, [0, 1, 3, 8, 9, 10]))
    let _ ← assertDijkstra g d 3 10 (some (3, [3, 8, 9, 10]))) = true := by decide +kernel

/-! ## fast_graph32.rs -/

/-- the graph of fast_graph32.rs `create` -/
def graph32 : FastGraph where
  numNodes := 5
  ranks := [286, 45, 480001, umax, 4468]
  edgesFwd := [⟨umax, 598, 48, umax, umax⟩, ⟨umax, umax, umax, 4, umax⟩]
  firstEdgeIdsFwd := [1, umax, umax]
  edgesBwd := [⟨0, 1, 3, 4, umax⟩]
  firstEdgeIdsBwd := [1, umax, 5, umax, 9, 10]

/-- fast_graph32.rs `create` -/
example : passes (do
    let g ← FastGraph32.new debug64 2 graph32
    eqM g.numNodes 5
    eqM g.ranks [286, 45, 480001, U32_MAX, 4468]
    eqM (g.edgesFwd.map (fun e => [e.baseNode, e.adjNode, e.weight, e.replacedInEdge, e.replacedOutEdge]))
      [[U32_MAX, 598, 48, U32_MAX, U32_MAX], [U32_MAX, U32_MAX, U32_MAX, 4, U32_MAX]]
    eqM (g.edgesBwd.map (fun e => [e.weight, e.replacedOutEdge])) [[3, U32_MAX]]
    eqM g.firstEdgeIdsFwd.length 3
    eqM g.firstEdgeIdsFwd[1]? (some U32_MAX)
    eqM g.firstEdgeIdsBwd.length 6
    eqM g.firstEdgeIdsBwd[3]? (some U32_MAX)
    eqM g.firstEdgeIdsBwd[4]? (some 9)
    let h ← g.convertToUsize debug64
    eqM h.getNumNodes 5
    eqM h.ranks [286, 45, 480001, umax, 4468]
    eqM h.firstEdgeIdsFwd[2]? (some umax)
    eqM h.firstEdgeIdsBwd[0]? (some 1)
    eqM h.firstEdgeIdsBwd[1]? (some umax)
    eqM (h.edgesFwd[0]?.map (fun e => [e.baseNode, e.adjNode, e.weight])) (some [umax, 598, 48])
    eqM (h.edgesBwd[0]?.map (·.replacedInEdge)) (some 4)) = true := by decide +kernel

/-- fast_graph32.rs `create_fails_with_too_large_numbers` -/
example : panics (do
    let g ← FastGraph.new debug64 5
    FastGraph32.new debug64 2 { g with ranks := [5000000000] }) = true := by decide +kernel

/-! ## fast_graph_builder.rs -/

/-- `assert_path` -/
def assertPath (g : FastGraph) (s t weight : Nat) (nodes : List Nat) : M Unit := do
  let p ← calcPath debug64 binaryHeap g s t
  eqM p (some ⟨s, t, weight, nodes⟩)

/-- `prepare_with_order(..).unwrap()` -/
def prepareOrder (ops : List Op) (order : List Nat) : M FastGraph := do
  let g ← buildGraph debug64 (ops ++ [.freeze])
  match ← prepareWithOrder debug64 binaryHeap g order with
  | .ok fg => .ok fg
  | .error _ => .error .assertion

/-- `prepare` with the default parameters -/
def prepareDefault (ops : List Op) : M FastGraph := do
  let g ← buildGraph debug64 (ops ++ [.freeze])
  prepare debug64 binaryHeap listQueue (defaultRelevance debug64) g

/-- fast_graph_builder.rs `calc_path_linear_bwd_only` -/
example : passes (do
    let g ← prepareOrder [.addEdge 2 0 9, .addEdge 0 1 49] [0, 1, 2]
    assertPath g 2 1 58 [2, 0, 1]) = true := by decide +kernel

/-- fast_graph_builder.rs `calc_path_linear_fwd_only` -/
example : passes (do
    let g ← prepareOrder [.addEdge 1 0 9, .addEdge 0 2 49] [0, 1, 2]
    assertPath g 1 2 58 [1, 0, 2]) = true := by decide +kernel

/-- fast_graph_builder.rs `calc_path_simple` -/
example : passes (do
    let g ← prepareOrder [.addEdgeBidir 0 1 5, .addEdgeBidir 1 2 3, .addEdgeBidir 2 3 2, .addEdgeBidir 3 4 6, .addEdge 0 4 2]
      [0, 1, 2, 3, 4]
    assertPath g 0 4 2 [0, 4]
    assertPath g 4 0 16 [4, 3, 2, 1, 0]
    assertPath g 1 4 7 [1, 0, 4]
    assertPath g 2 4 8 [2, 3, 4]) = true := by decide +kernel

/-- fast_graph_builder.rs `calc_path_another` -/
example : passes (do
    let g ← prepareOrder [.addEdge 0 2 1, .addEdge 0 4 9, .addEdge 1 3 3, .addEdge 2 1 8, .addEdge 3 0 4, .addEdge 3 1 8,
      .addEdge 4 2 4] [0, 1, 2, 3, 4]
    assertPath g 4 3 15 [4, 2, 1, 3]) = true := by decide +kernel

/-- `assert_path_multiple_sources_and_targets` and `..._not_found`, all queries on one calculator -/
def assertMulti (g : FastGraph) (c : PathCalculator binaryHeap)
    (x : List (Nat × Nat) × List (Nat × Nat) × Option (List Nat × Nat)) : M (PathCalculator binaryHeap) := do
  let (c, p) ← c.calcPathMulti debug64 g x.1 x.2.1
  eqM (p.map (fun p => (p.nodes, p.weight))) x.2.2
  .ok c

/-- fast_graph_builder.rs `multiple_sources` -/
example : passes (do
    let g ← prepareDefault [.addEdge 0 1 3, .addEdge 1 2 4, .addEdge 3 4 2, .addEdge 4 2 3, .addEdge 5 2 2]
    let _ ← forM (assertMulti g) (createCalculator debug64 binaryHeap g)
      [([(0, 0), (3, 0)], [(2, 0)], some ([3, 4, 2], 5)), ([(0, 1), (3, 4)], [(2, 0)], some ([0, 1, 2], 8)),
       ([(0, 5), (0, 3)], [(2, 0)], some ([0, 1, 2], 10)), ([(5, 10), (5, 20)], [(2, 0)], some ([5, 2], 12)),
       ([(1, 10), (1, 1)], [(1, 0)], some ([1], 1)), ([(2, 10), (0, 0)], [(2, 0)], some ([0, 1, 2], 7)),
       ([(1, umax)], [(1, 0)], none), ([(1, umax), (0, 3)], [(1, 0)], some ([0, 1], 6)),
       ([(1, umax), (3, 3)], [(2, 0)], some ([3, 4, 2], 8))]) = true := by decide +kernel

/-- fast_graph_builder.rs `multiple_targets` -/
example : passes (do
    let g ← prepareDefault [.addEdge 1 0 3, .addEdge 2 1 4, .addEdge 4 3 2, .addEdge 2 4 3]
    let _ ← forM (assertMulti g) (createCalculator debug64 binaryHeap g)
      [([(2, 0)], [(0, 0), (3, 0)], some ([2, 4, 3], 5)), ([(2, 0)], [(0, 0), (3, 1)], some ([2, 4, 3], 6)),
       ([(2, 0)], [(0, 0), (3, 3)], some ([2, 1, 0], 7)), ([(4, 0)], [(4, 3), (4, 1)], some ([4], 1))]) = true := by
  decide +kernel

/-- fast_graph_builder.rs `multiple_sources_and_targets` -/
example : passes (do
    let g ← prepareDefault [.addEdgeBidir 0 1 1, .addEdgeBidir 1 2 2, .addEdgeBidir 2 3 3, .addEdgeBidir 3 4 4,
      .addEdgeBidir 5 6 5, .addEdgeBidir 6 2 6, .addEdgeBidir 2 7 7, .addEdgeBidir 7 8 8]
    let _ ← forM (assertMulti g) (createCalculator debug64 binaryHeap g)
      [([(1, 7), (6, 2), (5, 6)], [(3, 1), (4, 9), (5, 7)], some ([6, 2, 3], 12)),
       ([(1, 7), (6, 2)], [(1, 9), (6, 3)], some ([6], 5))]) = true := by decide +kernel

/-! ## floyd_warshall.rs -/

/-- floyd_warshall.rs `calc_weights` -/
example : passes (do
    let g ← buildGraph debug64 [.addEdge 0 1 6, .addEdge 0 4 1, .addEdge 4 5 1, .addEdge 5 7 1, .addEdge 7 8 1, .addEdge 8 6 1,
      .addEdge 6 3 1, .addEdge 3 1 1, .addEdge 1 3 1, .addEdge 5 6 4, .freeze]
    let n ← g.getNumNodes
    let fw ← (← FloydWarshall.new debug64 n).prepare debug64 g
    eqM (← fw.calcWeight debug64 0 3) 6
    eqM (← fw.calcWeight debug64 5 3) 4
    eqM (← fw.calcWeight debug64 1 1) 0
    eqM (← fw.calcWeight debug64 5 5) 0
    eqM (← fw.calcWeight debug64 6 5) umax
    eqM (← fw.calcWeight debug64 8 0) umax) = true := by decide +kernel

/-! ## input_graph.rs -/

/-- input_graph.rs `panic_if_not_frozen_get_edges`, `..._get_num_edges`, `..._get_num_nodes` -/
example : panics (do (← buildGraph debug64 [.addEdge 0 1 3]).getEdges) = true := by decide +kernel
example : panics (do (← buildGraph debug64 [.addEdge 0 1 3]).getNumEdges) = true := by decide +kernel
example : panics (do (← buildGraph debug64 [.addEdge 0 1 3]).getNumNodes) = true := by decide +kernel

/-- input_graph.rs `panic_if_frozen_add_edge` -/
example : panics (buildGraph debug64 [.addEdge 0 1 3, .freeze, .addEdge 2 5 4]) = true := by decide +kernel

/-- input_graph.rs `freeze_and_thaw` -/
example : passes (do
    let g ← buildGraph debug64 [.addEdge 0 5 10, .addEdge 0 5 5, .freeze]
    eqM (← g.getNumEdges) 1
    let g ← buildGraph debug64 [.addEdge 0 5 10, .addEdge 0 5 5, .freeze, .thaw, .addEdge 0 5 1, .freeze]
    eqM (← g.getNumEdges) 1
    eqM ((← g.getEdges).map (·.weight)) [1]) = true := by decide +kernel

/-- input_graph.rs `num_nodes` -/
example : passes (do
    let g ← buildGraph debug64 [.addEdge 7 1 2, .addEdge 5 6 4, .addEdge 11 8 3, .freeze]
    eqM (← g.getNumNodes) 12) = true := by decide +kernel

/-- input_graph.rs `skips_loops` -/
example : passes (do
    let g ← buildGraph debug64 [.addEdge 0 1 3, .addEdge 4 4 2, .addEdge 2 5 4, .freeze]
    eqM (← g.getNumEdges) 2) = true := by decide +kernel

/-- input_graph.rs `skips_zero_weight_edges` -/
example : passes (do
    let g ← buildGraph debug64 [.addEdge 0 1 5, .addEdge 1 2 0, .addEdge 2 3 3, .freeze]
    eqM (← g.getNumEdges) 2) = true := by decide +kernel

/-- input_graph.rs `skips_duplicate_edges` -/
example : passes (do
    let g ← buildGraph debug64 [.addEdge 0 1 7, .addEdge 2 3 5, .addEdge 0 2 3, .addEdge 0 1 2, .addEdge 4 6 9, .addEdge 0 1 4,
      .freeze]
    eqM (← g.getNumEdges) 4
    eqM ((← g.getEdges).map (·.weight)) [2, 3, 5, 9]) = true := by decide +kernel

/-- input_graph.rs `skips_duplicate_edges_more` -/
example : passes (do
    let g ← buildGraph debug64 [.addEdge 1 3 43, .addEdge 3 2 90, .addEdge 3 2 88, .addEdge 2 3 87, .addEdge 3 0 75,
      .addEdge 0 2 45, .addEdge 1 3 71, .addEdge 4 3 5, .addEdge 1 3 91, .freeze]
    eqM (← g.getNumEdges) 6
    eqM ((← g.getEdges).map (·.weight)) [45, 43, 87, 75, 88, 5]) = true := by decide +kernel

/-! ## lib.rs -/

/-- `assert_eq!` on the three sizes of a loaded graph -/
def sameSizes (a b : FastGraph) : M Unit :=
  eqM [a.getNumNodes, a.getNumInEdges, a.getNumOutEdges] [b.getNumNodes, b.getNumInEdges, b.getNumOutEdges]

/-- lib.rs `save_to_and_load_from_disk` -/
example : passes (do
    let g ← prepareDefault [.addEdge 0 5 6, .addEdge 5 2 1, .addEdge 2 3 4]
    match loadFromDisk debug64 (saveToDisk g) with
    | .ok h => sameSizes g h
    | .error _ => .error .assertion) = true := by decide +kernel

/-- lib.rs `save_to_and_load_from_disk_32` -/
example : passes (do
    let g ← prepareDefault [.addEdge 0 5 6, .addEdge 5 2 1, .addEdge 2 3 4]
    let file ← saveToDisk32 debug64 2 g
    match ← loadFromDisk32 debug64 file with
    | .ok h => sameSizes g h
    | .error _ => .error .assertion) = true := by decide +kernel

/-! ## node_contractor.rs -/

/-- node_contractor.rs `calc_shortcuts` -/
def calcShortcuts (g : PreparationGraph) (node : Nat) : M (List Shortcut) := do
  let st ← handleShortcuts debug64 g (WitnessSearch.new debug64 binaryHeap g.numNodes) node
    (fun g l s => .ok (g, l ++ [s])) [] umax
  .ok st.acc

/-- node_contractor.rs `calc_shortcuts_no_witness` -/
example : passes (do
    let g ← prepGraph 5 [(0, 2, 1), (1, 2, 2), (2, 3, 3), (2, 4, 1)]
    eqM (← calcShortcuts g 2) [⟨0, 3, 2, 4⟩, ⟨0, 4, 2, 2⟩, ⟨1, 3, 2, 5⟩, ⟨1, 4, 2, 3⟩]) = true := by decide +kernel

/-- node_contractor.rs `calc_shortcuts_witness` -/
example : passes (do
    let g ← prepGraph 4 [(0, 1, 1), (1, 2, 1), (0, 3, 1), (3, 2, 1)]
    eqM (← calcShortcuts g 1) []) = true := by decide +kernel

/-- node_contractor.rs `calc_shortcuts_witness_via_center`: the comment there says that the superfluous shortcut from 0 is added. -/
example : passes (do
    let g ← prepGraph 4 [(0, 1, 10), (1, 2, 1), (0, 3, 1), (3, 1, 1)]
    eqM (← calcShortcuts g 1) [⟨0, 2, 1, 11⟩, ⟨3, 2, 1, 2⟩]) = true := by decide +kernel

/-- node_contractor.rs `contract_node` -/
example : passes (do
    let g ← prepGraph 5 [(0, 1, 1), (1, 2, 1), (0, 3, 1), (3, 1, 5), (1, 4, 4), (3, 4, 3), (4, 2, 1)]
    let (g, _) ← contractNode debug64 g (WitnessSearch.new debug64 binaryHeap 5) 1 umax
    eqM (g.outEdges[1]?.map (·.length)) (some 0)
    eqM (g.inEdges[1]?.map (·.length)) (some 0)
    eqM (g.outEdges[0]?.map (·.length)) (some 2)
    eqM (g.inEdges[2]?.map (·.length)) (some 2)) = true := by decide +kernel

/-- node_contractor.rs `calc_priority`, which only prints: no call panics. -/
example : passes (do
    let g ← prepGraph 6 [(0, 1, 1), (1, 2, 1), (2, 5, 1), (3, 1, 1), (1, 4, 1)]
    let _ ← forM (fun (st : PreparationGraph × WitnessSearch binaryHeap) node => do
      let (g, ws, _) ← calcRelevance debug64 (defaultRelevance debug64) st.1 st.2 node 0 umax
      .ok (g, ws)) (g, WitnessSearch.new debug64 binaryHeap 6) (List.range 6)) = true := by decide +kernel

/-! ## path_calculator.rs -/

/-- path_calculator.rs `unpack_fwd_single` -/
example : passes (do
    let g ← FastGraph.new debug64 2
    let g := { g with edgesFwd := [⟨0, 1, 3, umax, umax⟩] }
    eqM (← PathCalculator.unpackFwd debug64 g 3 [] 0 false) [0]) = true := by decide +kernel

/-- path_calculator.rs `unpack_fwd_simple` -/
example : passes (do
    let g ← FastGraph.new debug64 3
    let g := { g with edgesFwd := [⟨0, 1, 2, umax, umax⟩, ⟨0, 2, 5, 0, 0⟩], edgesBwd := [⟨2, 1, 3, umax, umax⟩],
                      firstEdgeIdsFwd := [0, 2, 0, 0] }
    eqM (← PathCalculator.unpackFwd debug64 g 4 [] 1 false) [1, 0]) = true := by decide +kernel

/-! ## preparation_graph.rs -/

/-- `adj_nodes(g.get_out_edges(node))` -/
def outAdj (g : PreparationGraph) (node : Nat) : Option (List Nat) := g.outEdges[node]?.map (·.map (·.adj))
/-- `adj_nodes(g.get_in_edges(node))` -/
def inAdj (g : PreparationGraph) (node : Nat) : Option (List Nat) := g.inEdges[node]?.map (·.map (·.adj))

/-- preparation_graph.rs `add_and_remove_edges` -/
example : passes (do
    let g ← prepGraph 4 [(0, 1, 1), (0, 2, 1), (0, 3, 1), (2, 3, 1)]
    eqM (outAdj g 0) (some [1, 2, 3])
    eqM (inAdj g 3) (some [0, 2])
    let g ← removeOutEdge g 0 2
    eqM (outAdj g 0) (some [1, 3])
    eqM (inAdj g 3) (some [0, 2])
    let g ← removeInEdge g 3 0
    eqM (outAdj g 0) (some [1, 3])
    eqM (inAdj g 3) (some [2])) = true := by decide +kernel

/-- preparation_graph.rs `add_or_remove_edge` -/
example : passes (do
    let g ← prepGraph 3 [(0, 1, 10)]
    let g ← addOrReduceEdge g 0 1 6 umax
    eqM (g.outEdges[0]?.map (·.map (·.weight))) (some [6])
    eqM (g.inEdges[1]?.map (·.map (·.weight))) (some [6])) = true := by decide +kernel

/-- preparation_graph.rs `disconnect` -/
example : passes (do
    let g ← prepGraph 4 [(1, 0, 1), (1, 2, 1), (0, 1, 1), (2, 1, 1)]
    eqM (outAdj g 1) (some [0, 2])
    eqM (inAdj g 1) (some [0, 2])
    let g ← disconnect g 1
    eqM ((List.range 3).map (outAdj g)) [some [], some [], some []]
    eqM ((List.range 3).map (inAdj g)) [some [], some [], some []]) = true := by decide +kernel

/-! ## valid_flags.rs -/

/-- valid_flags.rs `set_valid_and_invalidate` -/
example : passes (do
    let f := ValidFlags.new 5
    eqM (← f.isValid 3) false
    let f ← f.setValid 3
    eqM (← f.isValid 3) true
    eqM (← f.invalidateAll.isValid 3) false) = true := by decide +kernel

/-! ## witness_search.rs -/

/-- One call in a test of the witness search. -/
inductive Call where
  /-- `ws.init(start, avoid)` -/
  | init (start avoid : Nat)
  /-- `assert_eq!(want, ws.find_max_weight(&g, target, limit, settled_limit))` -/
  | find (want target limit settledLimit : Nat)
  /-- `assert_eq!(n, ws.settled_nodes)` -/
  | settled (n : Nat)

/-- Run the calls on a fresh search. -/
def runCalls (g : PreparationGraph) (cs : List Call) : M Unit := do
  let _ ← forM (fun (ws : WitnessSearch binaryHeap) (c : Call) =>
    match c with
    | .init s a => ws.init debug64 s a
    | .find want t l k => do
      let (ws, w) ← ws.findMaxWeight debug64 g t l k
      eqM w want
      .ok ws
    | .settled n => do
      eqM ws.settledNodes n
      .ok ws) (WitnessSearch.new debug64 binaryHeap g.numNodes) cs

/-- witness_search.rs `avoid_node` -/
example : passes (do
    let g ← prepGraph 6 [(0, 1, 1), (1, 2, 1), (0, 3, 10), (3, 4, 1), (4, 5, 1), (5, 2, 1)]
    runCalls g [.init 0 umax, .find 2 2 2 100, .find 2 2 2 100, .settled 2, .init 0 1, .find 13 2 13 100, .settled 4, .init 4 3,
      .find 2 2 5 100, .settled 2]) = true := by decide +kernel

/-- witness_search.rs `limit_weight` -/
example : passes (do
    let g ← prepGraph 5 [(0, 1, 1), (1, 2, 1), (2, 3, 1), (3, 4, 1)]
    runCalls g [.init 0 umax, .find 3 3 3 100, .settled 3, .init 0 umax, .find 3 3 2 100, .settled 3, .find umax 4 2 100,
      .find 2 2 2 100, .find 2 2 2 100, .find 2 2 2 100, .find 2 2 1 100, .settled 3, .find 4 4 3 100, .find 4 4 4 100,
      .find 4 4 5 100, .settled 4]) = true := by decide +kernel

/-- witness_search.rs `stop_early` -/
example : passes (do
    let g ← prepGraph 4 [(0, 1, 1), (1, 2, 1), (2, 3, 1), (0, 3, 4)]
    runCalls g [.init 0 umax, .find 4 3 10 100, .settled 1, .find 4 3 10 100, .settled 1, .find 4 3 4 100, .find 4 3 4 100,
      .settled 1, .find 3 3 3 100, .settled 3, .find 3 3 3 100, .settled 3, .init 0 umax, .find 4 3 100 2, .settled 1,
      .find 4 3 3 2, .settled 2]) = true := by decide +kernel

/-- the chain of the last two tests -/
def chain : List (Nat × Nat × Nat) := (List.range' 3 97).map (fun i => (i, i + 1, 1))

/-- witness_search.rs `large_edge_weight` -/
example : passes (do
    let g ← prepGraph 101 ([(3, 2, 100), (2, 1, 100), (3, 0, 50), (0, 1, 50)] ++ chain)
    runCalls g [.init 3 2, .find 100 1 200 umax, .settled 51, .init 3 2, .find umax 1 200 5, .settled 5]) = true := by
  decide +kernel

/-- witness_search.rs `large_edge_weight_target_touched` -/
example : passes (do
    let g ← prepGraph 101 ([(3, 2, 100), (2, 1, 100), (3, 0, 1), (0, 1, 99)] ++ chain)
    runCalls g [.init 3 2, .find 100 1 200 umax, .settled 2]) = true := by decide +kernel

end Replay
end FP
