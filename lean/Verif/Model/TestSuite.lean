import Verif.Model.Lib
import Verif.Model.Dijkstra
import Verif.Model.FloydWarshall
import Verif.Model.Float32
/-!
# Model of the randomised tests (src/lib.rs:152-348, 592-630; src/input_graph.rs:216-234)

The random numbers are arguments: a list with everything the generator will be asked for. Messages, the debug output of the graph and the
stop watch are left out.
-/
namespace FP

/-- shortest_path.rs:59-66 `ShortestPath::none` -/
def ShortestPath.notFound (P : Plat) (source target : Nat) : ShortestPath := ⟨source, target, P.WEIGHT_MAX, []⟩

/-- `+= 1` on an `i32` (counters that are only cast to `f32` get Rust's default integer type) -/
def incI32 (P : Plat) (n : Int) : M Int :=
  if n < I32_MAX then .ok (n + 1) else if P.checked then .error .overflow else .ok (-(I32_MAX : Int) - 1)

/-- `>` on `f32` -/
def F32.gt : F32 → F32 → Bool
  | .nan, _ => false
  | _, .nan => false
  | .inf a, .inf b => b && !a
  | .inf a, .fin _ => !a
  | .fin _, .inf b => b
  | .fin a, .fin b => decide (b < a)

namespace InputGraph

/-- input_graph.rs:221-231, the `loop`. `draws` are the triples `(head, tail, weight)` the generator gives; where the list ends, the model
stops with `outOfFuel` (the loop goes on as long as it gets numbers). -/
def randomLoop (P : Plat) (numEdges : Nat) : List (Nat × Nat × Nat) → InputGraph → Nat → M InputGraph
  | [], _, _ => .error .outOfFuel
  | (head, tail, weight) :: draws, g, edgeCount => do
    let (g, k) ← g.addEdge P tail head weight
    let edgeCount ← addW P edgeCount k
    if edgeCount == numEdges then .ok g else randomLoop P numEdges draws g edgeCount

/-- input_graph.rs:217-234 `build_random_graph` -/
def buildRandomGraph (P : Plat) (draws : List (Nat × Nat × Nat)) (numNodes : Nat) (meanDegree : F32) : M InputGraph := do
  let numEdges := F32.toUsize P (F32.mul meanDegree (F32.ofInt numNodes))
  let g ← randomLoop P numEdges draws InputGraph.new 0
  g.freeze

end InputGraph

namespace TestSuite
variable {pq : PQ}

/-- lib.rs:178-204, the body of the loop over the queries, for a query from `q.1` to `q.2` -/
def singleStep (P : Plat) (fg : FastGraph) (dg : PreparationGraph) (fw : FloydWarshall)
    (st : PathCalculator pq × Dijkstra pq × Int) (q : Nat × Nat) : M (PathCalculator pq × Dijkstra pq × Int) := do
  let (c, rf) ← st.1.calcPath P fg q.1 q.2
  let pathFast := rf.getD (ShortestPath.notFound P q.1 q.2)
  let (d, rd) ← st.2.1.calcPath P dg q.1 q.2
  let pathDijkstra := rd.getD (ShortestPath.notFound P q.1 q.2)
  let weightFw ← fw.calcWeight P q.1 q.2
  assertM (weightFw == pathFast.weight)
  assertM (pathDijkstra.eqv pathFast)
  let num ← (if pathDijkstra.nodes != pathFast.nodes then incI32 P st.2.2 else .ok st.2.2 : M Int)
  .ok (c, d, num)

/-- lib.rs:167-204: everything `run_test_on_random_graph` does with its graph up to the end of the loop; returns `num_different_paths`. -/
def singleTest (P : Plat) (pq : PQ) (nq : NodeQueue) (ig : InputGraph) (queries : List (Nat × Nat)) : M Int := do
  let fg ← prepare P pq nq (defaultRelevance P) ig
  let c := createCalculator P pq fg
  let dg ← PreparationGraph.fromInputGraph P ig
  let n ← ig.getNumNodes
  let fw ← (← FloydWarshall.new P n).prepare P ig
  let st ← forM (singleStep P fg dg fw) (c, Dijkstra.new P pq n, 0) queries
  .ok st.2.2

/-- lib.rs:205: more than a tenth of the paths differ (`0.1 * NUM_QUERIES as f32`) -/
def tooMany (factor : F32) (num : Int) (numQueries : Nat) : Bool :=
  F32.gt (F32.ofInt num) (F32.mul factor (F32.ofInt numQueries))

/-- lib.rs:159-213 `run_test_on_random_graph` -/
def runTestOnRandomGraph (P : Plat) (pq : PQ) (nq : NodeQueue) (draws : List (Nat × Nat × Nat)) (queries : List (Nat × Nat)) : M Unit := do
  let ig ← InputGraph.buildRandomGraph P draws 50 (F32.ofInt 2)
  let num ← singleTest P pq nq ig queries
  if tooMany F32.tenth num 1000 then .error .assertion else .ok ()

/-- lib.rs:248-257, the two loops: a Dijkstra query for every pair -/
def allPairs (P : Plat) (dg : PreparationGraph) (d : Dijkstra pq) (sources targets : List (Nat × Nat)) :
    M (Dijkstra pq × List (Option ShortestPath × Nat × Nat)) :=
  forM (fun st s => forM (fun st t => do
    let (d, r) ← st.1.calcPath P dg s.1 t.1
    .ok (d, st.2 ++ [(r, s.2, t.2)])) st targets) (d, []) sources

/-- lib.rs:259-267 -/
def foundPaths (P : Plat) (l : List (Option ShortestPath × Nat × Nat)) : List (ShortestPath × Nat × Nat) :=
  l.filterMap (fun x => match x.1 with
    | some p => if x.2.1 < P.WEIGHT_MAX ∧ x.2.2 < P.WEIGHT_MAX then some (p, x.2.1, x.2.2) else none
    | none => none)

/-- lib.rs:273 and 298: `p.get_weight() + source_weight + target_weight` -/
def totalWeight (P : Plat) (x : ShortestPath × Nat × Nat) : M Nat := do
  let a ← addW P x.1.weight x.2.1
  addW P a x.2.2

/-- lib.rs:270-275: `.map(..).min()` -/
def minTotal (P : Plat) : List (ShortestPath × Nat × Nat) → M (Option Nat) :=
  forM (fun best x => do
    let w ← totalWeight P x
    .ok (some (match best with | none => w | some b => min b w))) none

/-- lib.rs:295-302: `.filter(..).collect()`. The sum is computed for every element, `&&` is evaluated from the left. -/
def matchingPaths (P : Plat) (f : ShortestPath) : List (ShortestPath × Nat × Nat) → M (List (ShortestPath × Nat × Nat)) :=
  forM (fun acc x => do
    let w ← totalWeight P x
    .ok (if w == f.weight && x.1.source == f.source && x.1.target == f.target then acc ++ [x] else acc)) []

/-- lib.rs:237-316, the body of the loop over the queries; `st` holds the calculator, the Dijkstra object, `num_different_paths` and
`num_paths_not_found`. -/
def multiStep (P : Plat) (fg : FastGraph) (dg : PreparationGraph) (st : PathCalculator pq × Dijkstra pq × Int × Int)
    (q : List (Nat × Nat) × List (Nat × Nat)) : M (PathCalculator pq × Dijkstra pq × Int × Int) := do
  let (c, fast) ← st.1.calcPathMulti P fg q.1 q.2
  let (d, paths) ← allPairs P dg st.2.1 q.1 q.2
  let found := foundPaths P paths
  let shortest ← minTotal P found
  match shortest with
  | none => do
    assertM fast.isNone
    let nf ← incI32 P st.2.2.2
    .ok (c, d, st.2.2.1, nf)
  | some w =>
    match fast with
    | none => .error .assertion
    | some f => do
      assertM (w == f.weight)
      let matching ← matchingPaths P f found
      assertM (decide (matching.length > 0))
      let num ← (if matching.any (fun x => x.1.nodes == f.nodes) then .ok st.2.2.1 else incI32 P st.2.2.1 : M Int)
      .ok (c, d, num, st.2.2.2)

/-- lib.rs:228-317: what one repetition of `routing_with_multiple_sources_and_targets_on_random_graph` does with its graph up to the end of
the loop; returns `num_different_paths` and `num_paths_not_found`. -/
def multiTest (P : Plat) (pq : PQ) (nq : NodeQueue) (ig : InputGraph) (queries : List (List (Nat × Nat) × List (Nat × Nat))) :
    M (Int × Int) := do
  let fg ← prepare P pq nq (defaultRelevance P) ig
  let c := createCalculator P pq fg
  let dg ← PreparationGraph.fromInputGraph P ig
  let n ← ig.getNumNodes
  let st ← forM (multiStep P fg dg) (c, Dijkstra.new P pq n, 0, 0) queries
  .ok st.2.2

/-- lib.rs:218-332: one repetition -/
def runMultiTestOnRandomGraph (P : Plat) (pq : PQ) (nq : NodeQueue) (draws : List (Nat × Nat × Nat))
    (queries : List (List (Nat × Nat) × List (Nat × Nat))) : M Unit := do
  let ig ← InputGraph.buildRandomGraph P draws 50 (F32.ofInt 2)
  let (num, nf) ← multiTest P pq nq ig queries
  if tooMany (F32.ofRat F32.one 2) nf 1000 then .error .assertion
  else if tooMany F32.tenth num 1000 then .error .assertion
  else .ok ()

/-- lib.rs:605-616, the body of the loop of `do_run_performance_test` -/
def performanceStep (P : Plat) (fg : FastGraph) (st : PathCalculator pq × Nat × Nat) (q : Nat × Nat) :
    M (PathCalculator pq × Nat × Nat) := do
  let (c, r) ← st.1.calcPath P fg q.1 q.2
  match r with
  | some p => do
    let sum ← addW P st.2.1 p.weight
    .ok (c, sum, st.2.2)
  | none => do
    let nf ← addW P st.2.2 1
    .ok (c, st.2.1, nf)

/-- lib.rs:605-616: the sum of the weights and the number of paths not found. (`num_not_found` is compared with a `usize`, so both are
`usize`.) -/
def performanceLoop (P : Plat) (fg : FastGraph) (c : PathCalculator pq) (queries : List (Nat × Nat)) :
    M (PathCalculator pq × Nat × Nat) :=
  forM (performanceStep P fg) (c, 0, 0) queries

/-- lib.rs:592-630 `do_run_performance_test` with a path calculator for a prepared graph -/
def runPerformanceTest (P : Plat) (pq : PQ) (fg : FastGraph) (queries : List (Nat × Nat)) (expectedChecksum expectedNumNotFound : Nat) :
    M Unit := do
  let (_, sum, nf) ← performanceLoop P fg (PathCalculator.new P pq fg.getNumNodes) queries
  assertM (expectedChecksum == sum)
  assertM (expectedNumNotFound == nf)

end TestSuite
end FP
