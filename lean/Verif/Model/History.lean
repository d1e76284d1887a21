import Verif.Spec
import Verif.Model.Lib
/-! # Client programs: sequences of API calls -/
namespace FP
open Spec

/-- Run one call on an `InputGraph`: input_graph.rs:113-119 (`add_edge`, `add_edge_bidir`), 136-147 (`freeze`, `thaw`).
The returned counts are dropped here; `InputGraph.addEdge` has them. -/
def Spec.Op.run (P : Plat) (g : InputGraph) : Op → M InputGraph
  | .addEdge s d w => do
    let (g, _) ← g.addEdge P s d w
    .ok g
  | .addEdgeBidir s d w => do
    let (g, _) ← g.addEdgeBidir P s d w
    .ok g
  | .freeze => g.freeze
  | .thaw => .ok g.thaw

/-- A client building a graph: `InputGraph::new()` (input_graph.rs:43-49) followed by any sequence of calls. -/
def buildGraph (P : Plat) (ops : List Op) : M InputGraph := forM (fun g op => op.run P g) InputGraph.new ops

/-- `fg` is what one of the four preparation functions (lib.rs:54-78) returned for the input graph `ig`; whatever
heaps, parameters and relevance formula were used, and for the last two any order that is a permutation. -/
inductive Prepared (P : Plat) (ig : InputGraph) (fg : FastGraph) : Prop where
  | default (pq : PQ) (nq : NodeQueue) (relevance : Nat → Int → Nat → Nat)
      (h : prepare P pq nq relevance ig = .ok fg)
  | params (pq : PQ) (nq : NodeQueue) (params : Params) (h : prepareWithParams P pq nq ig params = .ok fg)
  | order (pq : PQ) (order : List Nat) (perm : order.Perm (List.range ig.numNodes))
      (h : prepareWithOrder P pq ig order = .ok (.ok fg))
  | orderParams (pq : PQ) (order : List Nat) (maxSettled : Nat) (perm : order.Perm (List.range ig.numNodes))
      (h : prepareWithOrderWithParams P pq ig order maxSettled = .ok (.ok fg))

/-- A client built a graph by the calls `ops`, the last state of which is frozen, and prepared it. -/
structure Client (P : Plat) (ops : List Op) (ig : InputGraph) (fg : FastGraph) : Prop where
  built : buildGraph P ops = .ok ig
  frozen : ig.frozen = true
  prepared : Prepared P ig fg

/-- One query of a client: the graph it passes and the two lists. -/
structure Request where
  graph : FastGraph
  sources : List (Nat × Nat)
  targets : List (Nat × Nat)

/-- Run a list of queries on one calculator (`create_calculator`, lib.rs:104-106, then path_calculator.rs:64-211 for
each), returning the calculator afterwards. -/
def runRequests (P : Plat) {pq : PQ} (c : PathCalculator pq) (qs : List Request) : M (PathCalculator pq) :=
  forM (fun c q => do
    let (c, _) ← c.calcPathMulti P q.graph q.sources q.targets
    .ok c) c qs

end FP
