import Verif.Model.ValidFlags
import Verif.Model.Heap
import Verif.Model.PreparationGraph
import Verif.Model.PathCalculator
/-! # Model of src/dijkstra.rs (the reference used by the tests) and of `ShortestPath::eq` -/
namespace FP

/-- shortest_path.rs:34-39 `PartialEq`: the node lists are not compared -/
def ShortestPath.eqv (p q : ShortestPath) : Bool :=
  p.source == q.source && p.target == q.target && p.weight == q.weight

/-- dijkstra.rs:146-150 `struct Data` -/
structure DData where
  settled : Bool
  weight : Nat
  parent : Nat
  deriving DecidableEq, Repr

/-- dijkstra.rs:29-34 -/
structure Dijkstra (pq : PQ) where
  numNodes : Nat
  data : List DData
  validFlags : ValidFlags
  heap : pq.σ

namespace Dijkstra
variable {pq : PQ}

/-- dijkstra.rs:41-49, 152-161 -/
def new (P : Plat) (pq : PQ) (numNodes : Nat) : Dijkstra pq where
  numNodes := numNodes
  data := List.replicate numNodes ⟨false, P.WEIGHT_MAX, P.INVALID_NODE⟩
  validFlags := ValidFlags.new numNodes
  heap := pq.empty

/-- dijkstra.rs:126-131 -/
def updateNode (d : Dijkstra pq) (node weight parent : Nat) : M (Dijkstra pq) := do
  let vf ← d.validFlags.setValid node
  let data ← setIdx d.data node ⟨false, weight, parent⟩
  .ok { d with validFlags := vf, data := data }

/-- dijkstra.rs:133-135 -/
def isSettled (d : Dijkstra pq) (node : Nat) : M Bool := do
  if ← d.validFlags.isValid node then
    let x ← idx d.data node
    .ok x.settled
  else .ok false

/-- dijkstra.rs:137-143 -/
def getWeight (P : Plat) (d : Dijkstra pq) (node : Nat) : M Nat := do
  if ← d.validFlags.isValid node then
    let x ← idx d.data node
    .ok x.weight
  else .ok P.WEIGHT_MAX

/-- dijkstra.rs:63-68 -/
def init (P : Plat) (d : Dijkstra pq) (start : Nat) : M (Dijkstra pq) := do
  let d := { d with heap := pq.empty, validFlags := d.validFlags.invalidateAll }
  let d ← d.updateNode start 0 P.INVALID_NODE
  .ok { d with heap := pq.push ⟨0, start⟩ d.heap }

/-- dijkstra.rs:89-97: body of the loop over the out-arcs of the node being settled -/
def relaxArc (P : Plat) (curr : HeapItem) (d : Dijkstra pq) (a : Arc) : M (Dijkstra pq) := do
  let weight ← addW P curr.weight a.weight
  let w ← d.getWeight P a.adj
  if weight < w then do
    let d ← d.updateNode a.adj weight curr.nodeId
    .ok { d with heap := pq.push ⟨weight, a.adj⟩ d.heap }
  else .ok d

/-- dijkstra.rs:82-102, the `while` loop -/
def loop (P : Plat) (graph : PreparationGraph) (target : Nat) : Nat → Dijkstra pq → M (Dijkstra pq)
  | 0, _ => .error .outOfFuel
  | fuel + 1, d =>
    match pq.pop d.heap with
    | none => .ok d
    | some (curr, heap') => do
      let d := { d with heap := heap' }
      if ← d.isSettled curr.nodeId then loop P graph target fuel d
      else do
        let outs ← idx graph.outEdges curr.nodeId
        let d ← forM (relaxArc P curr) d outs
        let data ← modIdx d.data curr.nodeId (fun x => { x with settled := true })
        let d := { d with data := data }
        if curr.nodeId == target then .ok d else loop P graph target fuel d

/-- Bound on the number of loop iterations: items in the heap plus all arcs of the graph. -/
def fuelFor (d : Dijkstra pq) (graph : PreparationGraph) : Nat :=
  (pq.items d.heap).length + (graph.outEdges.map List.length).sum + 1

/-- dijkstra.rs:70-103 -/
def doCalcPath (P : Plat) (d : Dijkstra pq) (graph : PreparationGraph) (start target : Nat) : M (Dijkstra pq) := do
  assertM (graph.numNodes == d.numNodes)
  if start == target then .ok d
  else if ← d.isSettled target then .ok d
  else loop P graph target (d.fuelFor graph) d

/-- dijkstra.rs:114-117, the `while` loop of `build_path`; `path` is pushed to at its end -/
def buildLoop (P : Plat) (d : Dijkstra pq) : Nat → Nat → List Nat → M (List Nat)
  | 0, _, _ => .error .outOfFuel
  | fuel + 1, node, path => do
    let x ← idx d.data node
    if x.parent != P.INVALID_NODE then buildLoop P d fuel x.parent (path ++ [node])
    else .ok path

/-- dijkstra.rs:105-124. The loop bound is more than the label of the target (labels decrease along the parents) and more than the number of
nodes (so if it is not enough, the parents form a cycle). -/
def buildPath (P : Plat) (d : Dijkstra pq) (start target : Nat) : M (Option ShortestPath) := do
  if start == target then .ok (some ⟨start, start, WEIGHT_ZERO, [start]⟩)
  else do
    let settled ← d.isSettled target
    if !settled then .ok none
    else do
      let x ← idx d.data target
      let path ← buildLoop P d (x.weight + d.data.length + 1) target []
      .ok (some ⟨start, target, x.weight, (path ++ [start]).reverse⟩)

/-- dijkstra.rs:52-61 -/
def calcPath (P : Plat) (d : Dijkstra pq) (graph : PreparationGraph) (start target : Nat) :
    M (Dijkstra pq × Option ShortestPath) := do
  let d ← d.init P start
  let d ← d.doCalcPath P graph start target
  let r ← d.buildPath P start target
  .ok (d, r)

/-- Several queries on one object, as the tests do. -/
def runQueries (P : Plat) (d : Dijkstra pq) : List (PreparationGraph × Nat × Nat) → M (Dijkstra pq)
  | [] => .ok d
  | (g, s, t) :: r => do
    let (d, _) ← d.calcPath P g s t
    runQueries P d r

end Dijkstra
end FP
