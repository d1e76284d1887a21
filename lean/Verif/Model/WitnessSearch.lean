import Verif.Model.ValidFlags
import Verif.Model.Heap
import Verif.Model.PreparationGraph
/-! # Model of src/witness_search.rs -/
namespace FP

/-- witness_search.rs:171-174 `struct Data` -/
structure WData where
  settled : Bool
  weight : Nat
  deriving DecidableEq, Repr

/-- witness_search.rs:28-36 -/
structure WitnessSearch (pq : PQ) where
  numNodes : Nat
  data : List WData
  validFlags : ValidFlags
  heap : pq.σ
  startNode : Nat
  avoidNode : Nat
  settledNodes : Nat

namespace WitnessSearch
variable {pq : PQ}

/-- witness_search.rs:39-50, 176-184 -/
def new (P : Plat) (pq : PQ) (numNodes : Nat) : WitnessSearch pq where
  numNodes := numNodes
  data := List.replicate numNodes ⟨false, P.WEIGHT_MAX⟩
  validFlags := ValidFlags.new numNodes
  heap := pq.empty
  startNode := P.INVALID_NODE
  avoidNode := P.INVALID_NODE
  settledNodes := 0

/-- witness_search.rs:152-156 -/
def updateNode (ws : WitnessSearch pq) (node weight : Nat) : M (WitnessSearch pq) := do
  let vf ← ws.validFlags.setValid node
  let data ← setIdx ws.data node ⟨false, weight⟩
  .ok { ws with validFlags := vf, data := data }

/-- witness_search.rs:158-160 -/
def isSettled (ws : WitnessSearch pq) (node : Nat) : M Bool := do
  if ← ws.validFlags.isValid node then
    let d ← idx ws.data node
    .ok d.settled
  else .ok false

/-- witness_search.rs:162-168 -/
def getCurrentWeight (P : Plat) (ws : WitnessSearch pq) (node : Nat) : M Nat := do
  if ← ws.validFlags.isValid node then
    let d ← idx ws.data node
    .ok d.weight
  else .ok P.WEIGHT_MAX

/-- witness_search.rs:54-68 -/
def init (P : Plat) (ws : WitnessSearch pq) (start avoidNode : Nat) : M (WitnessSearch pq) := do
  assertM (start != P.INVALID_NODE)
  assertM (start != avoidNode)
  let ws := { ws with startNode := start, avoidNode := avoidNode,
                      heap := pq.empty, validFlags := ws.validFlags.invalidateAll }
  let ws ← ws.updateNode start 0
  .ok { ws with heap := pq.push ⟨0, start⟩ ws.heap, settledNodes := 0 }

/-- witness_search.rs:128-142: body of the loop over the out-arcs of the node being settled. State: search and
`found_target`. -/
def relaxArc (P : Plat) (curr : HeapItem) (target weightLimit : Nat)
    (st : WitnessSearch pq × Bool) (a : Arc) : M (WitnessSearch pq × Bool) := do
  let (ws, found) := st
  if a.adj == ws.avoidNode then .ok (ws, found)
  else do
    let weight ← addW P curr.weight a.weight
    let cw ← ws.getCurrentWeight P a.adj
    if weight < cw then do
      let ws ← ws.updateNode a.adj weight
      let ws := { ws with heap := pq.push ⟨weight, a.adj⟩ ws.heap }
      .ok (ws, if a.adj == target && decide (weight ≤ weightLimit) then true else found)
    else .ok (ws, found)

/-- witness_search.rs:113-148, the `while` loop. -/
def findLoop (P : Plat) (graph : PreparationGraph) (target weightLimit settledLimit : Nat) :
    Nat → WitnessSearch pq → M (WitnessSearch pq)
  | 0, _ => .error .outOfFuel
  | fuel + 1, ws =>
    match pq.pop ws.heap with
    | none => .ok ws
    | some (curr, heap') =>
      if ws.settledNodes ≥ settledLimit then .ok ws
      else if curr.weight > weightLimit then .ok ws
      else do
        let ws := { ws with heap := heap' }
        if ← ws.isSettled curr.nodeId then findLoop P graph target weightLimit settledLimit fuel ws
        else do
          let outs ← idx graph.outEdges curr.nodeId
          let (ws, found) ← forM (relaxArc P curr target weightLimit) (ws, false) outs
          let data ← modIdx ws.data curr.nodeId (fun d => { d with settled := true })
          let ws := { ws with data := data, settledNodes := ws.settledNodes + 1 }
          if found || curr.nodeId == target then .ok ws
          else findLoop P graph target weightLimit settledLimit fuel ws

/-- Bound on the number of loop iterations: items in the heap plus all arcs of the graph. -/
def fuelFor (ws : WitnessSearch pq) (graph : PreparationGraph) : Nat :=
  (pq.items ws.heap).length + (graph.outEdges.map List.length).sum + 1

/-- witness_search.rs:85-150 -/
def findMaxWeight (P : Plat) (ws : WitnessSearch pq) (graph : PreparationGraph)
    (target weightLimit settledLimit : Nat) : M (WitnessSearch pq × Nat) := do
  assertM (graph.numNodes == ws.numNodes)
  assertM (ws.startNode != P.INVALID_NODE)
  assertM (ws.startNode != ws.avoidNode && target != ws.avoidNode)
  if target == ws.startNode then .ok (ws, WEIGHT_ZERO)
  else do
    let valid ← ws.validFlags.isValid target
    let early ← (if valid then do
        let d ← idx ws.data target
        .ok (if d.settled || decide (d.weight ≤ weightLimit) then some d.weight else none)
      else .ok none : M (Option Nat))
    match early with
    | some w => .ok (ws, w)
    | none => do
      let ws ← findLoop P graph target weightLimit settledLimit (ws.fuelFor graph) ws
      let w ← ws.getCurrentWeight P target
      .ok (ws, w)

end WitnessSearch
end FP
