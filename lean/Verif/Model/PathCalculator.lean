import Verif.Model.ValidFlags
import Verif.Model.Heap
import Verif.Model.FastGraph
/-! # Model of src/path_calculator.rs and src/shortest_path.rs -/
namespace FP

/-- shortest_path.rs:26-31 -/
structure ShortestPath where
  source : Nat
  target : Nat
  weight : Nat
  nodes : List Nat
  deriving DecidableEq, Repr

/-- shortest_path.rs:84-86 -/
def ShortestPath.isFound (P : Plat) (p : ShortestPath) : Bool := p.weight != P.WEIGHT_MAX

/-- path_calculator.rs:378-383 `struct Data` -/
structure PData where
  settled : Bool
  weight : Nat
  parent : Nat
  incEdge : Nat
  deriving DecidableEq, Repr

/-- The fields of one search direction: `data_*`, `valid_flags_*`, `heap_*` (path_calculator.rs:34-39). -/
structure Side (pq : PQ) where
  data : List PData
  flags : ValidFlags
  heap : pq.σ

/-- path_calculator.rs:32-40; the six per-direction fields are grouped in two `Side`s. -/
structure PathCalculator (pq : PQ) where
  numNodes : Nat
  fwd : Side pq
  bwd : Side pq

variable {pq : PQ}

namespace Side

/-- path_calculator.rs:46-51, 385-394 -/
def new (P : Plat) (pq : PQ) (n : Nat) : Side pq :=
  ⟨List.replicate n ⟨false, P.WEIGHT_MAX, P.INVALID_NODE, P.INVALID_EDGE⟩, ValidFlags.new n, pq.empty⟩

/-- path_calculator.rs:83-86 -/
def clear (s : Side pq) : Side pq := { s with heap := pq.empty, flags := s.flags.invalidateAll }

/-- path_calculator.rs:337-343 `update_node_fwd`, 345-351 `update_node_bwd` -/
def updateNode (s : Side pq) (node weight parent incEdge : Nat) : M (Side pq) := do
  let f ← s.flags.setValid node
  let d ← setIdx s.data node ⟨false, weight, parent, incEdge⟩
  .ok { s with flags := f, data := d }

/-- path_calculator.rs:353-355 `is_settled_fwd`, 357-359 `is_settled_bwd` -/
def isSettled (s : Side pq) (node : Nat) : M Bool := do
  if ← s.flags.isValid node then
    let d ← idx s.data node
    .ok d.settled
  else .ok false

/-- path_calculator.rs:361-367 `get_weight_fwd`, 369-375 `get_weight_bwd` -/
def getWeight (P : Plat) (s : Side pq) (node : Nat) : M Nat := do
  if ← s.flags.isValid node then
    let d ← idx s.data node
    .ok d.weight
  else .ok P.WEIGHT_MAX

/-- path_calculator.rs:104-112 (forward) and 113-119 (backward): add one start (end) node -/
def addRoot (P : Plat) (s : Side pq) (x : Nat × Nat) : M (Side pq) := do
  let (node, weight) := x
  let w ← s.getWeight P node
  if weight < w then do
    let s ← s.updateNode node weight node P.INVALID_EDGE
    .ok { s with heap := pq.push ⟨weight, node⟩ s.heap }
  else .ok s

/-- path_calculator.rs:142-150 (with `es = edges_fwd`) and 178-186 (with `es = edges_bwd`): relax one edge -/
def relaxEdge (P : Plat) (es : List FastGraphEdge) (curr : HeapItem) (s : Side pq) (edgeId : Nat) : M (Side pq) := do
  let ed ← idx es edgeId
  let weight ← addW P curr.weight ed.weight
  let w ← s.getWeight P ed.adjNode
  if weight < w then do
    let s ← s.updateNode ed.adjNode weight curr.nodeId edgeId
    .ok { s with heap := pq.push ⟨weight, ed.adjNode⟩ s.heap }
  else .ok s

/-- path_calculator.rs:216-227 (with `es = edges_bwd`) and 233-244 (with `es = edges_fwd`): scan for a stalling edge -/
def stallScan (P : Plat) (es : List FastGraphEdge) (s : Side pq) (curr : HeapItem) : List Nat → M Bool
  | [] => .ok false
  | edgeId :: r => do
    let ed ← idx es edgeId
    let adjWeight ← s.getWeight P ed.adjNode
    if adjWeight == P.WEIGHT_MAX then stallScan P es s curr r
    else do
      let w ← addW P adjWeight ed.weight
      if w < curr.weight then .ok true else stallScan P es s curr r

end Side

namespace PathCalculator

/-- path_calculator.rs:43-53 -/
def new (P : Plat) (pq : PQ) (n : Nat) : PathCalculator pq := ⟨n, Side.new P pq n, Side.new P pq n⟩

/-- path_calculator.rs:213-228 -/
def isStallableFwd (P : Plat) (g : FastGraph) (s : Side pq) (curr : HeapItem) : M Bool := do
  let b ← g.beginInEdges curr.nodeId
  let e ← g.endInEdges curr.nodeId
  s.stallScan P g.edgesBwd curr (rangeFrom b e)

/-- path_calculator.rs:230-245 -/
def isStallableBwd (P : Plat) (g : FastGraph) (s : Side pq) (curr : HeapItem) : M Bool := do
  let b ← g.beginOutEdges curr.nodeId
  let e ← g.endOutEdges curr.nodeId
  s.stallScan P g.edgesFwd curr (rangeFrom b e)

/-- State of the main loop: calculator, `best_weight`, `meeting_node` -/
structure QS (pq : PQ) where
  fwd : Side pq
  bwd : Side pq
  best : Nat
  meet : Nat

/-- path_calculator.rs:125-159: the inner forward loop -/
def innerFwd (P : Plat) (g : FastGraph) : Nat → QS pq → M (QS pq)
  | 0, _ => .error .outOfFuel
  | fuel + 1, st =>
    match pq.pop st.fwd.heap with
    | none => .ok st
    | some (curr, heap') => do
      let st := { st with fwd := { st.fwd with heap := heap' } }
      if ← st.fwd.isSettled curr.nodeId then innerFwd P g fuel st
      else if curr.weight > st.best then .ok st
      else if ← isStallableFwd P g st.fwd curr then innerFwd P g fuel st
      else do
        let b ← g.beginOutEdges curr.nodeId
        let e ← g.endOutEdges curr.nodeId
        let s ← forM (Side.relaxEdge P g.edgesFwd curr) st.fwd (rangeFrom b e)
        let data ← modIdx s.data curr.nodeId (fun d => { d with settled := true })
        let st := { st with fwd := { s with data := data } }
        if ← st.bwd.flags.isValid curr.nodeId then do
          let wb ← st.bwd.getWeight P curr.nodeId
          let w ← addW P curr.weight wb
          if w < st.best then .ok { st with best := w, meet := curr.nodeId } else .ok st
        else .ok st

/-- path_calculator.rs:161-195: the inner backward loop -/
def innerBwd (P : Plat) (g : FastGraph) : Nat → QS pq → M (QS pq)
  | 0, _ => .error .outOfFuel
  | fuel + 1, st =>
    match pq.pop st.bwd.heap with
    | none => .ok st
    | some (curr, heap') => do
      let st := { st with bwd := { st.bwd with heap := heap' } }
      if ← st.bwd.isSettled curr.nodeId then innerBwd P g fuel st
      else if curr.weight > st.best then .ok st
      else if ← isStallableBwd P g st.bwd curr then innerBwd P g fuel st
      else do
        let b ← g.beginInEdges curr.nodeId
        let e ← g.endInEdges curr.nodeId
        let s ← forM (Side.relaxEdge P g.edgesBwd curr) st.bwd (rangeFrom b e)
        let data ← modIdx s.data curr.nodeId (fun d => { d with settled := true })
        let st := { st with bwd := { s with data := data } }
        if ← st.fwd.flags.isValid curr.nodeId then do
          let wf ← st.fwd.getWeight P curr.nodeId
          let w ← addW P curr.weight wf
          if w < st.best then .ok { st with best := w, meet := curr.nodeId } else .ok st
        else .ok st

/-- path_calculator.rs:121-196: the main loop. The inner loops only pop, so their bound is the heap size. -/
def mainLoop (P : Plat) (g : FastGraph) : Nat → QS pq → M (QS pq)
  | 0, _ => .error .outOfFuel
  | fuel + 1, st =>
    if pq.isEmpty st.fwd.heap && pq.isEmpty st.bwd.heap then .ok st
    else do
      let st ← innerFwd P g ((pq.items st.fwd.heap).length + 1) st
      let st ← innerBwd P g ((pq.items st.bwd.heap).length + 1) st
      mainLoop P g fuel st

/-- Bound on the depth of the recursion of `unpack_fwd`/`unpack_bwd`. A deeper recursion meets an edge again and does not end
(C77). -/
def unpackFuel (g : FastGraph) : Nat := g.numNodes + g.edgesFwd.length + g.edgesBwd.length + 1

mutual
/-- path_calculator.rs:269-301 -/
def unpackFwd (P : Plat) (g : FastGraph) : Nat → List Nat → Nat → Bool → M (List Nat)
  | 0, _, _, _ => .error .outOfFuel
  | fuel + 1, nodes, edgeId, reverse => do
    let ed ← idx g.edgesFwd edgeId
    if !(← ed.isShortcut P) then .ok (nodes ++ [ed.baseNode])
    else if reverse then do
      let nodes ← unpackFwd P g fuel nodes ed.replacedOutEdge reverse
      unpackBwd P g fuel nodes ed.replacedInEdge reverse
    else do
      let nodes ← unpackBwd P g fuel nodes ed.replacedInEdge reverse
      unpackFwd P g fuel nodes ed.replacedOutEdge reverse

/-- path_calculator.rs:303-335 -/
def unpackBwd (P : Plat) (g : FastGraph) : Nat → List Nat → Nat → Bool → M (List Nat)
  | 0, _, _, _ => .error .outOfFuel
  | fuel + 1, nodes, edgeId, reverse => do
    let ed ← idx g.edgesBwd edgeId
    if !(← ed.isShortcut P) then .ok (nodes ++ [ed.adjNode])
    else if reverse then do
      let nodes ← unpackFwd P g fuel nodes ed.replacedOutEdge reverse
      unpackBwd P g fuel nodes ed.replacedInEdge reverse
    else do
      let nodes ← unpackBwd P g fuel nodes ed.replacedInEdge reverse
      unpackFwd P g fuel nodes ed.replacedOutEdge reverse
end

/-- path_calculator.rs:253-256: follow the forward parents -/
def walkFwd (P : Plat) (g : FastGraph) (s : Side pq) : Nat → List Nat → Nat → M (List Nat)
  | 0, _, _ => .error .outOfFuel
  | fuel + 1, result, node => do
    let d ← idx s.data node
    if d.incEdge != P.INVALID_EDGE then do
      let result ← unpackFwd P g (unpackFuel g) result d.incEdge true
      walkFwd P g s fuel result d.parent
    else .ok result

/-- path_calculator.rs:259-266: follow the backward parents and append the last node -/
def walkBwd (P : Plat) (g : FastGraph) (s : Side pq) : Nat → List Nat → Nat → M (List Nat)
  | 0, _, _ => .error .outOfFuel
  | fuel + 1, result, node => do
    let d ← idx s.data node
    if d.incEdge != P.INVALID_EDGE then do
      let result ← unpackBwd P g (unpackFuel g) result d.incEdge false
      walkBwd P g s fuel result d.parent
    else .ok (result ++ [node])

/-- path_calculator.rs:247-267 -/
def extractNodes (P : Plat) (g : FastGraph) (fwd bwd : Side pq) (meet : Nat) : M (List Nat) := do
  assertM (meet != P.INVALID_NODE)
  assertM (← fwd.flags.isValid meet)
  assertM (← bwd.flags.isValid meet)
  let result ← walkFwd P g fwd (g.numNodes + 1) [] meet
  walkBwd P g bwd (g.numNodes + 1) result.reverse meet

/-- path_calculator.rs:92-101: one (start, end) pair; state is (`best_weight`, `meeting_node`) -/
def pairStep (P : Plat) (s : Nat × Nat) (st : Nat × Nat) (e : Nat × Nat) : M (Nat × Nat) :=
  if s.1 == e.1 && decide (s.2 < P.WEIGHT_MAX) && decide (e.2 < P.WEIGHT_MAX) then do
    let w ← addW P s.2 e.2
    if w < st.1 then .ok (w, e.1) else .ok st
  else .ok st

/-- path_calculator.rs:88-102 -/
def initialMeeting (P : Plat) (starts ends : List (Nat × Nat)) : M (Nat × Nat) :=
  forM (fun st s => forM (pairStep P s) st ends) (P.WEIGHT_MAX, P.INVALID_NODE) starts

/-- Bound on the number of main loop iterations for any value of type `FastGraph` (C77). For prepared graphs there is a smaller
bound (C17). -/
def mainFuel (g : FastGraph) (starts ends : List (Nat × Nat)) : Nat :=
  starts.length + ends.length + (g.numNodes + 1) * (g.edgesFwd.length + g.edgesBwd.length) + 1

/-- path_calculator.rs:70-82: argument checks -/
def checkArgs (c : PathCalculator pq) (g : FastGraph) (starts ends : List (Nat × Nat)) : M Unit := do
  assertM (g.getNumNodes == c.numNodes)
  assertM (!starts.isEmpty)
  assertM (!ends.isEmpty)
  assertM (starts.all (fun s => decide (s.1 < c.numNodes)))
  assertM (ends.all (fun e => decide (e.1 < c.numNodes)))

/-- path_calculator.rs:64-211 -/
def calcPathMulti (P : Plat) (c : PathCalculator pq) (g : FastGraph) (starts ends : List (Nat × Nat)) :
    M (PathCalculator pq × Option ShortestPath) := do
  checkArgs c g starts ends
  let fwd := c.fwd.clear
  let bwd := c.bwd.clear
  let (best, meet) ← initialMeeting P starts ends
  let fwd ← forM (Side.addRoot P) fwd starts
  let bwd ← forM (Side.addRoot P) bwd ends
  let st ← mainLoop P g (mainFuel g starts ends) ⟨fwd, bwd, best, meet⟩
  let c' : PathCalculator pq := { c with fwd := st.fwd, bwd := st.bwd }
  if st.meet == P.INVALID_NODE then .ok (c', none)
  else do
    assertM (decide (st.best < P.WEIGHT_MAX))
    let nodes ← extractNodes P g st.fwd st.bwd st.meet
    assertM (!nodes.isEmpty)
    let first ← idx nodes 0
    let last ← idx nodes (nodes.length - 1)
    .ok (c', some ⟨first, last, st.best, nodes⟩)

/-- path_calculator.rs:55-62 -/
def calcPath (P : Plat) (c : PathCalculator pq) (g : FastGraph) (start end_ : Nat) :
    M (PathCalculator pq × Option ShortestPath) :=
  calcPathMulti P c g [(start, 0)] [(end_, 0)]

end PathCalculator
end FP
