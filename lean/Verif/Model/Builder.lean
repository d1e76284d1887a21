import Verif.Model.NodeContractor
import Verif.Model.FastGraph
/-! # Model of src/fast_graph_builder.rs -/
namespace FP

variable {pq : PQ}

/-- fast_graph_builder.rs:271-298 `struct Params`. The two `f32` factors only occur in the relevance formula
(node_contractor.rs:57-59) and are represented by that formula as an arbitrary function of level, number of shortcuts and
number of edges. -/
structure Params where
  relevance : Nat → Int → Nat → Nat
  maxSettledInitialRelevance : Nat
  maxSettledNeighborRelevance : Nat
  maxSettledContraction : Nat

/-- fast_graph_builder.rs:316-318 `Params::default` (the relevance function stays a parameter) -/
def Params.default (relevance : Nat → Int → Nat → Nat) : Params := ⟨relevance, 500, 100, 500⟩

/-- fast_graph_builder.rs:337-339 `ParamsWithOrder::default` -/
def paramsWithOrderDefault : Nat := 100

/-- fast_graph_builder.rs:106-115 and 173-181: push the out-arcs of `node` as forward edges, the center node temporarily
stored in `replaced_in_edge`. -/
def pushArcs (P : Plat) (node : Nat) (es : List FastGraphEdge) (arcs : List Arc) : M (List FastGraphEdge) :=
  forM (fun es (a : Arc) => vecPush P es ⟨node, a.adj, a.weight, a.center, P.INVALID_EDGE⟩) es arcs

/-- fast_graph_builder.rs:106-130 and 173-195: record the current arcs of `node` in the fast graph and set its rank.
(The construction of `neighbors` in 106-119 is `neighborSet` below.) -/
def recordNode (P : Plat) (fg : FastGraph) (pg : PreparationGraph) (rank node : Nat) : M FastGraph := do
  let outs ← idx pg.outEdges node
  let ef ← pushArcs P node fg.edgesFwd outs
  let ff ← setIdx fg.firstEdgeIdsFwd (rank + 1) ef.length
  let ins ← idx pg.inEdges node
  let eb ← pushArcs P node fg.edgesBwd ins
  let fb ← setIdx fg.firstEdgeIdsBwd (rank + 1) eb.length
  let ranks ← setIdx fg.ranks node rank
  .ok { fg with edgesFwd := ef, firstEdgeIdsFwd := ff, edgesBwd := eb, firstEdgeIdsBwd := fb, ranks := ranks }

/-- fast_graph_builder.rs:252-259: scan `begin..end` of the out-edges of `node` for `adj` -/
def findEdgeId (es : List FastGraphEdge) (adj : Nat) : List Nat → M Nat
  | [] => .error .assertion
  | e :: r => do
    let ed ← idx es e
    if ed.adjNode == adj then .ok e else findEdgeId es adj r

/-- fast_graph_builder.rs:252-259 -/
def getOutEdgeId (fg : FastGraph) (node adj : Nat) : M Nat := do
  let b ← fg.beginOutEdges node
  let e ← fg.endOutEdges node
  findEdgeId fg.edgesFwd adj (rangeFrom b e)

/-- fast_graph_builder.rs:261-268 -/
def getInEdgeId (fg : FastGraph) (node adj : Nat) : M Nat := do
  let b ← fg.beginInEdges node
  let e ← fg.endInEdges node
  findEdgeId fg.edgesBwd adj (rangeFrom b e)

/-- fast_graph_builder.rs:215-230: one forward edge of node `i` -/
def finishFwdEdge (P : Plat) (i : Nat) (fg : FastGraph) (edgeId : Nat) : M FastGraph := do
  let ed ← idx fg.edgesFwd edgeId
  let c := ed.replacedInEdge
  if c == P.INVALID_NODE then do
    debugAssertM P (P.INVALID_EDGE == ed.replacedOutEdge)
    .ok { fg with edgesFwd := fg.edgesFwd.set edgeId { ed with replacedInEdge := P.INVALID_EDGE } }
  else do
    let ei ← getInEdgeId fg c i
    let eo ← getOutEdgeId fg c ed.adjNode
    .ok { fg with edgesFwd := fg.edgesFwd.set edgeId { ed with replacedInEdge := ei, replacedOutEdge := eo } }

/-- fast_graph_builder.rs:234-248: one backward edge of node `i` -/
def finishBwdEdge (P : Plat) (i : Nat) (fg : FastGraph) (edgeId : Nat) : M FastGraph := do
  let ed ← idx fg.edgesBwd edgeId
  let c := ed.replacedInEdge
  if c == P.INVALID_NODE then do
    debugAssertM P (P.INVALID_EDGE == ed.replacedOutEdge)
    .ok { fg with edgesBwd := fg.edgesBwd.set edgeId { ed with replacedInEdge := P.INVALID_EDGE } }
  else do
    let ei ← getInEdgeId fg c ed.adjNode
    let eo ← getOutEdgeId fg c i
    .ok { fg with edgesBwd := fg.edgesBwd.set edgeId { ed with replacedInEdge := ei, replacedOutEdge := eo } }

/-- fast_graph_builder.rs:214-231: the edges of node `i` -/
def finishFwdNode (P : Plat) (fg : FastGraph) (i : Nat) : M FastGraph := do
  let b ← fg.beginOutEdges i
  let e ← fg.endOutEdges i
  forM (finishFwdEdge P i) fg (rangeFrom b e)

/-- fast_graph_builder.rs:233-249: the edges of node `i` -/
def finishBwdNode (P : Plat) (fg : FastGraph) (i : Nat) : M FastGraph := do
  let b ← fg.beginInEdges i
  let e ← fg.endInEdges i
  forM (finishBwdEdge P i) fg (rangeFrom b e)

/-- fast_graph_builder.rs:213-250 -/
def finishContraction (P : Plat) (n : Nat) (fg : FastGraph) : M FastGraph := do
  let fg ← forM (finishFwdNode P) fg (List.range n)
  forM (finishBwdNode P) fg (List.range n)

/-- State of the contraction loops -/
structure BState (pq : PQ) where
  pg : PreparationGraph
  ws : WitnessSearch pq
  fg : FastGraph

/-- fast_graph_builder.rs:106-136 / 173-201: record and contract one node -/
def recordAndContract (P : Plat) (maxSettled : Nat) (st : BState pq) (rank node : Nat) : M (BState pq) := do
  let fg ← recordNode P st.fg st.pg rank node
  let (pg, ws) ← contractNode P st.pg st.ws node maxSettled
  .ok ⟨pg, ws, fg⟩

/-- fast_graph_builder.rs:169-209: loop body of `run_contraction_with_order` -/
def orderStep (P : Plat) (n maxSettled : Nat) (st : BState pq) (x : Nat × Nat) : M (BState pq) := do
  let (node, rank) := x
  if node ≥ n then .error .assertion
  else recordAndContract P maxSettled st rank node

/-- fast_graph_builder.rs:161-211 (and 79: `FastGraphBuilder::new`, 41-46) -/
def runContractionWithOrder (P : Plat) (pq : PQ) (ig : InputGraph) (n : Nat) (order : List Nat) (maxSettled : Nat) :
    M FastGraph := do
  let fg ← FastGraph.new P n
  let pg ← PreparationGraph.fromInputGraph P ig
  let st ← forM (orderStep P n maxSettled) ⟨pg, WitnessSearch.new P pq n, fg⟩ order.zipIdx
  finishContraction P n st.fg

/-- fast_graph_builder.rs:69-82, `Except String`: `.error` stands for the returned `Err`. -/
def buildWithOrderWithParams (P : Plat) (pq : PQ) (ig : InputGraph) (order : List Nat) (maxSettled : Nat) :
    M (Except String FastGraph) := do
  let n ← ig.getNumNodes
  if n != order.length then .ok (.error "The given order must have as many nodes as the input graph")
  else do
    let fg ← runContractionWithOrder P pq ig n order maxSettled
    .ok (.ok fg)

/-- `BTreeSet::insert` -/
def btreeInsert (k : Nat) : List Nat → List Nat
  | [] => [k]
  | x :: xs => if k < x then k :: x :: xs else if k == x then x :: xs else x :: btreeInsert k xs

/-- fast_graph_builder.rs:105-119: the set of neighbors, iterated in ascending order -/
def neighborSet (outs ins : List Arc) : List Nat :=
  ins.foldl (fun s a => btreeInsert a.adj s) (outs.foldl (fun s a => btreeInsert a.adj s) [])

/-- State of the loop of `run_contraction` -/
structure QState (pq : PQ) (nq : NodeQueue) where
  b : BState pq
  levels : List Nat
  queue : nq.σ

variable {nq : NodeQueue}

/-- fast_graph_builder.rs:89-99: initial priority of one node -/
def initialPriority (P : Plat) (params : Params) (st : QState pq nq) (node : Nat) : M (QState pq nq) := do
  let (pg, ws, p) ← calcRelevance P params.relevance st.b.pg st.b.ws node 0 params.maxSettledInitialRelevance
  .ok { st with b := { st.b with pg := pg, ws := ws }, queue := nq.push node p st.queue }

/-- fast_graph_builder.rs:137-148: update of one neighbor -/
def updateNeighbor (P : Plat) (params : Params) (node : Nat) (st : QState pq nq) (neighbor : Nat) :
    M (QState pq nq) := do
  let ln ← idx st.levels neighbor
  let lv ← idx st.levels node
  let lv1 ← addW P lv 1
  let levels ← setIdx st.levels neighbor (max ln lv1)
  let l ← idx levels neighbor
  let (pg, ws, p) ← calcRelevance P params.relevance st.b.pg st.b.ws neighbor l params.maxSettledNeighborRelevance
  .ok { b := { st.b with pg := pg, ws := ws }, levels := levels, queue := nq.change neighbor p st.queue }

/-- fast_graph_builder.rs:101-157: the `while !queue.is_empty()` loop -/
def contractionLoop (P : Plat) (params : Params) : Nat → Nat → QState pq nq → M (QState pq nq)
  | 0, _, _ => .error .outOfFuel
  | fuel + 1, rank, st =>
    match nq.pop st.queue with
    | none => .ok st
    | some (node, queue) => do
      let outs ← idx st.b.pg.outEdges node
      let ins ← idx st.b.pg.inEdges node
      let neighbors := neighborSet outs ins
      let b ← recordAndContract P params.maxSettledContraction st.b rank node
      let st ← forM (updateNeighbor P params node) { st with b := b, queue := queue } neighbors
      contractionLoop P params fuel (rank + 1) st

/-- fast_graph_builder.rs:84-159 (and 53: `FastGraphBuilder::new`, 41-46) -/
def runContraction (P : Plat) (pq : PQ) (nq : NodeQueue) (ig : InputGraph) (n : Nat) (params : Params) :
    M FastGraph := do
  let fg ← FastGraph.new P n
  let pg ← PreparationGraph.fromInputGraph P ig
  let st : QState pq nq := ⟨⟨pg, WitnessSearch.new P pq n, fg⟩, List.replicate n 0, nq.empty⟩
  let st ← forM (initialPriority P params) st (List.range n)
  let st ← contractionLoop P params (n + 1) 0 st
  finishContraction P n st.b.fg

/-- fast_graph_builder.rs:52-56 -/
def buildWithParams (P : Plat) (pq : PQ) (nq : NodeQueue) (ig : InputGraph) (params : Params) : M FastGraph := do
  let n ← ig.getNumNodes
  runContraction P pq nq ig n params

end FP
