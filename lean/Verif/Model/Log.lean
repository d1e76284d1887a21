import Verif.Model.Unwind
/-! # What is logged

The models of `InputGraph` and of the builder leave the `warn!` and `debug!` calls out. Here are the same functions with the
messages they write, as computations whose state is the list of the messages written so far; a panic keeps them. Messages are
values: their text is fixed by the format strings cited below. A logger that shows only part of the levels shows a part of
this list. -/
namespace FP

/-- A message. -/
inductive Msg where
  /-- input_graph.rs:191-194 "Loop edges are not allowed. Skipped edge! from: {}, to: {}, weight: {}" -/
  | loopEdge (src dst weight : Nat)
  /-- input_graph.rs:198-201 "Zero weight edges are not allowed. Skipped edge! from: {}, to: {}, weight: {}" -/
  | zeroWeight (src dst weight : Nat)
  /-- input_graph.rs:163-166 "There were {} duplicate edges, only the ones with lowest weight were kept" -/
  | duplicates (count : Nat)
  /-- fast_graph_builder.rs:149-155 and 202-208 "contracted node {} / {}, num edges fwd: {}, num edges bwd: {}" -/
  | contracted (number total fwd bwd : Nat)
  deriving DecidableEq, Repr

/-- A computation that logs. -/
abbrev Logs (α : Type) : Type := U (List Msg) α

/-- `warn!`, `debug!` -/
def say (m : Msg) : Logs Unit := U.write (· ++ [m])

/-- `for x in xs { s = f(s, x) }` -/
def forL {σ α : Type} (f : σ → α → Logs σ) : σ → List α → Logs σ
  | s, [] => pure s
  | s, a :: as => do
    let s ← f s a
    forL f s as

namespace InputGraph

/-- input_graph.rs:186-214 `do_add_edge` -/
def doAddEdgeL (P : Plat) (g : InputGraph) (src dst weight : Nat) (bidir : Bool) : Logs (InputGraph × Nat) :=
  if g.frozen then U.lift (.error .assertion)
  else if src == dst then do
    say (.loopEdge src dst weight)
    pure (g, 0)
  else if weight < 1 then do
    say (.zeroWeight src dst weight)
    pure (g, 0)
  else do
    let m ← U.lift (addW P (max src dst) 1)
    let edges := g.edges ++ [⟨src, dst, weight⟩]
    let edges := if bidir then edges ++ [⟨dst, src, weight⟩] else edges
    pure ({ g with numNodes := max g.numNodes m, edges := edges }, if bidir then 2 else 1)

/-- input_graph.rs:136-143 `freeze` and 158-168 `remove_duplicate_edges`. `dedup_by` never makes a vector longer, so the
subtraction in the message cannot overflow. -/
def freezeL (g : InputGraph) : Logs InputGraph :=
  if g.frozen then U.lift (.error .assertion)
  else do
    let sorted := sortEdges g.edges
    let kept := removeDuplicateEdges sorted
    if sorted.length != kept.length then say (.duplicates (sorted.length - kept.length))
    pure { g with edges := kept, frozen := true }

end InputGraph

/-- input_graph.rs:113-119 (`add_edge`, `add_edge_bidir`), 136-147 (`freeze`, `thaw`) -/
def Spec.Op.runL (P : Plat) (g : InputGraph) : Spec.Op → Logs InputGraph
  | .addEdge s d w => do
    let (g, _) ← g.doAddEdgeL P s d w false
    pure g
  | .addEdgeBidir s d w => do
    let (g, _) ← g.doAddEdgeL P s d w true
    pure g
  | .freeze => g.freezeL
  | .thaw => pure g.thaw

/-- `InputGraph::new()` (input_graph.rs:43-49) followed by any sequence of calls. -/
def buildGraphL (P : Plat) (ops : List Spec.Op) : Logs InputGraph := forL (fun g op => op.runL P g) InputGraph.new ops

variable {pq : PQ} {nq : NodeQueue}

/-- fast_graph_builder.rs:169-209: loop body of `run_contraction_with_order`. (`rank + 1` is at most the number of nodes.) -/
def orderStepL (P : Plat) (n maxSettled : Nat) (st : BState pq) (x : Nat × Nat) : Logs (BState pq) := do
  let (node, rank) := x
  if node ≥ n then U.lift (.error .assertion)
  else do
    let st ← U.lift (recordAndContract P maxSettled st rank node)
    say (.contracted (rank + 1) n st.fg.getNumOutEdges st.fg.getNumInEdges)
    pure st

/-- fast_graph_builder.rs:161-211 (and 79) -/
def runContractionWithOrderL (P : Plat) (pq : PQ) (ig : InputGraph) (n : Nat) (order : List Nat) (maxSettled : Nat) :
    Logs FastGraph := do
  let fg ← U.lift (FastGraph.new P n)
  let pg ← U.lift (PreparationGraph.fromInputGraph P ig)
  let st ← forL (orderStepL P n maxSettled) ⟨pg, WitnessSearch.new P pq n, fg⟩ order.zipIdx
  U.lift (finishContraction P n st.fg)

/-- fast_graph_builder.rs:69-82 and lib.rs:72-78 -/
def prepareWithOrderWithParamsL (P : Plat) (pq : PQ) (ig : InputGraph) (order : List Nat) (maxSettled : Nat) :
    Logs (Except String FastGraph) := do
  let n ← U.lift ig.getNumNodes
  if n != order.length then pure (.error "The given order must have as many nodes as the input graph")
  else do
    let fg ← runContractionWithOrderL P pq ig n order maxSettled
    pure (.ok fg)

/-- fast_graph_builder.rs:101-157: the `while !queue.is_empty()` loop -/
def contractionLoopL (P : Plat) (n : Nat) (params : Params) : Nat → Nat → QState pq nq → Logs (QState pq nq)
  | 0, _, _ => U.lift (.error .outOfFuel)
  | fuel + 1, rank, st =>
    match nq.pop st.queue with
    | none => pure st
    | some (node, queue) => do
      let outs ← U.lift (idx st.b.pg.outEdges node)
      let ins ← U.lift (idx st.b.pg.inEdges node)
      let neighbors := neighborSet outs ins
      let b ← U.lift (recordAndContract P params.maxSettledContraction st.b rank node)
      let st ← U.lift (forM (updateNeighbor P params node) { st with b := b, queue := queue } neighbors)
      say (.contracted (rank + 1) n st.b.fg.getNumOutEdges st.b.fg.getNumInEdges)
      contractionLoopL P n params fuel (rank + 1) st

/-- fast_graph_builder.rs:84-159 (and 53) -/
def runContractionL (P : Plat) (pq : PQ) (nq : NodeQueue) (ig : InputGraph) (n : Nat) (params : Params) : Logs FastGraph := do
  let fg ← U.lift (FastGraph.new P n)
  let pg ← U.lift (PreparationGraph.fromInputGraph P ig)
  let st : QState pq nq := ⟨⟨pg, WitnessSearch.new P pq n, fg⟩, List.replicate n 0, nq.empty⟩
  let st ← U.lift (forM (initialPriority P params) st (List.range n))
  let st ← contractionLoopL P n params (n + 1) 0 st
  U.lift (finishContraction P n st.b.fg)

/-- fast_graph_builder.rs:52-56 and lib.rs:59-61 -/
def prepareWithParamsL (P : Plat) (pq : PQ) (nq : NodeQueue) (ig : InputGraph) (params : Params) : Logs FastGraph := do
  let n ← U.lift ig.getNumNodes
  runContractionL P pq nq ig n params

end FP
