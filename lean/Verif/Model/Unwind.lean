import Verif.Model.History
/-! # Calls that panic: the state they leave behind

`M` (`Verif.Model.Base`) forgets the state when a call panics. Rust does not: `calc_path` has a `&mut self`, and if the
panic is caught (`catch_unwind`, or the thread that owned the value is joined) the caller still has the calculator with
everything that was written to it before the panic. This file models the functions with a `&mut self` that client code
can call once more: `PathCalculator` (path_calculator.rs:55-211) and `InputGraph` (input_graph.rs:113-147). Every
assignment of the code is one write; a panic keeps all writes made before it. -/
namespace FP

/-- A computation with a mutable state that may panic; the state is there in both cases. -/
def U (σ α : Type) : Type := σ → Except Panic α × σ

namespace U
variable {σ α β : Type}

instance : Monad (U σ) where
  pure a := fun s => (.ok a, s)
  bind m k := fun s => match m s with
    | (.ok a, s') => k a s'
    | (.error e, s') => (.error e, s')

/-- a part of the code that only reads the state -/
def read (f : σ → M α) : U σ α := fun s => (f s, s)

/-- a part of the code that does not use the state -/
def lift (m : M α) : U σ α := fun s => (m, s)

/-- an assignment that cannot panic -/
def write (f : σ → σ) : U σ Unit := fun s => (.ok (), f s)

/-- one assignment; if it panics (index out of bounds) nothing is assigned -/
def tryWrite (f : σ → M σ) : U σ Unit := fun s => match f s with
  | .ok s' => (.ok (), s')
  | .error e => (.error e, s)

/-- `for x in xs { … }` -/
def each (f : β → U σ Unit) : List β → U σ Unit
  | [] => pure ()
  | b :: r => do
    f b
    each f r

end U

variable {pq : PQ}

namespace Side

/-- path_calculator.rs:337-343 `update_node_fwd`, 345-351 `update_node_bwd`: five assignments -/
def updateNodeU (node weight parent incEdge : Nat) : U (Side pq) Unit := do
  U.tryWrite (fun s => do
    let f ← s.flags.setValid node
    .ok { s with flags := f })
  U.tryWrite (fun s => do
    let d ← modIdx s.data node (fun d => { d with settled := false })
    .ok { s with data := d })
  U.tryWrite (fun s => do
    let d ← modIdx s.data node (fun d => { d with weight := weight })
    .ok { s with data := d })
  U.tryWrite (fun s => do
    let d ← modIdx s.data node (fun d => { d with parent := parent })
    .ok { s with data := d })
  U.tryWrite (fun s => do
    let d ← modIdx s.data node (fun d => { d with incEdge := incEdge })
    .ok { s with data := d })

/-- path_calculator.rs:104-112 (forward) and 113-119 (backward) -/
def addRootU (P : Plat) (x : Nat × Nat) : U (Side pq) Unit := do
  let w ← U.read (fun s => s.getWeight P x.1)
  if x.2 < w then do
    updateNodeU x.1 x.2 x.1 P.INVALID_EDGE
    U.write (fun s => { s with heap := pq.push ⟨x.2, x.1⟩ s.heap })
  else pure ()

/-- path_calculator.rs:142-150 (with `es = edges_fwd`) and 178-186 (with `es = edges_bwd`) -/
def relaxEdgeU (P : Plat) (es : List FastGraphEdge) (curr : HeapItem) (edgeId : Nat) : U (Side pq) Unit := do
  let ed ← U.lift (idx es edgeId)
  let weight ← U.lift (addW P curr.weight ed.weight)
  let w ← U.read (fun s => s.getWeight P ed.adjNode)
  if weight < w then do
    updateNodeU ed.adjNode weight curr.nodeId edgeId
    U.write (fun s => { s with heap := pq.push ⟨weight, ed.adjNode⟩ s.heap })
  else pure ()

end Side

namespace PathCalculator

/-- run a part of the code that only changes the forward fields -/
def onFwd {α : Type} (m : U (Side pq) α) : U (PathCalculator pq) α := fun c =>
  ((m c.fwd).1, { c with fwd := (m c.fwd).2 })

/-- run a part of the code that only changes the backward fields -/
def onBwd {α : Type} (m : U (Side pq) α) : U (PathCalculator pq) α := fun c =>
  ((m c.bwd).1, { c with bwd := (m c.bwd).2 })

/-- path_calculator.rs:125-159: the inner forward loop; `best_weight` and `meeting_node` are local variables -/
def innerFwdU (P : Plat) (g : FastGraph) : Nat → Nat → Nat → U (PathCalculator pq) (Nat × Nat)
  | 0, _, _ => U.lift (.error .outOfFuel)
  | fuel + 1, best, meet => fun c =>
    match pq.pop c.fwd.heap with
    | none => (.ok (best, meet), c)
    | some (curr, heap') => (show U (PathCalculator pq) (Nat × Nat) from do
      U.write (fun c => { c with fwd := { c.fwd with heap := heap' } })
      if ← U.read (fun c => c.fwd.isSettled curr.nodeId) then innerFwdU P g fuel best meet
      else if curr.weight > best then pure (best, meet)
      else if ← U.read (fun c => isStallableFwd P g c.fwd curr) then innerFwdU P g fuel best meet
      else do
        let b ← U.lift (g.beginOutEdges curr.nodeId)
        let e ← U.lift (g.endOutEdges curr.nodeId)
        onFwd (U.each (Side.relaxEdgeU P g.edgesFwd curr) (rangeFrom b e))
        onFwd (U.tryWrite (fun s => do
          let data ← modIdx s.data curr.nodeId (fun d => { d with settled := true })
          .ok { s with data := data }))
        if ← U.read (fun c => c.bwd.flags.isValid curr.nodeId) then do
          let wb ← U.read (fun c => c.bwd.getWeight P curr.nodeId)
          let w ← U.lift (addW P curr.weight wb)
          if w < best then pure (w, curr.nodeId) else pure (best, meet)
        else pure (best, meet)) c

/-- path_calculator.rs:161-195: the inner backward loop -/
def innerBwdU (P : Plat) (g : FastGraph) : Nat → Nat → Nat → U (PathCalculator pq) (Nat × Nat)
  | 0, _, _ => U.lift (.error .outOfFuel)
  | fuel + 1, best, meet => fun c =>
    match pq.pop c.bwd.heap with
    | none => (.ok (best, meet), c)
    | some (curr, heap') => (show U (PathCalculator pq) (Nat × Nat) from do
      U.write (fun c => { c with bwd := { c.bwd with heap := heap' } })
      if ← U.read (fun c => c.bwd.isSettled curr.nodeId) then innerBwdU P g fuel best meet
      else if curr.weight > best then pure (best, meet)
      else if ← U.read (fun c => isStallableBwd P g c.bwd curr) then innerBwdU P g fuel best meet
      else do
        let b ← U.lift (g.beginInEdges curr.nodeId)
        let e ← U.lift (g.endInEdges curr.nodeId)
        onBwd (U.each (Side.relaxEdgeU P g.edgesBwd curr) (rangeFrom b e))
        onBwd (U.tryWrite (fun s => do
          let data ← modIdx s.data curr.nodeId (fun d => { d with settled := true })
          .ok { s with data := data }))
        if ← U.read (fun c => c.fwd.flags.isValid curr.nodeId) then do
          let wf ← U.read (fun c => c.fwd.getWeight P curr.nodeId)
          let w ← U.lift (addW P curr.weight wf)
          if w < best then pure (w, curr.nodeId) else pure (best, meet)
        else pure (best, meet)) c

/-- path_calculator.rs:121-196: the main loop -/
def mainLoopU (P : Plat) (g : FastGraph) : Nat → Nat → Nat → U (PathCalculator pq) (Nat × Nat)
  | 0, _, _ => U.lift (.error .outOfFuel)
  | fuel + 1, best, meet => fun c =>
    if pq.isEmpty c.fwd.heap && pq.isEmpty c.bwd.heap then (.ok (best, meet), c)
    else (show U (PathCalculator pq) (Nat × Nat) from do
      let size ← U.read (fun c => .ok (pq.items c.fwd.heap).length)
      let (best, meet) ← innerFwdU P g (size + 1) best meet
      let size ← U.read (fun c => .ok (pq.items c.bwd.heap).length)
      let (best, meet) ← innerBwdU P g (size + 1) best meet
      mainLoopU P g fuel best meet) c

/-- path_calculator.rs:64-211 -/
def calcPathMultiU (P : Plat) (g : FastGraph) (starts ends : List (Nat × Nat)) :
    U (PathCalculator pq) (Option ShortestPath) := do
  U.read (fun c => checkArgs c g starts ends)
  U.write (fun c => { c with fwd := { c.fwd with heap := pq.empty } })
  U.write (fun c => { c with bwd := { c.bwd with heap := pq.empty } })
  U.write (fun c => { c with fwd := { c.fwd with flags := c.fwd.flags.invalidateAll } })
  U.write (fun c => { c with bwd := { c.bwd with flags := c.bwd.flags.invalidateAll } })
  let (best, meet) ← U.lift (initialMeeting P starts ends)
  onFwd (U.each (Side.addRootU P) starts)
  onBwd (U.each (Side.addRootU P) ends)
  let (best, meet) ← mainLoopU P g (mainFuel g starts ends) best meet
  if meet == P.INVALID_NODE then pure none
  else do
    U.lift (assertM (decide (best < P.WEIGHT_MAX)))
    let nodes ← U.read (fun c => extractNodes P g c.fwd c.bwd meet)
    U.lift (assertM (!nodes.isEmpty))
    let first ← U.lift (idx nodes 0)
    let last ← U.lift (idx nodes (nodes.length - 1))
    pure (some ⟨first, last, best, nodes⟩)

/-- path_calculator.rs:55-62 -/
def calcPathU (P : Plat) (g : FastGraph) (start end_ : Nat) : U (PathCalculator pq) (Option ShortestPath) :=
  calcPathMultiU P g [(start, 0)] [(end_, 0)]

end PathCalculator

/-- A client that catches panics: the calculator after a list of queries, each of which may have panicked. -/
def runRequestsU (P : Plat) (c : PathCalculator pq) : List Request → PathCalculator pq
  | [] => c
  | q :: qs => runRequestsU P (PathCalculator.calcPathMultiU P q.graph q.sources q.targets c).2 qs

namespace InputGraph

/-- input_graph.rs:186-214 `do_add_edge`: an assignment of `num_nodes` and one or two `push`es (`Vec` capacity is not
modelled, as in `doAddEdge`) -/
def doAddEdgeU (P : Plat) (src dst weight : Nat) (bidir : Bool) : U InputGraph Nat := do
  let frozen ← U.read (fun g => .ok g.frozen)
  if frozen then U.lift (.error .assertion)
  else if src == dst then pure 0
  else if weight < 1 then pure 0
  else do
    let m ← U.lift (addW P (max src dst) 1)
    U.write (fun g => { g with numNodes := max g.numNodes m })
    U.write (fun g => { g with edges := g.edges ++ [⟨src, dst, weight⟩] })
    if bidir then U.write (fun g => { g with edges := g.edges ++ [⟨dst, src, weight⟩] }) else pure ()
    if bidir then pure 2 else pure 1

/-- input_graph.rs:136-143 -/
def freezeU : U InputGraph Unit := do
  let frozen ← U.read (fun g => .ok g.frozen)
  if frozen then U.lift (.error .assertion)
  else do
    U.write (fun g => { g with edges := sortEdges g.edges })
    U.write (fun g => { g with edges := removeDuplicateEdges g.edges })
    U.write (fun g => { g with frozen := true })

end InputGraph

/-- One call on an `InputGraph` (input_graph.rs:113-119, 136-147) by a client that catches panics. -/
def Spec.Op.runU (P : Plat) : Spec.Op → U InputGraph Unit
  | .addEdge s d w => do
    let _ ← InputGraph.doAddEdgeU P s d w false
    pure ()
  | .addEdgeBidir s d w => do
    let _ ← InputGraph.doAddEdgeU P s d w true
    pure ()
  | .freeze => InputGraph.freezeU
  | .thaw => U.write InputGraph.thaw

/-- The graph after a sequence of calls, each of which may have panicked; starts with `InputGraph::new()`. -/
def buildGraphU (P : Plat) (ops : List Spec.Op) : InputGraph :=
  ops.foldl (fun g op => (op.runU P g).2) InputGraph.new

end FP
