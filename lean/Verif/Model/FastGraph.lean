import Verif.Model.Base
/-! # Model of src/fast_graph.rs -/
namespace FP

/-- fast_graph.rs:87-97 -/
structure FastGraphEdge where
  baseNode : Nat
  adjNode : Nat
  weight : Nat
  replacedInEdge : Nat
  replacedOutEdge : Nat
  deriving DecidableEq, Repr

/-- fast_graph.rs:116-123 -/
def FastGraphEdge.isShortcut (P : Plat) (e : FastGraphEdge) : M Bool := do
  assertM ((e.replacedInEdge == P.INVALID_EDGE && e.replacedOutEdge == P.INVALID_EDGE)
    || (e.replacedInEdge != P.INVALID_EDGE && e.replacedOutEdge != P.INVALID_EDGE))
  .ok (e.replacedInEdge != P.INVALID_EDGE)

/-- fast_graph.rs:27-35 -/
structure FastGraph where
  numNodes : Nat
  ranks : List Nat
  edgesFwd : List FastGraphEdge
  firstEdgeIdsFwd : List Nat
  edgesBwd : List FastGraphEdge
  firstEdgeIdsBwd : List Nat
  deriving DecidableEq, Repr

namespace FastGraph

/-- The empty graph on `numNodes` nodes built by `FastGraph::new` -/
def empty (numNodes : Nat) : FastGraph where
  ranks := List.replicate numNodes 0
  numNodes := numNodes
  edgesFwd := []
  firstEdgeIdsFwd := List.replicate (numNodes + 1) 0
  edgesBwd := []
  firstEdgeIdsBwd := List.replicate (numNodes + 1) 0

/-- fast_graph.rs:38-47. `vec![0; num_nodes]` panics with `capacity overflow` when the vector does not fit in the address
space; here that is when `num_nodes ≥ usize::MAX` (the real limit is lower, any real limit only makes fewer runs
return). -/
def new (P : Plat) (numNodes : Nat) : M FastGraph :=
  if numNodes < P.umax then .ok (empty numNodes) else .error .capacity

/-- fast_graph.rs:49-55 -/
def getNodeOrdering (g : FastGraph) : M (List Nat) :=
  forM (fun ordering i => do
    let r ← idx g.ranks i
    setIdx ordering r i) (List.replicate g.ranks.length 0) (List.range g.ranks.length)

/-- fast_graph.rs:57-59 -/
def getNumNodes (g : FastGraph) : Nat := g.numNodes
/-- fast_graph.rs:61-63 -/
def getNumOutEdges (g : FastGraph) : Nat := g.edgesFwd.length
/-- fast_graph.rs:65-67 -/
def getNumInEdges (g : FastGraph) : Nat := g.edgesBwd.length

/-- fast_graph.rs:69-71 -/
def beginInEdges (g : FastGraph) (node : Nat) : M Nat := do
  let r ← idx g.ranks node
  idx g.firstEdgeIdsBwd r
/-- fast_graph.rs:73-75 -/
def endInEdges (g : FastGraph) (node : Nat) : M Nat := do
  let r ← idx g.ranks node
  idx g.firstEdgeIdsBwd (r + 1)
/-- fast_graph.rs:77-79 -/
def beginOutEdges (g : FastGraph) (node : Nat) : M Nat := do
  let r ← idx g.ranks node
  idx g.firstEdgeIdsFwd r
/-- fast_graph.rs:81-83 -/
def endOutEdges (g : FastGraph) (node : Nat) : M Nat := do
  let r ← idx g.ranks node
  idx g.firstEdgeIdsFwd (r + 1)

end FastGraph

/-- the range `begin..end` as a list -/
def rangeFrom (b e : Nat) : List Nat := List.range' b (e - b)

end FP
