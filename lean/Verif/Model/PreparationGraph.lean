import Verif.Model.InputGraph
/-! # Model of src/preparation_graph.rs -/
namespace FP

/-- preparation_graph.rs:158-162 `struct Arc` -/
structure Arc where
  adj : Nat
  weight : Nat
  center : Nat
  deriving DecidableEq, Repr

/-- preparation_graph.rs:24-28 -/
structure PreparationGraph where
  outEdges : List (List Arc)
  inEdges : List (List Arc)
  numNodes : Nat
  deriving DecidableEq, Repr

namespace PreparationGraph

/-- preparation_graph.rs:31-39 -/
def new (numNodes : Nat) : PreparationGraph :=
  ⟨List.replicate numNodes [], List.replicate numNodes [], numNodes⟩

/-- preparation_graph.rs:53-63; `assert_valid_node_id` (147-154) is the first line. -/
def addEdgeOrShortcut (g : PreparationGraph) (src dst weight center : Nat) : M PreparationGraph := do
  assertM (decide (dst < g.numNodes))
  let out ← modIdx g.outEdges src (fun l => l ++ [⟨dst, weight, center⟩])
  let inn ← modIdx g.inEdges dst (fun l => l ++ [⟨src, weight, center⟩])
  .ok { g with outEdges := out, inEdges := inn }

/-- preparation_graph.rs:49-51 -/
def addEdge (P : Plat) (g : PreparationGraph) (src dst weight : Nat) : M PreparationGraph :=
  addEdgeOrShortcut g src dst weight P.INVALID_NODE

/-- preparation_graph.rs:41-47 -/
def fromInputGraph (P : Plat) (ig : InputGraph) : M PreparationGraph := do
  let n ← ig.getNumNodes
  let es ← ig.getEdges
  forM (fun g e => addEdge P g e.src e.dst e.weight) (new n) es

/-- Apply `f` to the first element satisfying `p` (an early-returning loop over `&mut` elements). -/
def updFirst (p : Arc → Bool) (f : Arc → Arc) : List Arc → List Arc
  | [] => []
  | a :: r => if p a then f a :: r else a :: updFirst p f r

/-- preparation_graph.rs:78-102 `reduce_edge`. The first out-arc to `dst` decides; it and all matching in-arcs are
overwritten when the new weight is smaller (the out-arc is only written from inside the loop over in-arcs, hence the
`any` guard). -/
def reduceEdge (g : PreparationGraph) (src dst weight center : Nat) : M (PreparationGraph × Bool) := do
  let outs ← idx g.outEdges src
  match outs.find? (fun a => a.adj == dst) with
  | none => .ok (g, false)
  | some o =>
    if o.weight ≤ weight then .ok (g, true)
    else do
      let ins ← idx g.inEdges dst
      if ins.any (fun a => a.adj == src) then
        .ok ({ g with
          outEdges := g.outEdges.set src
            (updFirst (fun a => a.adj == dst) (fun a => { a with weight := weight, center := center }) outs)
          inEdges := g.inEdges.set dst
            (ins.map (fun a => if a.adj == src then { a with weight := weight, center := center } else a)) }, true)
      else .ok (g, true)

/-- preparation_graph.rs:65-76 -/
def addOrReduceEdge (g : PreparationGraph) (src dst weight center : Nat) : M PreparationGraph := do
  let (g, b) ← reduceEdge g src dst weight center
  if b then .ok g else addEdgeOrShortcut g src dst weight center

/-- preparation_graph.rs:129-137. With `len_before = 0` the subtraction panics (or wraps and the assertion fails): both
are a panic. -/
def removeEdgeWithAdjNode (edges : List Arc) (adj : Nat) : M (List Arc) := do
  let kept := edges.filter (fun e => e.adj != adj)
  assertM (kept.length + 1 == edges.length)
  .ok kept

/-- preparation_graph.rs:121-123 -/
def removeOutEdge (g : PreparationGraph) (node adj : Nat) : M PreparationGraph := do
  let l ← idx g.outEdges node
  let l ← removeEdgeWithAdjNode l adj
  .ok { g with outEdges := g.outEdges.set node l }

/-- preparation_graph.rs:125-127 -/
def removeInEdge (g : PreparationGraph) (node adj : Nat) : M PreparationGraph := do
  let l ← idx g.inEdges node
  let l ← removeEdgeWithAdjNode l adj
  .ok { g with inEdges := g.inEdges.set node l }

/-- preparation_graph.rs:108-119. The first loop reads `out_edges[node]`, which `remove_in_edge` does not write, so it
is a loop over that list; likewise the second. -/
def disconnect (g : PreparationGraph) (node : Nat) : M PreparationGraph := do
  let outs ← idx g.outEdges node
  let g ← forM (fun g (a : Arc) => removeInEdge g a.adj node) g outs
  let ins ← idx g.inEdges node
  let g ← forM (fun g (a : Arc) => removeOutEdge g a.adj node) g ins
  let inn ← setIdx g.inEdges node []
  let out ← setIdx g.outEdges node []
  .ok { g with inEdges := inn, outEdges := out }

end PreparationGraph
end FP
