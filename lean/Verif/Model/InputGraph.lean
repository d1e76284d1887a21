import Verif.Model.Base
/-! # Model of src/input_graph.rs (graph part; text files are in `Verif.Model.TextIO`) -/
namespace FP

/-- input_graph.rs:350-354 `struct Edge { from, to, weight }` -/
structure Edge where
  src : Nat
  dst : Nat
  weight : Nat
  deriving DecidableEq, Repr

/-- input_graph.rs:36-40 -/
structure InputGraph where
  edges : List Edge
  numNodes : Nat
  frozen : Bool
  deriving DecidableEq, Repr

namespace InputGraph

/-- input_graph.rs:43-49 -/
def new : InputGraph := ⟨[], 0, false⟩

/-- input_graph.rs:186-214 `do_add_edge`; returns the new graph and the returned count. For the warnings see
`Model/Log`. -/
def doAddEdge (P : Plat) (g : InputGraph) (src dst weight : Nat) (bidir : Bool) : M (InputGraph × Nat) :=
  if g.frozen then .error .assertion
  else if src == dst then .ok (g, 0)
  else if weight < 1 then .ok (g, 0)
  else do
    let m ← addW P (max src dst) 1
    let edges := g.edges ++ [⟨src, dst, weight⟩]
    let edges := if bidir then edges ++ [⟨dst, src, weight⟩] else edges
    .ok ({ g with numNodes := max g.numNodes m, edges := edges }, if bidir then 2 else 1)

/-- input_graph.rs:113-115 -/
def addEdge (P : Plat) (g : InputGraph) (src dst weight : Nat) : M (InputGraph × Nat) :=
  doAddEdge P g src dst weight false

/-- input_graph.rs:117-119 -/
def addEdgeBidir (P : Plat) (g : InputGraph) (src dst weight : Nat) : M (InputGraph × Nat) :=
  doAddEdge P g src dst weight true

/-- input_graph.rs:180-184 -/
def checkFrozen (g : InputGraph) : M Unit := assertM g.frozen

/-- input_graph.rs:121-124 -/
def getEdges (g : InputGraph) : M (List Edge) := do
  checkFrozen g
  .ok g.edges

/-- input_graph.rs:126-129 -/
def getNumNodes (g : InputGraph) : M Nat := do
  checkFrozen g
  .ok g.numNodes

/-- input_graph.rs:131-134 -/
def getNumEdges (g : InputGraph) : M Nat := do
  checkFrozen g
  .ok g.edges.length

/-- input_graph.rs:150-155, the comparator passed to `sort_unstable_by` -/
def edgeCmp (a b : Edge) : Ordering :=
  ((compare a.src b.src).then (compare a.dst b.dst)).then (compare a.weight b.weight)

/-- insertion into a sorted list -/
def insertEdge (e : Edge) : List Edge → List Edge
  | [] => [e]
  | x :: xs => if edgeCmp e x == .gt then x :: insertEdge e xs else e :: x :: xs

/-- input_graph.rs:149-156 `sort`. `sort_unstable_by` is modelled by insertion sort with the same comparator; any other
sorting algorithm gives the same list (`Verif.Proofs.InputGraph`, `sorted_perm_unique`). -/
def sortEdges : List Edge → List Edge
  | [] => []
  | e :: es => insertEdge e (sortEdges es)

/-- `Vec::dedup_by`: drops each element for which `same_bucket(element, last kept element)`. -/
def dedupFrom (same : Edge → Edge → Bool) (prev : Edge) : List Edge → List Edge
  | [] => []
  | a :: r => if same a prev then dedupFrom same prev r else a :: dedupFrom same a r

/-- `Vec::dedup_by` -/
def dedupBy (same : Edge → Edge → Bool) : List Edge → List Edge
  | [] => []
  | b :: r => b :: dedupFrom same b r

/-- input_graph.rs:158-168 `remove_duplicate_edges` -/
def removeDuplicateEdges (es : List Edge) : List Edge :=
  dedupBy (fun a b => a.src == b.src && a.dst == b.dst) es

/-- input_graph.rs:136-143 -/
def freeze (g : InputGraph) : M InputGraph :=
  if g.frozen then .error .assertion
  else .ok { g with edges := removeDuplicateEdges (sortEdges g.edges), frozen := true }

/-- input_graph.rs:145-147 -/
def thaw (g : InputGraph) : InputGraph := { g with frozen := false }

end InputGraph
end FP
