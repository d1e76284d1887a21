import Verif.SpecPriority
import Verif.Model.PathCalculator
/-! # Specification vocabulary for what a query leaves in the calculator -/
namespace FP
namespace Spec

/-- The out-edges stored for the nodes of a prepared graph. They lead to nodes of higher rank (C35). -/
def upEdges (fg : FastGraph) : EdgeRel := fun x y w => ∃ l, storedOut fg x = .ok l ∧ (x, y, w) ∈ l

/-- The in-edges stored for the nodes of a prepared graph, seen from the node they are stored for: `downEdges fg x y w` is an edge
from `y` to `x`, and `y` has the higher rank. -/
def downEdges (fg : FastGraph) : EdgeRel := fun x y w => ∃ l, storedIn fg x = .ok l ∧ (x, y, w) ∈ l

/-- `x` has the weight `w` in the table of one direction. -/
def Labelled {pq : PQ} (s : Side pq) (x w : Nat) : Prop := s.flags.isValid x = .ok true ∧ ∃ d, s.data[x]? = some d ∧ d.weight = w

/-- The edges of `x` have been relaxed in one direction. -/
def Expanded {pq : PQ} (s : Side pq) (x : Nat) : Prop := s.isSettled x = .ok true

/-- What one direction of a bidirectional search with stalling ends with. The search follows the edges `out` from the nodes `roots`
(with initial weights); `inn x y e` is an edge of weight `e` from the higher node `y` down to `x`; `bound` is the weight of the
answer. -/
structure SearchSpace (umax : Nat) (out inn : EdgeRel) (roots : List (Nat × Nat)) (bound : Nat) (label : Nat → Nat → Prop)
    (expanded : Nat → Prop) : Prop where
  /-- Nodes have one weight, and it is representable. -/
  one : ∀ x w w', label x w → label x w' → w = w'
  small : ∀ x w, label x w → w < umax
  labelled : ∀ x, expanded x → ∃ w, label x w
  /-- A weight is an initial weight, or the weight of an expanded node plus an edge from there. -/
  origin : ∀ x w, label x w → (x, w) ∈ roots ∨ ∃ y wy e, expanded y ∧ label y wy ∧ out y x e ∧ w = wy + e
  /-- Weights are the best ones that expanded nodes and initial weights offer. -/
  roots : ∀ r w, (r, w) ∈ roots → w < umax → ∃ w' ≤ w, label r w'
  relaxed : ∀ x w y e, expanded x → label x w → out x y e → w + e < umax → ∃ w' ≤ w + e, label y w'
  /-- A node to which an edge comes down that offers a smaller weight is not expanded. -/
  stalled : ∀ x w y wy e, expanded x → label x w → inn x y e → label y wy → w ≤ wy + e
  /-- All other nodes are expanded, unless their weight is above the answer. -/
  complete : ∀ x w, label x w → ¬ expanded x → (∃ y wy e, inn x y e ∧ label y wy ∧ wy + e < w) ∨ bound < w

/-- A heap that behaves like `pq` and writes down the items that are pushed and popped, the latest first. `clear` starts a new log. -/
def logged (pq : PQ) : PQ where
  σ := pq.σ × List HeapItem × List HeapItem
  empty := (pq.empty, [], [])
  push x q := (pq.push x q.1, x :: q.2.1, q.2.2)
  pop q := (pq.pop q.1).map (fun r => (r.1, r.2, q.2.1, r.1 :: q.2.2))
  items q := pq.items q.1
  items_empty := pq.items_empty
  items_push x q := pq.items_push x q.1
  pop_none q := by rw [Option.map_eq_none_iff]; exact pq.pop_none q.1
  pop_some q x q' h := by
    obtain ⟨r, h1, h2⟩ := Option.map_eq_some_iff.1 h
    cases h2
    exact pq.pop_some q.1 r.1 r.2 h1

/-- The items pushed since the beginning of the query, in this order. -/
def pushes {pq : PQ} (s : Side (logged pq)) : List HeapItem := s.heap.2.1.reverse

/-- The items popped since the beginning of the query, in this order. -/
def pops {pq : PQ} (s : Side (logged pq)) : List HeapItem := s.heap.2.2.reverse

/-- Attach an empty log. -/
def logSide {pq : PQ} (s : Side pq) : Side (logged pq) := ⟨s.data, s.flags, (s.heap, [], [])⟩

/-- Attach empty logs. -/
def withLogs {pq : PQ} (c : PathCalculator pq) : PathCalculator (logged pq) := ⟨c.numNodes, logSide c.fwd, logSide c.bwd⟩

/-- Forget the log. -/
def unlogSide {pq : PQ} (s : Side (logged pq)) : Side pq := ⟨s.data, s.flags, s.heap.1⟩

/-- Forget both logs. -/
def unlog {pq : PQ} (c : PathCalculator (logged pq)) : PathCalculator pq := ⟨c.numNodes, unlogSide c.fwd, unlogSide c.bwd⟩

/-- The number of edges stored for a node by `storedOut` or `storedIn`. -/
def numStored (stored : M (List (Nat × Nat × Nat))) : Nat :=
  match stored with
  | .ok l => l.length
  | .error _ => 0

/-- The heap operations of one direction of a query: `pushes` and `pops` in the order in which they happened, `numEdges x` edges are
relaxed when `x` is expanded. -/
structure HeapWork (roots : List (Nat × Nat)) (numEdges : Nat → Nat) (label : Nat → Nat → Prop) (expanded : Nat → Prop)
    (pushes pops : List HeapItem) : Prop where
  /-- Every item that is pushed is popped, and they come in ascending order. -/
  all : pops.Perm pushes
  ascending : pops.Pairwise (fun a b => a.weight ≤ b.weight)
  /-- A node is only pushed again with a smaller weight, and the last one is its final weight. -/
  improving : pushes.Pairwise (fun a b => a.nodeId = b.nodeId → b.weight < a.weight)
  labels : ∀ x w, label x w → ⟨w, x⟩ ∈ pushes
  labelled : ∀ it ∈ pushes, ∃ w ≤ it.weight, label it.nodeId w
  /-- The edges of a node are relaxed once. -/
  few : ∀ nodes : List Nat, (∀ x, expanded x → x ∈ nodes) → pushes.length ≤ roots.length + (nodes.map numEdges).sum

end Spec
end FP
