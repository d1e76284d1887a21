import Verif.SpecPrep
import Verif.Model.NodeContractor
import Verif.Model.FastGraph
import Verif.Model.ListQueue
import Mathlib.Data.Set.Card
/-! # Specification vocabulary for the order in which nodes are contracted -/
namespace FP
namespace Spec

/-- The pairs of nodes that need a shortcut when `v` is removed: a path over `v` and no walk around `v` that is as short. Sums of
weights that reach `umax` are not representable. -/
def neededPairs (umax : Nat) (E : EdgeRel) (v : Nat) : Set (Nat × Nat) :=
  {ab | ab.1 ≠ ab.2 ∧ ∃ x y, E ab.1 v x ∧ E v ab.2 y ∧ x + y < umax ∧
    ∀ w, HasWalk (avoiding E v) ab.1 ab.2 w → x + y < w}

/-- The pairs of different nodes connected by a path over `v`. -/
def throughPairs (umax : Nat) (E : EdgeRel) (v : Nat) : Set (Nat × Nat) :=
  {ab | ab.1 ≠ ab.2 ∧ ∃ x y, E ab.1 v x ∧ E v ab.2 y ∧ x + y < umax}

/-- The number of nodes with an edge from `v` plus the number of nodes with an edge to `v`. -/
noncomputable def degree (E : EdgeRel) (v : Nat) : Nat := {u | ∃ w, E v u w}.ncard + {u | ∃ w, E u v w}.ncard

/-- A node queue whose `pop` returns a node of least priority, as `priority_queue` documents for `PriorityQueue` with
`Reverse` priorities. `prio` is the priority of a node. -/
structure Ordered (nq : NodeQueue) (prio : nq.σ → Nat → Nat) : Prop where
  push_self : ∀ k p q, k ∉ nq.keys q → prio (nq.push k p q) k = p
  push_other : ∀ k p q k', k ∉ nq.keys q → k' ∈ nq.keys q → prio (nq.push k p q) k' = prio q k'
  pop_least : ∀ q k q', (nq.keys q).Nodup → nq.pop q = some (k, q') → ∀ k' ∈ nq.keys q, prio q k ≤ prio q k'
  pop_other : ∀ q k q', (nq.keys q).Nodup → nq.pop q = some (k, q') → ∀ k' ∈ nq.keys q', prio q' k' = prio q k'
  change_self : ∀ k p q, (nq.keys q).Nodup → k ∈ nq.keys q → prio (nq.change k p q) k = p
  change_other : ∀ k p q k', (nq.keys q).Nodup → k' ∈ nq.keys q → k' ≠ k → prio (nq.change k p q) k' = prio q k'

/-- Two nodes are neighbors. -/
def Adjacent (E : EdgeRel) (u v : Nat) : Prop := ∃ w, E u v w ∨ E v u w

/-- The graph left when the nodes `done` have been contracted one after the other (see C51 and C58 for what a contraction does). -/
def remaining (P : Plat) (pq : PQ) (ig : InputGraph) (maxSettled : Nat) (done : List Nat) : M PreparationGraph := do
  let g ← PreparationGraph.fromInputGraph P ig
  forM (fun g v => do
    let (g, _) ← contractNode P g (WitnessSearch.new P pq ig.numNodes) v maxSettled
    .ok g) g done

/-- Its edges. -/
def remainingEdges (P : Plat) (pq : PQ) (ig : InputGraph) (maxSettled : Nat) (done : List Nat) : EdgeRel :=
  fun u v w => ∃ g, remaining P pq ig maxSettled done = .ok g ∧ prepEdges g u v w

/-- Below `x` hangs a chain of `k` nodes of `done`: they were contracted one after the other, each of them was a neighbor of the
next one when it was contracted, and the last one a neighbor of `x`. `G` gives the graph that is left after contracting a list of
nodes. -/
inductive Depth (G : List Nat → EdgeRel) : List Nat → Nat → Nat → Prop where
  | zero (done : List Nat) (x : Nat) : Depth G done x 0
  | step {before after : List Nat} {u x k : Nat} :
      Depth G before u k → Adjacent (G before) u x → Depth G (before ++ u :: after) x (k + 1)

/-- `k` is the length of the longest chain below `x`. -/
def IsLevel (G : List Nat → EdgeRel) (done : List Nat) (x k : Nat) : Prop :=
  Depth G done x k ∧ ∀ k', Depth G done x k' → k' ≤ k

/-- `before` are the nodes of `done` up to the last one that was a neighbor of `x` when it was contracted (none if there is no such
node). -/
def LastUpdate (G : List Nat → EdgeRel) (done : List Nat) (x : Nat) (before : List Nat) : Prop :=
  ∃ since, done = before ++ since ∧ (before = [] ∨ ∃ b u, before = b ++ [u] ∧ Adjacent (G b) u x) ∧
    ∀ a v b, since = a ++ v :: b → ¬ Adjacent (G (before ++ a)) v x

/-- `p` is a priority that a node `x` of a graph with `n` nodes can have when the nodes `done` have been contracted: the formula
applied to the level, to a number of shortcuts and to the current number of neighbors. The number of shortcuts was determined when
the last neighbor was contracted: it is at least the number of pairs that needed a shortcut then, at most the number of pairs
connected over `x`, and exactly the former if the budget was above the number of nodes. -/
def IsPriority (umax n : Nat) (G : List Nat → EdgeRel) (relevance : Nat → Int → Nat → Nat) (budgetInitial budgetNeighbor : Nat)
    (done : List Nat) (x p : Nat) : Prop :=
  ∃ before level count, LastUpdate G done x before ∧ IsLevel G done x level ∧
    p = relevance level (count : Nat) (degree (G done) x) ∧ (neededPairs umax (G before) x).ncard ≤ count ∧
    count ≤ (throughPairs umax (G done) x).ncard ∧
    (n < (if before = [] then budgetInitial else budgetNeighbor) → count = (neededPairs umax (G before) x).ncard)

/-- The out-edges of a node in a prepared graph: node, neighbor and weight. -/
def storedOut (fg : FastGraph) (v : Nat) : M (List (Nat × Nat × Nat)) := do
  let b ← fg.beginOutEdges v
  let e ← fg.endOutEdges v
  .ok (((fg.edgesFwd.drop b).take (e - b)).map (fun d => (d.baseNode, d.adjNode, d.weight)))

/-- The in-edges of a node in a prepared graph. -/
def storedIn (fg : FastGraph) (v : Nat) : M (List (Nat × Nat × Nat)) := do
  let b ← fg.beginInEdges v
  let e ← fg.endInEdges v
  .ok (((fg.edgesBwd.drop b).take (e - b)).map (fun d => (d.baseNode, d.adjNode, d.weight)))

end Spec
end FP
