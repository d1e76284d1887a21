import Verif.Model.FastGraph32
/-!
# Vocabulary for the 32-bit representation

"The mark" is `usize::MAX`, stored in place of the ids of replaced edges (`INVALID_EDGE`).
-/
namespace FP

/-- All numbers stored in an edge. -/
def FastGraphEdge.values (e : FastGraphEdge) : List Nat :=
  [e.baseNode, e.adjNode, e.weight, e.replacedInEdge, e.replacedOutEdge]

/-- All numbers stored in a graph. -/
def FastGraph.values (g : FastGraph) : List Nat :=
  g.numNodes :: (g.ranks ++ g.edgesFwd.flatMap FastGraphEdge.values ++ g.firstEdgeIdsFwd ++
    g.edgesBwd.flatMap FastGraphEdge.values ++ g.firstEdgeIdsBwd)

/-- All numbers fit into 32 bits, or are the mark. -/
def Fits (P : Plat) (g : FastGraph) : Prop := ∀ v ∈ g.values, v ≤ U32_MAX ∨ v = P.umax

/-- All numbers are below `u32::MAX`, or the mark; the node count is below `u32::MAX`. -/
structure FitsStrictly (P : Plat) (g : FastGraph) : Prop where
  vals : ∀ v ∈ g.values, v < U32_MAX ∨ v = P.umax
  num : g.numNodes < U32_MAX

/-- Fewer than `u32::MAX` nodes and edges, weights below `u32::MAX`. -/
structure Small (g : FastGraph) : Prop where
  num : g.numNodes < U32_MAX
  out : g.edgesFwd.length < U32_MAX
  inn : g.edgesBwd.length < U32_MAX
  wf : ∀ e ∈ g.edgesFwd, e.weight < U32_MAX
  wb : ∀ e ∈ g.edgesBwd, e.weight < U32_MAX

/-- The lists of a graph are not longer than `usize::MAX`. -/
def LenFit (P : Plat) (g : FastGraph) : Prop :=
  g.ranks.length ≤ P.umax ∧ g.edgesFwd.length ≤ P.umax ∧ g.firstEdgeIdsFwd.length ≤ P.umax ∧ g.edgesBwd.length ≤ P.umax ∧
    g.firstEdgeIdsBwd.length ≤ P.umax

/-- The numbers of a 32-bit edge. -/
def FastGraphEdge32.vals (e : FastGraphEdge32) : List Nat :=
  [e.baseNode, e.adjNode, e.weight, e.replacedInEdge, e.replacedOutEdge]

/-- The numbers of a 32-bit graph fit into 32 bits, the lists are not longer than `usize::MAX`. -/
def Fit32 (P : Plat) (g : FastGraph32) : Prop :=
  g.numNodes ≤ U32_MAX ∧ (g.ranks.length ≤ P.umax ∧ ∀ v ∈ g.ranks, v ≤ U32_MAX) ∧
  (g.edgesFwd.length ≤ P.umax ∧ ∀ e ∈ g.edgesFwd, ∀ v ∈ e.vals, v ≤ U32_MAX) ∧
  (g.firstEdgeIdsFwd.length ≤ P.umax ∧ ∀ v ∈ g.firstEdgeIdsFwd, v ≤ U32_MAX) ∧
  (g.edgesBwd.length ≤ P.umax ∧ ∀ e ∈ g.edgesBwd, ∀ v ∈ e.vals, v ≤ U32_MAX) ∧
  (g.firstEdgeIdsBwd.length ≤ P.umax ∧ ∀ v ∈ g.firstEdgeIdsBwd, v ≤ U32_MAX)

end FP
