import Verif.Spec
import Verif.Model.PreparationGraph
/-! # Specification vocabulary for the graph used during preparation -/
namespace FP
namespace Spec

/-- The edges of a preparation graph. -/
def prepEdges (g : PreparationGraph) : EdgeRel := fun u v w => ∃ l c, g.outEdges[u]? = some l ∧ (⟨v, w, c⟩ : Arc) ∈ l

/-- The edges that do not touch the node `x`. -/
def avoiding (E : EdgeRel) (x : Nat) : EdgeRel := fun u v w => E u v w ∧ u ≠ x ∧ v ≠ x

/-- A consistent preparation graph on `n` nodes: the in-lists mirror the out-lists, no node has two arcs to (or from) the
same node, no arc is a loop. -/
structure PrepOk (n : Nat) (g : PreparationGraph) : Prop where
  num : g.numNodes = n
  outLen : g.outEdges.length = n
  inLen : g.inEdges.length = n
  mirror : ∀ u v w c, (∃ l, g.outEdges[u]? = some l ∧ (⟨v, w, c⟩ : Arc) ∈ l) ↔
    (∃ l, g.inEdges[v]? = some l ∧ (⟨u, w, c⟩ : Arc) ∈ l)
  out : ∀ (u : Nat) (l : List Arc), g.outEdges[u]? = some l → (l.map Arc.adj).Nodup ∧ u ∉ l.map Arc.adj
  inn : ∀ (u : Nat) (l : List Arc), g.inEdges[u]? = some l → (l.map Arc.adj).Nodup

/-- `g'` has, away from the node `x`, at least the edges of `g`, possibly with smaller weights. -/
def Improves (x : Nat) (g g' : PreparationGraph) : Prop :=
  ∀ u v w, avoiding (prepEdges g) x u v w → ∃ w' ≤ w, avoiding (prepEdges g') x u v w'

end Spec
end FP
