import Mathlib.Logic.Relation
import Verif.Spec
import Verif.Model.FastGraph
import Verif.Model.PathCalculator
/-! # Arbitrary values of type `FastGraph` -/
namespace FP
namespace Spec

/-- A stored edge: `(true, i)` is `edges_fwd[i]`, `(false, i)` is `edges_bwd[i]`. -/
def edgeAt (g : FastGraph) (a : Bool × Nat) : Option FastGraphEdge :=
  (if a.1 then g.edgesFwd else g.edgesBwd)[a.2]?

/-- `a` is a shortcut and `b` one of the two edges it replaces. -/
def Replaces (umax : Nat) (g : FastGraph) (a b : Bool × Nat) : Prop :=
  ∃ ed, edgeAt g a = some ed ∧ ed.replacedInEdge ≠ umax ∧ ed.replacedOutEdge ≠ umax ∧
    (b = (false, ed.replacedInEdge) ∨ b = (true, ed.replacedOutEdge))

/-- Some shortcut replaces itself, directly or through others. -/
def Cyclic (umax : Nat) (g : FastGraph) : Prop := ∃ a, Relation.TransGen (Replaces umax g) a a

/-- `edges_fwd[i]` is `ed` and belongs to `u`. -/
def OutEdge (g : FastGraph) (u i : Nat) (ed : FastGraphEdge) : Prop :=
  ∃ b e, g.beginOutEdges u = .ok b ∧ g.endOutEdges u = .ok e ∧ b ≤ i ∧ i < e ∧ g.edgesFwd[i]? = some ed

/-- `edges_bwd[i]` is `ed` and belongs to `u`. -/
def InEdge (g : FastGraph) (u i : Nat) (ed : FastGraphEdge) : Prop :=
  ∃ b e, g.beginInEdges u = .ok b ∧ g.endInEdges u = .ok e ∧ b ≤ i ∧ i < e ∧ g.edgesBwd[i]? = some ed

/-- `v` has a higher rank than `u`. -/
def Above (g : FastGraph) (u v : Nat) : Prop := ∃ r r', g.ranks[u]? = some r ∧ g.ranks[v]? = some r' ∧ r < r'

/-- The edge from `u` to `v` of weight `w` with the given replaced edges is one of `E`, or consists of two stored edges that meet at
a lower node. -/
def StandsFor (umax : Nat) (E : EdgeRel) (g : FastGraph) (u v w rin rout : Nat) : Prop :=
  (rin = umax ∧ rout = umax ∧ E u v w) ∨
  (rin ≠ umax ∧ rout ≠ umax ∧ ∃ c e₁ e₂, Above g c u ∧ Above g c v ∧ InEdge g c rin e₁ ∧ e₁.adjNode = u ∧
    OutEdge g c rout e₂ ∧ e₂.adjNode = v ∧ w = e₁.weight + e₂.weight)

/-- A table of offsets into `m` edges. -/
def Offsets (n : Nat) (first : List Nat) (m : Nat) : Prop :=
  first.length = n + 1 ∧ first.Pairwise (· ≤ ·) ∧ first.head? = some 0 ∧ first.getLast? = some m

/-- All edges of the graph stand for walks over `E`. Nothing is said about which walks have edges standing for them, so this does not
make answers minimal. -/
structure Consistent (umax : Nat) (E : EdgeRel) (g : FastGraph) : Prop where
  nodes : g.numNodes < umax
  ranks : g.ranks.Perm (List.range g.numNodes)
  numOut : g.edgesFwd.length ≤ umax
  numIn : g.edgesBwd.length ≤ umax
  offsetsOut : Offsets g.numNodes g.firstEdgeIdsFwd g.edgesFwd.length
  offsetsIn : Offsets g.numNodes g.firstEdgeIdsBwd g.edgesBwd.length
  outEdge : ∀ u i ed, OutEdge g u i ed → ed.baseNode = u ∧ Above g u ed.adjNode ∧
    StandsFor umax E g u ed.adjNode ed.weight ed.replacedInEdge ed.replacedOutEdge
  inEdge : ∀ u i ed, InEdge g u i ed → ed.baseNode = u ∧ Above g u ed.adjNode ∧
    StandsFor umax E g ed.adjNode u ed.weight ed.replacedInEdge ed.replacedOutEdge

/-- The upward edges: stored out-edges, from a node to a higher one. -/
def Up (g : FastGraph) : EdgeRel := fun u v w => ∃ i ed, OutEdge g u i ed ∧ ed.adjNode = v ∧ ed.weight = w

/-- The downward edges: stored in-edges, from a higher node to the node they belong to. -/
def Down (g : FastGraph) : EdgeRel := fun u v w => ∃ i ed, InEdge g v i ed ∧ ed.adjNode = u ∧ ed.weight = w

/-- A walk of weight at most `w` that goes up and then down. -/
def UpDownWalk (g : FastGraph) (s t w : Nat) : Prop :=
  ∃ m a b, HasWalk (Up g) s m a ∧ HasWalk (Down g) m t b ∧ a + b ≤ w

/-- The stored edges between nodes above `c`. -/
def StoredAbove (g : FastGraph) (c : Nat) : EdgeRel := fun u v w => (Up g u v w ∨ Down g u v w) ∧ Above g c u ∧ Above g c v

/-- Two conditions that look at one edge or at two stored edges at a time: every edge is covered by an up-down walk, and wherever stored
edges go down to a node `c` and up again, there is a way above `c` that is not longer. -/
structure Covering (umax : Nat) (E : EdgeRel) (g : FastGraph) : Prop where
  edge : ∀ u v w, E u v w → w < umax → UpDownWalk g u v w
  valley : ∀ c u v a b, Down g u c a → Up g c v b → a + b < umax → ∃ w ≤ a + b, HasWalk (StoredAbove g c) u v w

/-- `r` has the right weight for a query from `s` to `t`; weights from `umax` on count as infinite. -/
def RightWeight (umax : Nat) (E : EdgeRel) (s t : Nat) : Option ShortestPath → Prop
  | none => ∀ w, HasWalk E s t w → umax ≤ w
  | some p => IsDist E s t p.weight

end Spec
end FP
