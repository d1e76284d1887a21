import Verif.SpecGraph
/-! # Specification vocabulary for the number of stored edges -/
namespace FP
namespace Spec

/-- No other node is on a route between the two ends of an edge that is not longer than the edge. -/
def NoDetours (E : EdgeRel) : Prop :=
  ∀ u v w x a b, E u v w → HasWalk E u x a → HasWalk E x v b → a + b ≤ w → x = u ∨ x = v

/-- The edges that are unavoidable with the ranks of `g`: `d` is the distance from `s` to `t`, and all other nodes on shortest routes
from `s` to `t` are ranked lower than both of them. -/
def Unavoidable (E : EdgeRel) (g : FastGraph) (s t d : Nat) : Prop :=
  IsDist E s t d ∧ ∀ x a b, HasWalk E s x a → HasWalk E x t b → a + b = d → x = s ∨ x = t ∨ (Above g x s ∧ Above g x t)

end Spec
end FP
