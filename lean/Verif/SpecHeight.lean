import Verif.Model.FastGraph
set_option autoImplicit false
/-! # Specification: chains and heights in a prepared graph (C126, C128) -/
namespace FP

/-- An edge between `x` and `y` is stored at `x`: it was there when `x` was contracted. -/
def FastGraph.Stored (fg : FastGraph) (x y : Nat) : Prop :=
  ∃ ed, (ed ∈ fg.edgesFwd ∨ ed ∈ fg.edgesBwd) ∧ ed.baseNode = x ∧ ed.adjNode = y

/-- A chain down the hierarchy. -/
def FastGraph.Chain (fg : FastGraph) : List Nat → Prop
  | [] => True
  | [_] => True
  | x :: y :: rest => fg.Stored y x ∧ fg.Chain (y :: rest)

/-- `k` is the number of edges of the longest chain of stored edges down from `x`. -/
def IsHeight (fg : FastGraph) (x k : Nat) : Prop :=
  (∃ L, fg.Chain (x :: L) ∧ L.length = k) ∧ ∀ L, fg.Chain (x :: L) → L.length ≤ k

end FP
