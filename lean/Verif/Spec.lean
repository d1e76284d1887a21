import Verif.Model.InputGraph
/-!
# Specification vocabulary

Everything the property statements need that is not part of the modelled API: walks, routes, shortest routes. Nothing
here refers to the preparation, the search or any proof helper.
-/
namespace FP
namespace Spec

/-- A directed weighted (multi)graph given by its edges: `E u v w` – there is an edge from `u` to `v` of weight `w`. -/
abbrev EdgeRel := Nat → Nat → Nat → Prop

/-- The graph with the edges of a list. -/
def edgesOf (es : List Edge) : EdgeRel := fun u v w => (⟨u, v, w⟩ : Edge) ∈ es

/-- `IsWalk E nodes w`: the node list is non-empty, consecutive nodes are joined by edges, `w` is the sum of the weights
of these edges. -/
def IsWalk (E : EdgeRel) : List Nat → Nat → Prop
  | [], _ => False
  | [_], w => w = 0
  | u :: v :: rest, w => ∃ a b, E u v a ∧ IsWalk E (v :: rest) b ∧ w = a + b

/-- There is a walk of weight `w` from `s` to `t`. -/
def HasWalk (E : EdgeRel) (s t w : Nat) : Prop :=
  ∃ nodes, IsWalk E nodes w ∧ nodes.head? = some s ∧ nodes.getLast? = some t

/-- `w` is the minimal weight of a walk from `s` to `t`. -/
def IsDist (E : EdgeRel) (s t w : Nat) : Prop :=
  HasWalk E s t w ∧ ∀ w', HasWalk E s t w' → w ≤ w'

/-- `total` is the weight of a route from an entry of `sources` to an entry of `targets`: initial weight of the source
entry, plus a walk, plus initial weight of the target entry. -/
def HasRoute (E : EdgeRel) (sources targets : List (Nat × Nat)) (total : Nat) : Prop :=
  ∃ s ws t wt w, (s, ws) ∈ sources ∧ (t, wt) ∈ targets ∧ HasWalk E s t w ∧ total = ws + w + wt

/-- The calls a client can make to build an `InputGraph`. -/
inductive Op where
  | addEdge (src dst weight : Nat)
  | addEdgeBidir (src dst weight : Nat)
  | freeze
  | thaw
  deriving DecidableEq, Repr

/-- The directed edges a call contributes: loops and zero weights are ignored. -/
def Op.edges : Op → List Edge
  | .addEdge s d w => if s ≠ d ∧ 1 ≤ w then [⟨s, d, w⟩] else []
  | .addEdgeBidir s d w => if s ≠ d ∧ 1 ≤ w then [⟨s, d, w⟩, ⟨d, s, w⟩] else []
  | _ => []

/-- All directed edges contributed by a sequence of calls. -/
def accepted (ops : List Op) : List Edge := ops.flatMap Op.edges

/-- One more than the largest node id of an edge list, 0 for the empty list. -/
def nodeCount (es : List Edge) : Nat := es.foldr (fun e n => max n (max e.src e.dst + 1)) 0

/-- `w` is the least weight of an edge from `u` to `v` in the list. -/
def IsMinEdge (es : List Edge) (u v w : Nat) : Prop :=
  (⟨u, v, w⟩ : Edge) ∈ es ∧ ∀ w', (⟨u, v, w'⟩ : Edge) ∈ es → w ≤ w'

/-- Strictly ascending by (source, target), hence without repeated pairs. -/
def StrictlySorted (es : List Edge) : Prop :=
  es.Pairwise (fun a b => a.src < b.src ∨ (a.src = b.src ∧ a.dst < b.dst))

end Spec
end FP
