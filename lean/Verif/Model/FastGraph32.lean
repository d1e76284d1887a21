import Verif.Model.FastGraph
import Verif.Model.ValidFlags
/-! # Model of src/fast_graph32.rs -/
namespace FP

/-- `iter().map(f).collect()` where `f` may panic. -/
def mapE {α β : Type} (f : α → M β) : List α → M (List β)
  | [] => .ok []
  | a :: as => do
    let b ← f a
    let bs ← mapE f as
    .ok (b :: bs)

/-- fast_graph32.rs:72-78 -/
structure FastGraphEdge32 where
  baseNode : Nat
  adjNode : Nat
  weight : Nat
  replacedInEdge : Nat
  replacedOutEdge : Nat
  deriving DecidableEq, Repr

/-- fast_graph32.rs:32-40 (all `u32`s are naturals ≤ `U32_MAX`) -/
structure FastGraph32 where
  numNodes : Nat
  ranks : List Nat
  edgesFwd : List FastGraphEdge32
  firstEdgeIdsFwd : List Nat
  edgesBwd : List FastGraphEdge32
  firstEdgeIdsBwd : List Nat
  deriving DecidableEq, Repr

/-- fast_graph32.rs:80-88. The function calls itself, so the model has a bound on the depth; `u32::MAX as usize` keeps the
low bits. -/
def usizeToU32 (P : Plat) : Nat → Nat → M Nat
  | 0, _ => .error .outOfFuel
  | fuel + 1, int =>
    if int == P.umax then usizeToU32 P fuel (U32_MAX % (P.umax + 1))
    else if int ≤ U32_MAX then .ok int
    else .error .assertion

/-- fast_graph32.rs:90-92 -/
def usizeToU32Vec (P : Plat) (fuel : Nat) (l : List Nat) : M (List Nat) := mapE (usizeToU32 P fuel) l

/-- fast_graph32.rs:98-106 -/
def usizeToU32Edge (P : Plat) (fuel : Nat) (e : FastGraphEdge) : M FastGraphEdge32 := do
  let baseNode ← usizeToU32 P fuel e.baseNode
  let adjNode ← usizeToU32 P fuel e.adjNode
  let weight ← usizeToU32 P fuel e.weight
  let replacedInEdge ← usizeToU32 P fuel e.replacedInEdge
  let replacedOutEdge ← usizeToU32 P fuel e.replacedOutEdge
  .ok ⟨baseNode, adjNode, weight, replacedInEdge, replacedOutEdge⟩

/-- fast_graph32.rs:94-96 -/
def usizeToU32Edges (P : Plat) (fuel : Nat) (l : List FastGraphEdge) : M (List FastGraphEdge32) :=
  mapE (usizeToU32Edge P fuel) l

/-- fast_graph32.rs:46-55; `fuel` bounds the recursion depth of `usize_to_u32`. -/
def FastGraph32.new (P : Plat) (fuel : Nat) (g : FastGraph) : M FastGraph32 := do
  let numNodes ← usizeToU32 P fuel g.getNumNodes
  let ranks ← usizeToU32Vec P fuel g.ranks
  let edgesFwd ← usizeToU32Edges P fuel g.edgesFwd
  let firstEdgeIdsFwd ← usizeToU32Vec P fuel g.firstEdgeIdsFwd
  let edgesBwd ← usizeToU32Edges P fuel g.edgesBwd
  let firstEdgeIdsBwd ← usizeToU32Vec P fuel g.firstEdgeIdsBwd
  .ok ⟨numNodes, ranks, edgesFwd, firstEdgeIdsFwd, edgesBwd, firstEdgeIdsBwd⟩

/-- `x as usize` for a `u32` -/
def u32AsUsize (P : Plat) (int : Nat) : Nat := int % (P.umax + 1)

/-- fast_graph32.rs:108-114 -/
def u32ToUsize (P : Plat) (int : Nat) : Nat := if int == U32_MAX then P.umax else u32AsUsize P int

/-- fast_graph32.rs:124-132 -/
def u32ToUsizeEdge (P : Plat) (e : FastGraphEdge32) : FastGraphEdge :=
  ⟨u32ToUsize P e.baseNode, u32ToUsize P e.adjNode, u32ToUsize P e.weight, u32ToUsize P e.replacedInEdge,
    u32ToUsize P e.replacedOutEdge⟩

/-- fast_graph32.rs:59-68 (116-122 for the vectors) -/
def FastGraph32.convertToUsize (P : Plat) (g : FastGraph32) : M FastGraph := do
  let fg ← FastGraph.new P (u32AsUsize P g.numNodes)
  .ok { fg with
    ranks := g.ranks.map (u32ToUsize P)
    edgesFwd := g.edgesFwd.map (u32ToUsizeEdge P)
    firstEdgeIdsFwd := g.firstEdgeIdsFwd.map (u32ToUsize P)
    edgesBwd := g.edgesBwd.map (u32ToUsizeEdge P)
    firstEdgeIdsBwd := g.firstEdgeIdsBwd.map (u32ToUsize P) }

end FP
