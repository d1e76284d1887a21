import Verif.Model.Builder
import Verif.Model.PathCalculator
/-! # Model of src/lib.rs: the public functions -/
namespace FP

/-- lib.rs:54-56 (`Params::default()`, the `f32` relevance formula being arbitrary) -/
def prepare (P : Plat) (pq : PQ) (nq : NodeQueue) (relevance : Nat → Int → Nat → Nat) (ig : InputGraph) :
    M FastGraph :=
  buildWithParams P pq nq ig (Params.default relevance)

/-- lib.rs:59-61 -/
def prepareWithParams (P : Plat) (pq : PQ) (nq : NodeQueue) (ig : InputGraph) (params : Params) : M FastGraph :=
  buildWithParams P pq nq ig params

/-- lib.rs:67-69 -/
def prepareWithOrder (P : Plat) (pq : PQ) (ig : InputGraph) (order : List Nat) : M (Except String FastGraph) :=
  buildWithOrderWithParams P pq ig order paramsWithOrderDefault

/-- lib.rs:72-78 -/
def prepareWithOrderWithParams (P : Plat) (pq : PQ) (ig : InputGraph) (order : List Nat) (maxSettled : Nat) :
    M (Except String FastGraph) :=
  buildWithOrderWithParams P pq ig order maxSettled

/-- lib.rs:81-84 -/
def calcPath (P : Plat) (pq : PQ) (g : FastGraph) (source target : Nat) : M (Option ShortestPath) := do
  let (_, r) ← (PathCalculator.new P pq g.getNumNodes).calcPath P g source target
  .ok r

/-- lib.rs:92-99 -/
def calcPathMulti (P : Plat) (pq : PQ) (g : FastGraph) (sources targets : List (Nat × Nat)) :
    M (Option ShortestPath) := do
  let (_, r) ← (PathCalculator.new P pq g.getNumNodes).calcPathMulti P g sources targets
  .ok r

/-- lib.rs:104-106 -/
def createCalculator (P : Plat) (pq : PQ) (g : FastGraph) : PathCalculator pq := PathCalculator.new P pq g.getNumNodes

/-- lib.rs:110-112 -/
def getNodeOrdering (g : FastGraph) : M (List Nat) := g.getNodeOrdering

end FP
