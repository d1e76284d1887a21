import Verif.Model.PathCalculator
/-! # Queries that count the calls of `unpack_fwd` and `unpack_bwd`

The definitions of `Model/PathCalculator` (path_calculator.rs:64-211, 247-335) once more, returning also how often `unpack_fwd` and
`unpack_bwd` were entered (`calls`) and how many edges of the search trees were unpacked (`tops`, the turns of the two loops of
`extract_nodes`). C125 proves that leaving out the numbers gives the original. -/
namespace FP.PathCalculator
variable {pq : PQ}

mutual
/-- path_calculator.rs:269-301, counting calls -/
def unpackFwdC (P : Plat) (g : FastGraph) : Nat → List Nat × Nat → Nat → Bool → M (List Nat × Nat)
  | 0, _, _, _ => .error .outOfFuel
  | fuel + 1, (nodes, calls), edgeId, reverse => do
    let ed ← idx g.edgesFwd edgeId
    if !(← ed.isShortcut P) then .ok (nodes ++ [ed.baseNode], calls + 1)
    else if reverse then do
      let st ← unpackFwdC P g fuel (nodes, calls + 1) ed.replacedOutEdge reverse
      unpackBwdC P g fuel st ed.replacedInEdge reverse
    else do
      let st ← unpackBwdC P g fuel (nodes, calls + 1) ed.replacedInEdge reverse
      unpackFwdC P g fuel st ed.replacedOutEdge reverse

/-- path_calculator.rs:303-335, counting calls -/
def unpackBwdC (P : Plat) (g : FastGraph) : Nat → List Nat × Nat → Nat → Bool → M (List Nat × Nat)
  | 0, _, _, _ => .error .outOfFuel
  | fuel + 1, (nodes, calls), edgeId, reverse => do
    let ed ← idx g.edgesBwd edgeId
    if !(← ed.isShortcut P) then .ok (nodes ++ [ed.adjNode], calls + 1)
    else if reverse then do
      let st ← unpackFwdC P g fuel (nodes, calls + 1) ed.replacedOutEdge reverse
      unpackBwdC P g fuel st ed.replacedInEdge reverse
    else do
      let st ← unpackBwdC P g fuel (nodes, calls + 1) ed.replacedInEdge reverse
      unpackFwdC P g fuel st ed.replacedOutEdge reverse
end

/-- path_calculator.rs:253-256, counting calls and turns; state: nodes, calls, turns -/
def walkFwdC (P : Plat) (g : FastGraph) (s : Side pq) : Nat → List Nat × Nat × Nat → Nat → M (List Nat × Nat × Nat)
  | 0, _, _ => .error .outOfFuel
  | fuel + 1, (result, calls, tops), node => do
    let d ← idx s.data node
    if d.incEdge != P.INVALID_EDGE then do
      let (result, calls) ← unpackFwdC P g (unpackFuel g) (result, calls) d.incEdge true
      walkFwdC P g s fuel (result, calls, tops + 1) d.parent
    else .ok (result, calls, tops)

/-- path_calculator.rs:259-266, counting calls and turns -/
def walkBwdC (P : Plat) (g : FastGraph) (s : Side pq) : Nat → List Nat × Nat × Nat → Nat → M (List Nat × Nat × Nat)
  | 0, _, _ => .error .outOfFuel
  | fuel + 1, (result, calls, tops), node => do
    let d ← idx s.data node
    if d.incEdge != P.INVALID_EDGE then do
      let (result, calls) ← unpackBwdC P g (unpackFuel g) (result, calls) d.incEdge false
      walkBwdC P g s fuel (result, calls, tops + 1) d.parent
    else .ok (result ++ [node], calls, tops)

/-- path_calculator.rs:247-267, counting -/
def extractNodesC (P : Plat) (g : FastGraph) (fwd bwd : Side pq) (meet : Nat) : M (List Nat × Nat × Nat) := do
  assertM (meet != P.INVALID_NODE)
  assertM (← fwd.flags.isValid meet)
  assertM (← bwd.flags.isValid meet)
  let (result, calls, tops) ← walkFwdC P g fwd (g.numNodes + 1) ([], 0, 0) meet
  walkBwdC P g bwd (g.numNodes + 1) (result.reverse, calls, tops) meet

/-- path_calculator.rs:64-211, counting; the numbers are those of the one call of `extract_nodes`, 0 if there is none. -/
def calcPathMultiC (P : Plat) (c : PathCalculator pq) (g : FastGraph) (starts ends : List (Nat × Nat)) :
    M ((PathCalculator pq × Option ShortestPath) × Nat × Nat) := do
  checkArgs c g starts ends
  let fwd := c.fwd.clear
  let bwd := c.bwd.clear
  let (best, meet) ← initialMeeting P starts ends
  let fwd ← forM (Side.addRoot P) fwd starts
  let bwd ← forM (Side.addRoot P) bwd ends
  let st ← mainLoop P g (mainFuel g starts ends) ⟨fwd, bwd, best, meet⟩
  let c' : PathCalculator pq := { c with fwd := st.fwd, bwd := st.bwd }
  if st.meet == P.INVALID_NODE then .ok ((c', none), 0, 0)
  else do
    assertM (decide (st.best < P.WEIGHT_MAX))
    let (nodes, calls, tops) ← extractNodesC P g st.fwd st.bwd st.meet
    assertM (!nodes.isEmpty)
    let first ← idx nodes 0
    let last ← idx nodes (nodes.length - 1)
    .ok ((c', some ⟨first, last, st.best, nodes⟩), calls, tops)

end FP.PathCalculator
