import Verif.Model.InputGraph
/-! # Model of src/floyd_warshall.rs (the second reference used by the tests) -/
namespace FP

/-- floyd_warshall.rs:25-28 -/
structure FloydWarshall where
  numNodes : Nat
  matrix : List Nat
  deriving DecidableEq, Repr

namespace FloydWarshall

/-- floyd_warshall.rs:31-38 -/
def new (P : Plat) (numNodes : Nat) : M FloydWarshall := do
  let size ← mulW P numNodes numNodes
  .ok ⟨numNodes, List.replicate size P.WEIGHT_MAX⟩

/-- The index of row `i` and column `j`, written `i * n + j` throughout floyd_warshall.rs. -/
def index (P : Plat) (n i j : Nat) : M Nat := do
  let row ← mulW P i n
  addW P row j

/-- `self.matrix[i * n + j]` -/
def get (P : Plat) (n : Nat) (m : List Nat) (i j : Nat) : M Nat := do idx m (← index P n i j)

/-- `self.matrix[i * n + j] = w` -/
def put (P : Plat) (n : Nat) (m : List Nat) (i j w : Nat) : M (List Nat) := do setIdx m (← index P n i j) w

/-- floyd_warshall.rs:47-49: store one edge -/
def setEdge (P : Plat) (n : Nat) (m : List Nat) (e : Edge) : M (List Nat) := put P n m e.src e.dst e.weight

/-- floyd_warshall.rs:53-63: the body of the three loops -/
def step (P : Plat) (n k i : Nat) (m : List Nat) (j : Nat) : M (List Nat) := do
  let m ← (if i == j then put P n m i j 0 else .ok m : M (List Nat))
  let wik ← get P n m i k
  let wkj ← get P n m k j
  if wik == P.WEIGHT_MAX || wkj == P.WEIGHT_MAX then .ok m
  else do
    let old ← get P n m i j
    let w ← addW P wik wkj
    put P n m i j (min old w)

/-- floyd_warshall.rs:40-66 -/
def prepare (P : Plat) (fw : FloydWarshall) (ig : InputGraph) : M FloydWarshall := do
  let nn ← ig.getNumNodes
  assertM (nn == fw.numNodes)
  let n := fw.numNodes
  let es ← ig.getEdges
  let m ← forM (setEdge P n) fw.matrix es
  let m ← forM (fun m k => forM (fun m i => forM (step P n k i) m (List.range n)) m (List.range n)) m (List.range n)
  .ok { fw with matrix := m }

/-- floyd_warshall.rs:68-70 -/
def calcWeight (P : Plat) (fw : FloydWarshall) (source target : Nat) : M Nat := get P fw.numNodes fw.matrix source target

end FloydWarshall
end FP
