import Verif.Model.WitnessSearch
/-! # Model of src/node_contractor.rs -/
namespace FP

/-- node_contractor.rs:100-105 -/
structure Shortcut where
  src : Nat
  dst : Nat
  center : Nat
  weight : Nat
  deriving DecidableEq, Repr

variable {pq : PQ}

/-- State of `handle_shortcuts`: graph, witness search and whatever the `FnMut` closure captured. -/
structure HSState (pq : PQ) (β : Type) where
  graph : PreparationGraph
  ws : WitnessSearch pq
  acc : β

/-- node_contractor.rs:74-86: body of the inner loop for in-arc index `i` and out-arc index `j`. All reads go to the
current graph, as in the source. -/
def handlePair {β : Type} (P : Plat) (node : Nat)
    (handle : PreparationGraph → β → Shortcut → M (PreparationGraph × β)) (maxSettled : Nat)
    (inNode i : Nat) (st : HSState pq β) (j : Nat) : M (HSState pq β) := do
  let insN ← idx st.graph.inEdges node
  let ia ← idx insN i
  let outsN ← idx st.graph.outEdges node
  let oa ← idx outsN j
  let weight ← addW P ia.weight oa.weight
  let outNode := oa.adj
  let (ws, maxWitnessWeight) ← st.ws.findMaxWeight P st.graph outNode weight maxSettled
  if maxWitnessWeight ≤ weight then .ok { st with ws := ws }
  else do
    let (g, acc) ← handle st.graph st.acc ⟨inNode, outNode, node, weight⟩
    .ok ⟨g, ws, acc⟩

/-- node_contractor.rs:71-87: body of the outer loop for in-arc index `i`. -/
def handleIn {β : Type} (P : Plat) (node : Nat)
    (handle : PreparationGraph → β → Shortcut → M (PreparationGraph × β)) (maxSettled : Nat)
    (st : HSState pq β) (i : Nat) : M (HSState pq β) := do
  let insN ← idx st.graph.inEdges node
  let ia ← idx insN i
  let inNode := ia.adj
  let ws ← st.ws.init P inNode node
  let outsN ← idx st.graph.outEdges node
  forM (handlePair P node handle maxSettled inNode i) { st with ws := ws } (List.range outsN.length)

/-- node_contractor.rs:62-88 -/
def handleShortcuts {β : Type} (P : Plat) (graph : PreparationGraph) (ws : WitnessSearch pq) (node : Nat)
    (handle : PreparationGraph → β → Shortcut → M (PreparationGraph × β)) (acc : β) (maxSettled : Nat) :
    M (HSState pq β) := do
  let insN ← idx graph.inEdges node
  forM (handleIn P node handle maxSettled) ⟨graph, ws, acc⟩ (List.range insN.length)

/-- node_contractor.rs:90-97 -/
def addShortcut (graph : PreparationGraph) (_ : Unit) (s : Shortcut) : M (PreparationGraph × Unit) := do
  let g ← graph.addOrReduceEdge s.src s.dst s.weight s.center
  .ok (g, ())

/-- node_contractor.rs:28-36 -/
def contractNode (P : Plat) (graph : PreparationGraph) (ws : WitnessSearch pq) (node maxSettled : Nat) :
    M (PreparationGraph × WitnessSearch pq) := do
  let st ← handleShortcuts P graph ws node addShortcut () maxSettled
  let g ← st.graph.disconnect node
  .ok (g, st.ws)

/-- `i32::MAX` -/
def I32_MAX : Nat := 2147483647

/-- node_contractor.rs:46, 51-53: the closure of `calc_relevance`, counting shortcuts. The counter `num_shortcuts` is declared
without a type and only used in `+= 1` and `as f32`, so it is an `i32`: the addition overflows at `i32::MAX`. -/
def countShortcut (P : Plat) (graph : PreparationGraph) (n : Int) (_ : Shortcut) : M (PreparationGraph × Int) :=
  if n < I32_MAX then .ok (graph, n + 1)
  else if P.checked then .error .overflow
  else .ok (graph, -(I32_MAX : Int) - 1)

/-- node_contractor.rs:38-60 together with the cast `as Weight` of its callers. The `f32` formula is replaced by an
arbitrary function `relevance level num_shortcuts num_edges`: no property depends on its values. -/
def calcRelevance (P : Plat) (relevance : Nat → Int → Nat → Nat) (graph : PreparationGraph) (ws : WitnessSearch pq)
    (node level maxSettled : Nat) : M (PreparationGraph × WitnessSearch pq × Nat) := do
  let st ← handleShortcuts P graph ws node (countShortcut P) 0 maxSettled
  let outs ← idx st.graph.outEdges node
  let ins ← idx st.graph.inEdges node
  .ok (st.graph, st.ws, relevance level st.acc (outs.length + ins.length))

end FP
