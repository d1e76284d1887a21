import Verif.Proofs.Simple
import Verif.Props.Bounds
/-!
# Budgets of the contraction and weights of shortcuts

A contraction whose witness searches may settle more nodes than the graph has only stores edges that stand for simple paths, so
weights stay linear in the number of nodes. With small budgets they do not, and there are graphs the total weight of which is far
from `usize::MAX` that cannot be prepared.
-/
set_option autoImplicit false
namespace FP
namespace Props
open Spec

/-- The client prepared the graph with a budget for contractions that exceeds the number of nodes. The defaults are 500
(fast_graph_builder.rs:316-318) and 100 with a given order (fast_graph_builder.rs:337-339). -/
inductive PreparedWide (P : Plat) (ig : InputGraph) (fg : FastGraph) : Prop where
  | default (pq : PQ) (nq : NodeQueue) (relevance : Nat → Int → Nat → Nat) (wide : ig.numNodes < 500)
      (h : prepare P pq nq relevance ig = .ok fg)
  | params (pq : PQ) (nq : NodeQueue) (params : Params) (wide : ig.numNodes < params.maxSettledContraction)
      (h : prepareWithParams P pq nq ig params = .ok fg)
  | order (pq : PQ) (order : List Nat) (perm : order.Perm (List.range ig.numNodes)) (wide : ig.numNodes < 100)
      (h : prepareWithOrder P pq ig order = .ok (.ok fg))
  | orderParams (pq : PQ) (order : List Nat) (maxSettled : Nat) (perm : order.Perm (List.range ig.numNodes))
      (wide : ig.numNodes < maxSettled) (h : prepareWithOrderWithParams P pq ig order maxSettled = .ok (.ok fg))

theorem PreparedWide.built {P : Plat} (hP : P.checked = true) {ig : InputGraph} (hF : FrozenOk ig) {fg : FastGraph}
    (h : PreparedWide P ig fg) : BuiltFrom P ig.numNodes (needStep P) ig.edges fg := by
  cases h with
  | default pq nq relevance wide h =>
    exact ((buildWithParams_built hP hF (Params.default relevance) (stepsOk_need hP wide)).of_ok h).2
  | params pq nq params wide h => exact ((buildWithParams_built hP hF params (stepsOk_need hP wide)).of_ok h).2
  | order pq order perm wide h =>
    obtain ⟨fg', e, _, hb, _⟩ := (buildWithOrder_built hP hF perm paramsWithOrderDefault (stepsOk_need hP wide)).of_ok h
    cases e; exact hb
  | orderParams pq order ms perm wide h =>
    obtain ⟨fg', e, _, hb, _⟩ := (buildWithOrder_built hP hF perm ms (stepsOk_need hP wide)).of_ok h
    cases e; exact hb

theorem PreparedWide.prepared {P : Plat} {ig : InputGraph} {fg : FastGraph} (h : PreparedWide P ig fg) : Prepared P ig fg := by
  cases h with
  | default pq nq relevance wide h => exact .default pq nq relevance h
  | params pq nq params wide h => exact .params pq nq params h
  | order pq order perm wide h => exact .order pq order perm h
  | orderParams pq order ms perm wide h => exact .orderParams pq order ms perm h

/-- **C64** Every stored edge, shortcut or not, has the weight of a path of the input graph between its end nodes that visits no
node twice. -/
theorem C64_stored_edges_are_simple_paths {P : Plat} (hP : P.checked = true) {ops : List Op} {ig : InputGraph}
    (hb : buildGraph P ops = .ok ig) (hf : ig.frozen = true) {fg : FastGraph} (hw : PreparedWide P ig fg) :
    (∀ ed ∈ fg.edgesFwd, ∃ nodes, IsWalk (edgesOf ig.edges) nodes ed.weight ∧ nodes.head? = some ed.baseNode ∧
      nodes.getLast? = some ed.adjNode ∧ nodes.Nodup) ∧
    ∀ ed ∈ fg.edgesBwd, ∃ nodes, IsWalk (edgesOf ig.edges) nodes ed.weight ∧ nodes.head? = some ed.adjNode ∧
      nodes.getLast? = some ed.baseNode ∧ nodes.Nodup := by
  have hF := (buildGraph_inv (Or.inl hP) hb).frozenOk hf
  obtain ⟨h1, h2⟩ := (hw.built hP hF).straight (buildGraph_inv (Or.inl hP) hb).pos
  constructor
  · intro ed hed
    obtain ⟨L, hL, hn, _⟩ := h1 ed hed
    exact ⟨_, hL.isWalk.1, hL.isWalk.2.1, hL.isWalk.2.2, hn⟩
  · intro ed hed
    obtain ⟨L, hL, hn, _⟩ := h2 ed hed
    exact ⟨_, hL.isWalk.1, hL.isWalk.2.1, hL.isWalk.2.2, hn⟩

/-- **C64** So no stored weight exceeds `(n - 1) * W`. -/
theorem C64_stored_weights {P : Plat} (hP : P.checked = true) {ops : List Op} {ig : InputGraph}
    (hb : buildGraph P ops = .ok ig) (hf : ig.frozen = true) {fg : FastGraph} (hw : PreparedWide P ig fg) {W : Nat}
    (hW : ∀ e ∈ accepted ops, e.weight ≤ W) : ∀ ed ∈ fg.edgesFwd ++ fg.edgesBwd, ed.weight ≤ (ig.numNodes - 1) * W := by
  have hF := (buildGraph_inv (Or.inl hP) hb).frozenOk hf
  have hlt : ∀ u v w, edgesOf ig.edges u v w → u < ig.numNodes ∧ v < ig.numNodes := fun u v w e => hF.lt _ e
  have hle : ∀ u v w, edgesOf ig.edges u v w → w ≤ W := fun u v w e => weights_le hP hb hW _ e
  obtain ⟨h1, h2⟩ := C64_stored_edges_are_simple_paths hP hb hf hw
  have key : ∀ nodes w s, IsWalk (edgesOf ig.edges) nodes w → nodes.head? = some s → nodes.Nodup →
      w ≤ (ig.numNodes - 1) * W := by
    intro nodes w s hk hs hn
    match nodes, hk with
    | [_], hk => have : w = 0 := hk; omega
    | u :: v :: rest, hk =>
      have hk0 := hk
      obtain ⟨a, b, e, _, _⟩ := hk
      have hsub : u :: v :: rest ⊆ List.range ig.numNodes := fun y hy =>
        List.mem_range.2 (isWalk_lt hlt hk0 rfl (hlt _ _ _ e).1 y hy)
      have hlen : (u :: v :: rest).length ≤ ig.numNodes := by simpa using (List.subperm_of_subset hn hsub).length_le
      exact Nat.le_trans (isWalk_weight_le hle hk0) (Nat.mul_le_mul_right W (by omega))
  intro ed hed
  rcases List.mem_append.1 hed with hed | hed
  · obtain ⟨L, k1, k2, _, k3⟩ := h1 ed hed; exact key L _ _ k1 k2 k3
  · obtain ⟨L, k1, k2, _, k3⟩ := h2 ed hed; exact key L _ _ k1 k2 k3

/-- **C64** With such a budget, `4 * (n - 1) * W ≤ usize::MAX` suffices for preparing by parameters, checked build or not. Compare
`C33_prepare_with_params`, which needs `2 ^ (n + 2) * W`. -/
theorem C64_prepare_with_params {P : Plat} {ops : List Op} {ig : InputGraph} (hb : buildGraph P.debug ops = .ok ig)
    (hf : ig.frozen = true) {W : Nat} (hW : ∀ e ∈ accepted ops, e.weight ≤ W)
    (hfit : 4 * ((ig.numNodes - 1) * W) ≤ P.umax) (hcap : ig.numNodes * ig.numNodes < P.umax)
    (hcnt : ig.numNodes * ig.numNodes ≤ I32_MAX) (pq : PQ) (nq : NodeQueue) (params : Params)
    (wide : ig.numNodes < params.maxSettledContraction) :
    ∃ fg, prepareWithParams P pq nq ig params = .ok fg := by
  have hF := (buildGraph_inv (Or.inl rfl) hb).frozenOk hf
  have h : ∃ fg, prepareWithParams P.debug pq nq ig params = .ok fg := by
    obtain ⟨fg, e⟩ := runContraction_total (P := P.debug) (pq := pq) (nq := nq) rfl hF params
      (stepsOk_need rfl wide) (bounded_need (P := P.debug) (buildGraph_inv (Or.inl rfl) hb).pos hF.lt (weights_le (P := P.debug) rfl hb hW) hfit hcap) hcnt
    refine ⟨fg, ?_⟩
    unfold prepareWithParams buildWithParams
    rw [getNumNodes_frozen hf]
    exact e
  obtain ⟨fg, e⟩ := h
  exact ⟨fg, (C32_prepare_with_params hb hf pq nq params (by rw [e]; simp)).trans e⟩

/-- **C64** The same for the default preparation of graphs with less than 500 nodes. -/
theorem C64_prepare {P : Plat} {ops : List Op} {ig : InputGraph} (hb : buildGraph P.debug ops = .ok ig)
    (hf : ig.frozen = true) {W : Nat} (hW : ∀ e ∈ accepted ops, e.weight ≤ W)
    (hfit : 4 * ((ig.numNodes - 1) * W) ≤ P.umax) (hcap : 250000 ≤ P.umax) (wide : ig.numNodes < 500) (pq : PQ)
    (nq : NodeQueue) (relevance : Nat → Int → Nat → Nat) : ∃ fg, prepare P pq nq relevance ig = .ok fg := by
  have : ig.numNodes * ig.numNodes ≤ 499 * 499 := Nat.mul_le_mul (by omega) (by omega)
  exact C64_prepare_with_params hb hf hW hfit (by omega) (by unfold I32_MAX; omega) pq nq (Params.default relevance) wide

/-- **C64** The same for a given order. -/
theorem C64_prepare_with_order_with_params {P : Plat} {ops : List Op} {ig : InputGraph}
    (hb : buildGraph P.debug ops = .ok ig) (hf : ig.frozen = true) {W : Nat} (hW : ∀ e ∈ accepted ops, e.weight ≤ W)
    (hfit : 4 * ((ig.numNodes - 1) * W) ≤ P.umax) (hcap : ig.numNodes * ig.numNodes < P.umax)
    (pq : PQ) {order : List Nat} (ho : order.Perm (List.range ig.numNodes)) {maxSettled : Nat} (wide : ig.numNodes < maxSettled) :
    ∃ fg, prepareWithOrderWithParams P pq ig order maxSettled = .ok (.ok fg) := by
  have hF := (buildGraph_inv (Or.inl rfl) hb).frozenOk hf
  have h : ∃ fg, prepareWithOrderWithParams P.debug pq ig order maxSettled = .ok (.ok fg) := by
    obtain ⟨fg, e⟩ := runContractionWithOrder_total (P := P.debug) (pq := pq) rfl hF ho maxSettled
      (stepsOk_need rfl wide) (bounded_need (P := P.debug) (buildGraph_inv (Or.inl rfl) hb).pos hF.lt (weights_le (P := P.debug) rfl hb hW) hfit hcap)
    refine ⟨fg, ?_⟩
    unfold prepareWithOrderWithParams buildWithOrderWithParams
    rw [getNumNodes_frozen hf]
    simp only [bind_okM]
    rw [if_neg (by simp [ho.length_eq]), e]
    rfl
  obtain ⟨fg, e⟩ := h
  exact ⟨fg, (C32_prepare_with_order hb hf pq ho maxSettled (by rw [e]; simp)).trans e⟩

/-- **C64** The same for a given order and the default limit, graphs with less than 100 nodes. -/
theorem C64_prepare_with_order {P : Plat} {ops : List Op} {ig : InputGraph}
    (hb : buildGraph P.debug ops = .ok ig) (hf : ig.frozen = true) {W : Nat} (hW : ∀ e ∈ accepted ops, e.weight ≤ W)
    (hfit : 4 * ((ig.numNodes - 1) * W) ≤ P.umax) (hcap : 10000 ≤ P.umax) (wide : ig.numNodes < 100)
    (pq : PQ) {order : List Nat} (ho : order.Perm (List.range ig.numNodes)) :
    ∃ fg, prepareWithOrder P pq ig order = .ok (.ok fg) := by
  have : ig.numNodes * ig.numNodes ≤ 99 * 99 := Nat.mul_le_mul (by omega) (by omega)
  exact C64_prepare_with_order_with_params hb hf hW hfit (by omega) pq ho (by unfold paramsWithOrderDefault; omega)

/-- **C64** Queries on such graphs: `ws + wt + 2 * n * (n - 1) * W ≤ usize::MAX` suffices, with any history. -/
theorem C64_query {P : Plat} {ops : List Op} {ig : InputGraph} (hb : buildGraph P.debug ops = .ok ig) (hf : ig.frozen = true)
    {fg : FastGraph} (hw : PreparedWide P.debug ig fg) {W : Nat} (hW : ∀ e ∈ accepted ops, e.weight ≤ W) (pq : PQ)
    (history : List Request) {c : PathCalculator pq}
    (hh : runRequests P (PathCalculator.new P pq ig.numNodes) history = .ok c) {S T : List (Nat × Nat)}
    (hS : S ≠ []) (hT : T ≠ []) {ws wt : Nat} (hSn : ∀ x ∈ S, x.1 < ig.numNodes ∧ (x.2 < P.umax → x.2 ≤ ws))
    (hTn : ∀ x ∈ T, x.1 < ig.numNodes ∧ (x.2 < P.umax → x.2 ≤ wt))
    (hfit : ws + wt + 2 * (ig.numNodes * ((ig.numNodes - 1) * W)) ≤ P.umax) : ∃ r, c.calcPathMulti P fg S T = .ok r :=
  C33_query_stored ⟨hb, hf, hw.prepared⟩ (C64_stored_weights (P := P.debug) rfl hb hf hw hW) pq history hh hS hT hSn hTn hfit

theorem exampleWide : PreparedWide debug64 Ex.ig Ex.fg := .default binaryHeap listQueue Ex.rel (by decide) Ex.preparedDefault
theorem exampleWide' : PreparedWide debug64 Ex.ig Ex.fgo := .order binaryHeap Ex.order Ex.perm (by decide) Ex.preparedOrder

example : ∃ nodes, IsWalk (edgesOf Ex.ig.edges) nodes 7 ∧ nodes.head? = some 3 ∧ nodes.getLast? = some 1 ∧ nodes.Nodup :=
  (C64_stored_edges_are_simple_paths (P := debug64) rfl Ex.built rfl exampleWide).2 ⟨1, 3, 7, 0, 2⟩ (by decide)
example : ∀ ed ∈ Ex.fgo.edgesFwd ++ Ex.fgo.edgesBwd, ed.weight ≤ 36 :=
  C64_stored_weights (P := debug64) rfl Ex.built rfl exampleWide' (W := 9) (by decide)
/-- `C33_prepare` does not apply here: `2 ^ 7 * 2 ^ 59` does not fit. -/
example : ∃ ig fg, buildGraph debug64 [.addEdge 0 1 (2 ^ 59), .addEdge 1 2 (2 ^ 59), .addEdge 2 3 (2 ^ 59), .addEdge 3 4 1, .freeze] =
    .ok ig ∧ prepare release64 binaryHeap listQueue Ex.rel ig = .ok fg := by
  obtain ⟨fg, e⟩ := C64_prepare (P := release64)
    (ops := [.addEdge 0 1 (2 ^ 59), .addEdge 1 2 (2 ^ 59), .addEdge 2 3 (2 ^ 59), .addEdge 3 4 1, .freeze]) rfl rfl
    (W := 2 ^ 59) (by decide) (by decide) (by decide) (by decide) binaryHeap listQueue Ex.rel
  exact ⟨_, fg, rfl, e⟩
example : ∃ fg, prepareWithOrder debug32 binaryHeap Ex.ig [4, 2, 0, 1, 3] = .ok (.ok fg) :=
  C64_prepare_with_order (P := debug32) (ops := Ex.ops) rfl rfl (W := 9) (by decide) (by decide) (by decide) (by decide) _
    (by decide)
example : ∃ fg, prepareWithOrderWithParams release64 binaryHeap Ex.ig [4, 2, 0, 1, 3] 6 = .ok (.ok fg) :=
  C64_prepare_with_order_with_params (P := release64) (ops := Ex.ops) rfl rfl (W := 9) (by decide) (by decide) (by decide) _
    (by decide) (by decide)
example : ∃ r, (PathCalculator.new debug64 binaryHeap 5).calcPathMulti debug64 Ex.fgo Ex.sources Ex.targets = .ok r :=
  C64_query (P := debug64) Ex.built rfl exampleWide' (W := 9) (by decide) binaryHeap [] rfl (by decide) (by decide)
    (ws := 9) (wt := 20) (by decide) (by decide) (by decide)

/-! ## Small budgets

A graph with 26 nodes for which limited witness searches make shortcuts grow like Fibonacci numbers. The weight of a shortcut
overflows although all edges together weigh less than `2 ^ 63`. -/

/-- Weight of the heavy edges. -/
def hugeW : Nat := (2 ^ 64 - 16) / 33

/-- The nodes `3 * j` form the chain the shortcuts of which grow, the other nodes use up the budget of two nodes. -/
def hugeOps : List Op :=
  (List.range 8).flatMap (fun j =>
    [.addEdge (3 * j) 24 4, .addEdge 24 (3 * j) 6] ++
    (if j < 5 then [.addEdgeBidir (3 * j) (3 * j + 9) (if j = 4 then hugeW + 17 else hugeW)] else []) ++
    (if j < 2 then [.addEdge (3 * j) 25 3] else []) ++
    (if 3 ≤ j then [.addEdge (3 * j) (3 * j + 2) 1, .addEdge (3 * j + 2) (3 * j - 3) 10, .addEdge (3 * j + 2) (3 * j + 1) 1]
      else []) ++
    (if j = 2 then [.addEdge 6 7 2] else []) ++
    (if 2 ≤ j then (if j < 7 then [.addEdge (3 * j + 1) (3 * j + 3) 10] else []) ++ [.addEdge (3 * j + 1) 25 1] else [])) ++
  [.addEdge 24 25 1, .addEdgeBidir 0 3 hugeW, .addEdgeBidir 0 6 hugeW, .freeze]

/-- The order of contraction. -/
def hugeOrder : List Nat :=
  [0, 7, 11, 3, 10, 14, 6, 13, 17, 9, 16, 20, 12, 19, 23, 15, 22, 18, 1, 2, 4, 5, 8, 21, 24, 25]

/-- The resulting graph. -/
def hugeGraph : InputGraph where
  edges := match buildGraph debug64 hugeOps with | .ok ig => ig.edges | .error _ => []
  numNodes := 26
  frozen := true

set_option maxRecDepth 10000 in
theorem hugeBuilt : buildGraph debug64 hugeOps = .ok hugeGraph := by rfl
set_option maxRecDepth 10000 in
theorem hugeBuilt' : buildGraph release64 hugeOps = .ok hugeGraph := by rfl
theorem hugePerm : hugeOrder.Perm (List.range hugeGraph.numNodes) := by decide +kernel

/-- All edges together weigh less than half of `usize::MAX`. -/
theorem hugeTotal : 2 * (hugeGraph.edges.map Edge.weight).sum < debug64.umax := by decide +kernel

theorem hugePanic : prepareWithOrderWithParams debug64 binaryHeap hugeGraph hugeOrder 2 = .error .overflow := by rfl

/-- **C64** The claim that a graph can be prepared when all its edges together weigh less than half of `usize::MAX` is false for
small budgets: a checked build panics. -/
theorem C64_total_weight_bound_false : ¬ ∀ (ops : List Op) (ig : InputGraph) (order : List Nat) (maxSettled : Nat),
    buildGraph debug64 ops = .ok ig → ig.frozen = true → order.Perm (List.range ig.numNodes) →
    2 * (ig.edges.map Edge.weight).sum < debug64.umax →
    ∃ fg, prepareWithOrderWithParams debug64 binaryHeap ig order maxSettled = .ok (.ok fg) := by
  intro h
  obtain ⟨fg, e⟩ := h _ _ _ 2 hugeBuilt rfl hugePerm hugeTotal
  rw [hugePanic] at e
  cases e

/-- **C64** A build without overflow checks prepares the graph and answers with weight 1 where the distance is 10. -/
theorem C64_release_answer_false : ¬ ∀ (ops : List Op) (ig : InputGraph) (order : List Nat) (maxSettled : Nat) (fg : FastGraph),
    buildGraph release64 ops = .ok ig → ig.frozen = true → order.Perm (List.range ig.numNodes) →
    2 * (ig.edges.map Edge.weight).sum < release64.umax →
    prepareWithOrderWithParams release64 binaryHeap ig order maxSettled = .ok (.ok fg) →
    ∀ s t p, calcPath release64 binaryHeap fg s t = .ok (some p) → HasWalk (edgesOf ig.edges) s t p.weight := by
  intro h
  have hp : ∃ fg, prepareWithOrderWithParams release64 binaryHeap hugeGraph hugeOrder 2 = .ok (.ok fg) ∧
      ∃ p, calcPath release64 binaryHeap fg 18 21 = .ok (some p) ∧ p.weight = 1 := by
    refine ⟨_, rfl, _, rfl, ?_⟩
    decide +kernel
  obtain ⟨fg, e, p, e2, hw⟩ := hp
  have hk := h hugeOps hugeGraph hugeOrder 2 fg hugeBuilt' rfl hugePerm hugeTotal e 18 21 p e2
  rw [hw] at hk
  obtain ⟨nodes, k1, k2, k3⟩ := hk
  have hpos : ∀ e ∈ hugeGraph.edges, 1 ≤ e.weight := by decide +kernel
  have hno : ∀ e ∈ hugeGraph.edges, e.src = 18 → e.weight = 1 → e.dst ≠ 21 := by decide +kernel
  match nodes, k1 with
  | [a], k1 => simp at k2 k3; omega
  | [a, b], k1 =>
    obtain ⟨x, y, q1, q2, q3⟩ := k1
    simp at k2 k3
    subst k2 k3
    have : y = 0 := q2
    exact hno _ q1 rfl (by show x = 1; omega) rfl
  | a :: b :: c :: rest, k1 =>
    obtain ⟨x, y, q1, ⟨x', y', q4, _, q5⟩, q3⟩ := k1
    have := hpos _ q1
    have := hpos _ q4
    simp only at *
    omega

/-- With the default budget the same graph is fine. -/
example : ∃ fg, prepareWithOrder debug64 binaryHeap hugeGraph hugeOrder = .ok (.ok fg) ∧
    calcPath debug64 binaryHeap fg 18 21 = .ok (some ⟨18, 21, 10, [18, 24, 21]⟩) :=
  ⟨_, rfl, rfl⟩

end Props
end FP
