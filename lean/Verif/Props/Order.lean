import Verif.Props.Structures
import Verif.Proofs.Order
import Verif.Props.Example
/-!
# The order of contraction

`prepare` contracts the nodes in the order of their priorities, which it updates after every contraction
(fast_graph_builder.rs:84-159). The answers do not depend on this order (C12), the size of the prepared graph and the speed of
queries do. C69 says which order it is, C70 what is stored for every node.
-/
set_option autoImplicit false
namespace FP
namespace Props
open Spec

/-- **C69** Whenever a node `v` is contracted, its priority is at most that of every node `u` that is left: when the queue pops nodes
of least priority. The priorities are those of `IsPriority`: they are computed from the current level and the current number of
neighbors, and from the number of shortcuts at the time the last neighbor was contracted. -/
theorem C69_contraction_order {P : Plat} (hP : P.checked = true) {ops : List Op} {ig : InputGraph} {fg : FastGraph}
    (hb : buildGraph P ops = .ok ig) (hf : ig.frozen = true) {pq : PQ} {nq : NodeQueue} {prio : nq.σ → Nat → Nat}
    (ho : Ordered nq prio) {params : Params} (hp : prepareWithParams P pq nq ig params = .ok fg) {order : List Nat}
    (hord : getNodeOrdering fg = .ok order) {pre rest : List Nat} {v : Nat} (he : order = pre ++ v :: rest) {u : Nat}
    (hu : u ∈ rest) :
    (∃ g, remaining P pq ig params.maxSettledContraction pre = .ok g) ∧ ∃ p q, p ≤ q ∧
      IsPriority P.umax ig.numNodes (remainingEdges P pq ig params.maxSettledContraction) params.relevance
        params.maxSettledInitialRelevance params.maxSettledNeighborRelevance pre v p ∧
      IsPriority P.umax ig.numNodes (remainingEdges P pq ig params.maxSettledContraction) params.relevance
        params.maxSettledInitialRelevance params.maxSettledNeighborRelevance pre u q := by
  have hF := (buildGraph_inv (Or.inl hP) hb).frozenOk hf
  constructor
  · obtain ⟨_, hB⟩ := (buildWithParams_built hP hF params (stepsOk_fresh pq P _ _)).of_ok hp
    obtain ⟨g, hg, _⟩ := stored_edges hF hB hord he
    exact ⟨g, hg⟩
  · obtain ⟨p, q, h1, h2, h3⟩ := contraction_order hP hF ho hp hord he (List.mem_cons_of_mem _ hu)
    exact ⟨p, q, h3, h1, h2⟩

/-- The order of the example graph. After nodes 0 and 4, node 1 is contracted and not node 3. -/
example : ∃ p q, p ≤ q ∧
    IsPriority debug64.umax 5 (remainingEdges debug64 binaryHeap Ex.ig 500) Ex.rel 500 100 [0, 4] 1 p ∧
    IsPriority debug64.umax 5 (remainingEdges debug64 binaryHeap Ex.ig 500) Ex.rel 500 100 [0, 4] 3 q :=
  (C69_contraction_order rfl Ex.built Ex.frozen listQueue_ordered (params := .default Ex.rel) Ex.preparedDefault
    (order := [0, 4, 1, 3, 2]) rfl (pre := [0, 4]) (v := 1) (rest := [3, 2]) rfl (u := 3) (by decide)).2

/-- **C69** With budgets above the number of nodes the priorities are determined: the formula applied to the level, to the number of
pairs that needed a shortcut when the last neighbor was contracted, and to the number of neighbors. -/
theorem C69_generous_budgets {P : Plat} (hP : P.checked = true) {ops : List Op} {ig : InputGraph} {fg : FastGraph}
    (hb : buildGraph P ops = .ok ig) (hf : ig.frozen = true) {pq : PQ} {nq : NodeQueue} {prio : nq.σ → Nat → Nat}
    (ho : Ordered nq prio) {params : Params} (h0 : ig.numNodes < params.maxSettledInitialRelevance)
    (h1 : ig.numNodes < params.maxSettledNeighborRelevance) (hp : prepareWithParams P pq nq ig params = .ok fg) {order : List Nat}
    (hord : getNodeOrdering fg = .ok order) {pre rest : List Nat} {v : Nat} (he : order = pre ++ v :: rest) {u : Nat}
    (hu : u ∈ rest) (G : List Nat → EdgeRel) (hG : G = remainingEdges P pq ig params.maxSettledContraction)
    {beforeV beforeU : List Nat} {levelV levelU : Nat} (hv1 : LastUpdate G pre v beforeV) (hv2 : IsLevel G pre v levelV)
    (hu1 : LastUpdate G pre u beforeU) (hu2 : IsLevel G pre u levelU) :
    params.relevance levelV (neededPairs P.umax (G beforeV) v).ncard (degree (G pre) v) ≤
    params.relevance levelU (neededPairs P.umax (G beforeU) u).ncard (degree (G pre) u) := by
  subst hG
  obtain ⟨_, p, q, hpq, ⟨b, l, c, k1, k2, k3, _, _, k4⟩, b', l', c', j1, j2, j3, _, _, j4⟩ :=
    C69_contraction_order hP hb hf ho hp hord he hu
  have hB : ∀ b : List Nat, ig.numNodes < (if b = [] then params.maxSettledInitialRelevance else params.maxSettledNeighborRelevance) := by
    intro b
    split
    · exact h0
    · exact h1
  rw [lastUpdate_unique hv1 k1, isLevel_unique hv2 k2, lastUpdate_unique hu1 j1, isLevel_unique hu2 j2, ← k4 (hB _), ← j4 (hB _),
    ← k3, ← j3]
  exact hpq

/-- Levels and the nodes up to the last neighbor always exist, so the theorem applies to every pair of nodes. -/
example (G : List Nat → EdgeRel) (done : List Nat) (x : Nat) : ∃ k, IsLevel G done x k := isLevel_exists G done x

/-- In the example, node 4 is contracted second. Node 0 was no neighbor of node 4, so its priority was computed at the beginning;
node 0 was a neighbor of node 1, whose level is now 1. -/
example : Ex.rel 0 (neededPairs debug64.umax (remainingEdges debug64 binaryHeap Ex.ig 500 []) 4).ncard
      (degree (remainingEdges debug64 binaryHeap Ex.ig 500 [0]) 4) ≤
    Ex.rel 1 (neededPairs debug64.umax (remainingEdges debug64 binaryHeap Ex.ig 500 [0]) 1).ncard
      (degree (remainingEdges debug64 binaryHeap Ex.ig 500 [0]) 1) := by
  have hr : ∃ g, remaining debug64 binaryHeap Ex.ig 500 [] = .ok g ∧ neighborSet (g.outs 0) (g.ins 0) = [1, 2] := ⟨_, rfl, rfl⟩
  obtain ⟨g, hg, hn⟩ := hr
  have hw : PreparationGraph.WF 5 g := by
    obtain ⟨g', e, hfi⟩ := fromInputGraph_ok (P := debug64) ((buildGraph_inv (Or.inl rfl) Ex.built).frozenOk Ex.frozen)
    have : remaining debug64 binaryHeap Ex.ig 500 [] = .ok g' := by
      unfold remaining
      rw [e]; rfl
    rw [hg] at this
    cases this
    exact hfi.wf
  have hadj : ∀ x, Adjacent (remainingEdges debug64 binaryHeap Ex.ig 500 []) 0 x ↔ x = 1 ∨ x = 2 := by
    intro x
    rw [remainingEdges_of hg, adjacent_iff hw, hn]
    simp
  refine C69_generous_budgets (P := debug64) rfl Ex.built Ex.frozen listQueue_ordered (params := .default Ex.rel)
    (show 5 < 500 by decide) (show 5 < 100 by decide) Ex.preparedDefault (order := [0, 4, 1, 3, 2]) rfl (pre := [0]) (v := 4)
    (rest := [1, 3, 2]) rfl (u := 1) (by decide) _ rfl (beforeV := []) (beforeU := [0]) ?_ ?_ ?_ ?_
  · exact lastUpdate_far (done := []) (lastUpdate_nil 4) (fun h => by simpa using (hadj 4).1 h)
  · exact isLevel_snoc_far (done := []) (isLevel_nil 4) (fun h => by simpa using (hadj 4).1 h)
  · exact lastUpdate_adj (done := []) ((hadj 1).2 (Or.inl rfl))
  · exact isLevel_snoc_adj (done := []) (isLevel_nil 1) (isLevel_nil 0) ((hadj 1).2 (Or.inl rfl))

/-- **C70** `prepare_with_order` stores for every node `v` the edges that `v` has in the graph that is left when the nodes before `v`
have been contracted, in the same order and with the same weights. -/
theorem C70_stored_edges {P : Plat} (hP : P.checked = true) {ops : List Op} {ig : InputGraph} {fg : FastGraph}
    (hb : buildGraph P ops = .ok ig) (hf : ig.frozen = true) {pq : PQ} {order : List Nat} {maxSettled : Nat}
    (hperm : order.Perm (List.range ig.numNodes))
    (hp : prepareWithOrderWithParams P pq ig order maxSettled = .ok (.ok fg)) {pre rest : List Nat} {v : Nat}
    (he : order = pre ++ v :: rest) :
    ∃ g outs ins, remaining P pq ig maxSettled pre = .ok g ∧ g.outEdges[v]? = some outs ∧ g.inEdges[v]? = some ins ∧
      storedOut fg v = .ok (outs.map (fun a => (v, a.adj, a.weight))) ∧
      storedIn fg v = .ok (ins.map (fun a => (v, a.adj, a.weight))) := by
  have hF := (buildGraph_inv (Or.inl hP) hb).frozenOk hf
  obtain ⟨fg', e, hgood, hB, hr⟩ := (buildWithOrder_built hP hF hperm _ (stepsOk_fresh pq P _ _)).of_ok hp
  cases e
  have hlen : order.length = ig.numNodes := by simpa using hperm.length_eq
  have hord : fg.getNodeOrdering = .ok order :=
    getNodeOrdering_eq (by rw [hgood.toShape.lenR, hlen]) (by rw [hlen]; exact hperm) hr
  obtain ⟨g, h1, h2, h3, _, _, h4, h5⟩ := stored_edges hF hB hord he
  exact ⟨g, _, _, h1, PreparationGraph.getElem?_outEdges (by rw [h2.lenOut]; exact h3),
    PreparationGraph.getElem?_inEdges (by rw [h2.lenIn]; exact h3), h4, h5⟩

/-- The third node of the example order is node 1: a shortcut to 4 of weight 10 is left, edges from 0 and from 4. -/
example : ∃ g outs ins, remaining debug64 binaryHeap Ex.ig 100 [2, 3] = .ok g ∧ g.outEdges[1]? = some outs ∧
    g.inEdges[1]? = some ins ∧ storedOut Ex.fgo 1 = .ok (outs.map (fun a => (1, a.adj, a.weight))) ∧
    storedIn Ex.fgo 1 = .ok (ins.map (fun a => (1, a.adj, a.weight))) :=
  C70_stored_edges rfl Ex.built Ex.frozen Ex.perm (maxSettled := 100) Ex.preparedOrder (pre := [2, 3]) (rest := [4, 0]) rfl
example : storedOut Ex.fgo 1 = .ok [(1, 4, 10)] ∧ storedIn Ex.fgo 1 = .ok [(1, 0, 3), (1, 4, 2)] := ⟨rfl, rfl⟩

/-- **C70** The same for `prepare` and `prepare_with_params`, with the order of `get_node_ordering`. -/
theorem C70_stored_edges_params {P : Plat} (hP : P.checked = true) {ops : List Op} {ig : InputGraph} {fg : FastGraph}
    (hb : buildGraph P ops = .ok ig) (hf : ig.frozen = true) {pq : PQ} {nq : NodeQueue} {params : Params}
    (hp : prepareWithParams P pq nq ig params = .ok fg) {order : List Nat} (hord : getNodeOrdering fg = .ok order)
    {pre rest : List Nat} {v : Nat} (he : order = pre ++ v :: rest) :
    ∃ g outs ins, remaining P pq ig params.maxSettledContraction pre = .ok g ∧ g.outEdges[v]? = some outs ∧
      g.inEdges[v]? = some ins ∧ storedOut fg v = .ok (outs.map (fun a => (v, a.adj, a.weight))) ∧
      storedIn fg v = .ok (ins.map (fun a => (v, a.adj, a.weight))) := by
  have hF := (buildGraph_inv (Or.inl hP) hb).frozenOk hf
  obtain ⟨_, hB⟩ := (buildWithParams_built hP hF params (stepsOk_fresh pq P _ _)).of_ok hp
  obtain ⟨g, h1, h2, h3, _, _, h4, h5⟩ := stored_edges hF hB hord he
  exact ⟨g, _, _, h1, PreparationGraph.getElem?_outEdges (by rw [h2.lenOut]; exact h3),
    PreparationGraph.getElem?_inEdges (by rw [h2.lenIn]; exact h3), h4, h5⟩

example : storedIn Ex.fg 1 = .ok [(1, 3, 7)] ∧ ∃ g, remaining debug64 binaryHeap Ex.ig 500 [0, 4] = .ok g ∧
    g.inEdges[1]? = some [⟨3, 7, 4⟩] := ⟨rfl, _, rfl, rfl⟩
example : ∃ g outs ins, remaining debug64 binaryHeap Ex.ig 500 [0, 4] = .ok g ∧ g.outEdges[1]? = some outs ∧
    g.inEdges[1]? = some ins ∧ storedOut Ex.fg 1 = .ok (outs.map (fun a => (1, a.adj, a.weight))) ∧
    storedIn Ex.fg 1 = .ok (ins.map (fun a => (1, a.adj, a.weight))) :=
  C70_stored_edges_params rfl Ex.built Ex.frozen (nq := listQueue) (params := .default Ex.rel) Ex.preparedDefault
    (order := [0, 4, 1, 3, 2]) rfl (pre := [0, 4]) (rest := [3, 2]) rfl

/-- **C70** Along every stored edge the level (the length of the longest chain of nodes contracted one after the other below a node)
increases, so a search climbs at most as many edges as the level of the node it ends at. -/
theorem C70_levels_increase {P : Plat} (hP : P.checked = true) {ops : List Op} {ig : InputGraph} {fg : FastGraph}
    (hb : buildGraph P ops = .ok ig) (hf : ig.frozen = true) {pq : PQ} {order : List Nat} {maxSettled : Nat}
    (hperm : order.Perm (List.range ig.numNodes))
    (hp : prepareWithOrderWithParams P pq ig order maxSettled = .ok (.ok fg)) {v x w : Nat}
    (hx : ∃ l, (storedOut fg v = .ok l ∨ storedIn fg v = .ok l) ∧ (v, x, w) ∈ l) {k k' : Nat}
    (hk : IsLevel (remainingEdges P pq ig maxSettled) order v k) (hk' : IsLevel (remainingEdges P pq ig maxSettled) order x k') :
    k < k' := by
  have hF := (buildGraph_inv (Or.inl hP) hb).frozenOk hf
  obtain ⟨fg', e, hgood, hB, hr⟩ := (buildWithOrder_built hP hF hperm _ (stepsOk_fresh pq P _ _)).of_ok hp
  cases e
  have hlen : order.length = ig.numNodes := by simpa using hperm.length_eq
  have hord : fg.getNodeOrdering = .ok order :=
    getNodeOrdering_eq (by rw [hgood.toShape.lenR, hlen]) (by rw [hlen]; exact hperm) hr
  have hv : v < ig.numNodes := by
    obtain ⟨l, hl, _⟩ := hx
    have hidx : ∃ r, idx fg.ranks v = .ok r := by
      rcases hl with hl | hl
      · unfold storedOut FastGraph.beginOutEdges at hl
        obtain ⟨b, hb, _⟩ := bind_eq_ok.1 hl
        obtain ⟨r, hr, _⟩ := bind_eq_ok.1 hb
        exact ⟨r, hr⟩
      · unfold storedIn FastGraph.beginInEdges at hl
        obtain ⟨b, hb, _⟩ := bind_eq_ok.1 hl
        obtain ⟨r, hr, _⟩ := bind_eq_ok.1 hb
        exact ⟨r, hr⟩
    obtain ⟨r, hr⟩ := hidx
    unfold idx at hr
    rw [← hgood.toShape.lenR]
    by_contra hc
    rw [List.getElem?_eq_none (by omega)] at hr
    cases hr
  have hvm : v ∈ order := hperm.mem_iff.2 (List.mem_range.2 hv)
  obtain ⟨pre, rest, he⟩ := List.append_of_mem hvm
  obtain ⟨g, h1, h2, h3, hnd, h6, h4, h5⟩ := stored_edges hF hB hord he
  have hG := remainingEdges_of h1
  have hadj : Adjacent (remainingEdges P pq ig maxSettled pre) v x := by
    rw [hG]
    obtain ⟨l, hl, hm⟩ := hx
    rcases hl with hl | hl
    · rw [h4] at hl
      cases hl
      obtain ⟨a, ha, hae⟩ := List.mem_map.1 hm
      simp only [Prod.mk.injEq, true_and] at hae
      exact ⟨a.weight, Or.inl (prepEdges_out.2 ⟨a.center, by rw [← hae.1]; exact ha⟩)⟩
    · rw [h5] at hl
      cases hl
      obtain ⟨a, ha, hae⟩ := List.mem_map.1 hm
      simp only [Prod.mk.injEq, true_and] at hae
      exact ⟨a.weight, Or.inr ((prepEdges_in h2).2 ⟨a.center, by rw [← hae.1]; exact ha⟩)⟩
  have hd : Depth (remainingEdges P pq ig maxSettled) pre v k := by
    refine depth_of_order he ?_ ?_ hk.1
    · intro before u after hbe hvb hav
      obtain ⟨g', j1, _, _, _, j6, _⟩ := stored_edges hF hB hord hbe
      rw [remainingEdges_of j1] at hav
      exact (j6 v hvb u).2 hav
    · rw [hG, adjacent_iff h2, mem_neighborSet]
      rintro (⟨a, ha, e⟩ | ⟨a, ha, e⟩)
      · exact h2.noLoop _ _ ha e
      · exact h2.noLoop_in ha e
  have := hk'.2 (k + 1) (by rw [he]; exact .step hd hadj)
  omega

/-- Node 1 of the example has a stored edge to node 4. -/
example : ∃ k k', IsLevel (remainingEdges debug64 binaryHeap Ex.ig 100) Ex.order 1 k ∧
    IsLevel (remainingEdges debug64 binaryHeap Ex.ig 100) Ex.order 4 k' ∧ k < k' := by
  obtain ⟨k, hk⟩ := isLevel_exists (remainingEdges debug64 binaryHeap Ex.ig 100) Ex.order 1
  obtain ⟨k', hk'⟩ := isLevel_exists (remainingEdges debug64 binaryHeap Ex.ig 100) Ex.order 4
  exact ⟨k, k', hk, hk', C70_levels_increase rfl Ex.built Ex.frozen Ex.perm (maxSettled := 100) Ex.preparedOrder
    (x := 4) (w := 10) ⟨_, Or.inl rfl, by decide⟩ hk hk'⟩

/-- A preparation with the queue of C79 and the array heap: once 0 is contracted, the level of 1 is higher than that of 2. -/
example : (buildGraph debug64 [.addEdge 0 1 5, .addEdge 1 2 3, .freeze]).bind (fun ig =>
    (prepareWithParams debug64 binaryHeap prioQueue ig ⟨fun l s e => l + s.toNat + e, 100, 100, 100⟩).bind (fun fg => getNodeOrdering fg)) =
    .ok [0, 2, 1] := by rfl

end Props
end FP
