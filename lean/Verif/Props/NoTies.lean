import Verif.Props.Order
import Verif.Props.Preparation
import Verif.Props.Budget
import Verif.Proofs.QueueSim
set_option autoImplicit false
/-! # Priorities without ties determine the prepared graph

Which of several nodes with the same priority is contracted first is left to `priority_queue`. C69 says that no node with a greater
priority comes before one with a smaller priority. If there are no ties, this leaves only one order. -/
namespace FP.Props
open Spec

/-- In `order` every node has a smaller priority than all nodes after it, whatever numbers of shortcuts have been found. -/
def NoTies (P : Plat) (pq : PQ) (ig : InputGraph) (params : Params) (order : List Nat) : Prop :=
  ∀ pre v rest, order = pre ++ v :: rest → ∀ u ∈ rest, ∀ p q,
    IsPriority P.umax ig.numNodes (remainingEdges P pq ig params.maxSettledContraction) params.relevance
      params.maxSettledInitialRelevance params.maxSettledNeighborRelevance pre v p →
    IsPriority P.umax ig.numNodes (remainingEdges P pq ig params.maxSettledContraction) params.relevance
      params.maxSettledInitialRelevance params.maxSettledNeighborRelevance pre u q → p < q

/-- **C130** If in some order of the nodes every node has a smaller priority than all nodes after it, `prepare_with_params` contracts
the nodes in this order, whichever queue it uses, and returns what `prepare_with_order` returns for the order. -/
theorem C130_order {P : Plat} (hP : P.checked = true) {ops : List Op} {ig : InputGraph} {fg : FastGraph}
    (hb : buildGraph P ops = .ok ig) (hf : ig.frozen = true) {pq : PQ} {nq : NodeQueue} {prio : nq.σ → Nat → Nat}
    (ho : Ordered nq prio) {params : Params} (hp : prepareWithParams P pq nq ig params = .ok fg) {order : List Nat}
    (hperm : order.Perm (List.range ig.numNodes)) (hn : NoTies P pq ig params order) :
    getNodeOrdering fg = .ok order ∧
    prepareWithOrderWithParams P pq ig order params.maxSettledContraction = .ok (.ok fg) := by
  obtain ⟨nodes, hord, hperm', hagain⟩ := prepare_again hp
  have key : ∀ (l l' pre : List Nat), order = pre ++ l → nodes = pre ++ l' → l = l' := by
    intro l
    induction l with
    | nil =>
      intro l' pre h1 h2
      have hl := (hperm.trans hperm'.symm).length_eq
      rw [h1, h2] at hl
      simp only [List.length_append, List.length_nil] at hl
      exact (List.eq_nil_of_length_eq_zero (by omega)).symm
    | cons v rest ih =>
      intro l' pre h1 h2
      have hpl : (v :: rest).Perm l' := by
        have := hperm.trans hperm'.symm
        rw [h1, h2] at this
        exact (List.perm_append_left_iff pre).1 this
      rcases l' with _ | ⟨v', rest'⟩
      · simpa using hpl.length_eq
      · have hv : v = v' := by
          apply Classical.byContradiction
          intro hne
          have hv1 : v ∈ rest' := by
            have := hpl.mem_iff.1 (List.mem_cons_self ..)
            simpa [hne] using this
          have hv2 : v' ∈ rest := by
            have := hpl.mem_iff.2 (List.mem_cons_self ..)
            simpa [Ne.symm hne] using this
          obtain ⟨_, p, q, hpq, i1, i2⟩ := C69_contraction_order hP hb hf ho hp hord h2 hv1
          have := hn pre v rest h1 v' hv2 q p i2 i1
          omega
        subst hv
        rw [ih rest' (pre ++ [v]) (by rw [h1]; simp) (by rw [h2]; simp)]
  have := key order nodes [] rfl rfl
  subst this
  exact ⟨hord, hagain⟩

/-- **C130** So the queue does not matter: with any other queue preparation returns as well, and the same graph. -/
theorem C130_queues {P : Plat} (hP : P.checked = true) {ops : List Op} {ig : InputGraph} {fg : FastGraph}
    (hb : buildGraph P ops = .ok ig) (hf : ig.frozen = true) {pq : PQ} {nq nq' : NodeQueue} {prio : nq.σ → Nat → Nat}
    {prio' : nq'.σ → Nat → Nat} (ho : Ordered nq prio) (ho' : Ordered nq' prio') {params : Params}
    (hp : prepareWithParams P pq nq ig params = .ok fg) {order : List Nat} (hperm : order.Perm (List.range ig.numNodes))
    (hn : NoTies P pq ig params order) : prepareWithParams P pq nq' ig params = .ok fg := by
  have hF := (buildGraph_inv (Or.inl hP) hb).frozenOk hf
  obtain ⟨nodes, pg0, fg0, st0, hord, _, _, hpg, hfg, hinit, hpops, _⟩ := prepare_pops hp
  have : nodes = order := by
    have := hord.symm.trans (C130_order hP hb hf ho hp hperm hn).1
    cases this; rfl
  subst this
  obtain ⟨hlt, hO, hk⟩ := OInv.initial hP hF ho hpg hfg hinit
  obtain ⟨st0', hinit', hsim⟩ := QSim.initials ho ho' _ _ (⟨⟨pg0, WitnessSearch.new P pq ig.numNodes, fg0⟩,
    List.replicate ig.numNodes 0, nq'.empty⟩ : QState pq nq') _
    ⟨rfl, rfl, by simp [nq.keys_empty], by simp [nq.keys_empty, nq'.keys_empty], by simp [nq.keys_empty]⟩ List.nodup_range
    (by simp [nq.keys_empty]) hinit
  unfold prepareWithParams buildWithParams at hp ⊢
  obtain ⟨k, hk', hp⟩ := bind_eq_ok.1 hp
  have hkn : k = ig.numNodes := by
    have h := hk'
    unfold InputGraph.getNumNodes at h
    obtain ⟨_, _, h⟩ := bind_eq_ok.1 h
    injection h with h
    exact h.symm
  subst hkn
  rw [hk', bind_okM]
  unfold runContraction at hp ⊢
  rw [hfg, bind_okM, hpg, bind_okM] at hp ⊢
  simp only [hinit, hinit', bind_okM] at hp ⊢
  obtain ⟨st, hst, hfin⟩ := bind_eq_ok.1 hp
  obtain ⟨st', hst', hsim'⟩ := QSim.loop hP hlt ho ho' hpops [] _ st0' st hO (hk.trans hperm.symm) hn hsim hst
  rw [hst', bind_okM, hsim'.b]
  exact hfin

/-- **C130** If moreover the budgets exceed the number of nodes, neither the queue nor the heap nor the budgets matter: the prepared
graph is determined by the input graph and the formula. -/
theorem C130_generous_budgets {P : Plat} (hP : P.checked = true) {ops : List Op} {ig : InputGraph} {fg fg' : FastGraph}
    (hb : buildGraph P ops = .ok ig) (hf : ig.frozen = true) {pq pq' : PQ} {nq nq' : NodeQueue} {prio : nq.σ → Nat → Nat}
    {prio' : nq'.σ → Nat → Nat} (ho : Ordered nq prio) (ho' : Ordered nq' prio') {relevance : Nat → Int → Nat → Nat}
    {i n c i' n' c' : Nat} (hm : ∀ m ∈ [i, n, c, i', n', c'], ig.numNodes < m)
    (hp : prepareWithParams P pq nq ig ⟨relevance, i, n, c⟩ = .ok fg)
    (hp' : prepareWithParams P pq' nq' ig ⟨relevance, i', n', c'⟩ = .ok fg') {order : List Nat}
    (hperm : order.Perm (List.range ig.numNodes)) (hn : NoTies P pq ig ⟨relevance, i, n, c⟩ order) : fg = fg' :=
  C82_prepare_with_params hP hb hf hm (C130_queues hP hb hf ho ho' hp hperm hn) hp'

namespace Ties

/-- a formula for priorities -/
def rel : Nat → Int → Nat → Nat := fun level _ degree => level + 10 * degree

/-- an edge from node 0 to node 1 and a bidirectional edge between nodes 1 and 2 -/
def ops : List Op := [.addEdge 0 1 3, .addEdgeBidir 1 2 4, .freeze]

/-- the resulting graph -/
def ig : InputGraph where
  edges := [⟨0, 1, 3⟩, ⟨1, 2, 4⟩, ⟨2, 1, 4⟩]
  numNodes := 3
  frozen := true

/-- the prepared graph -/
def fg : FastGraph where
  numNodes := 3
  ranks := [0, 2, 1]
  edgesFwd := [⟨0, 1, 3, Ex.inv, Ex.inv⟩, ⟨2, 1, 4, Ex.inv, Ex.inv⟩]
  firstEdgeIdsFwd := [0, 1, 2, 2]
  edgesBwd := [⟨2, 1, 4, Ex.inv, Ex.inv⟩]
  firstEdgeIdsBwd := [0, 0, 1, 1]

theorem built : buildGraph debug64 ops = .ok ig := rfl
theorem prepared : prepareWithParams debug64 binaryHeap listQueue ig (.default rel) = .ok fg := rfl
theorem prepared' : prepareWithParams debug64 binaryHeap prioQueue ig (.default rel) = .ok fg := rfl

/-- The graph left after `pre`, its degrees and neighbors. -/
theorem left {pre rest : List Nat} {v : Nat} (he : [0, 2, 1] = pre ++ v :: rest) {g : PreparationGraph}
    (hg : remaining debug64 binaryHeap ig 500 pre = .ok g) :
    (∀ x, degree (remainingEdges debug64 binaryHeap ig 500 pre) x = (g.outs x).length + (g.ins x).length) ∧
    ∀ x y, Adjacent (remainingEdges debug64 binaryHeap ig 500 pre) x y ↔ y ∈ neighborSet (g.outs x) (g.ins x) := by
  have hF := (buildGraph_inv (P := debug64) (Or.inl rfl) built).frozenOk rfl
  obtain ⟨_, hB⟩ := (buildWithParams_built (P := debug64) rfl hF (.default rel) (stepsOk_fresh binaryHeap debug64 _ _)).of_ok prepared
  obtain ⟨g', h1, h2, _⟩ := stored_edges hF hB (order := [0, 2, 1]) rfl he
  have h1 : remaining debug64 binaryHeap ig 500 pre = .ok g' := h1
  rw [hg] at h1
  cases h1
  rw [remainingEdges_of hg]
  exact ⟨fun x => (length_degree h2 x).symm, fun x y => adjacent_iff h2⟩

/-- At first the priorities are 10, 30 and 20; then, without node 0, node 2 has priority 20 and node 1 has 21: the degrees are equal,
but node 0 was a neighbor of node 1. -/
theorem noTies : NoTies debug64 binaryHeap ig (.default rel) [0, 2, 1] := by
  have h0 : ∃ g, remaining debug64 binaryHeap ig 500 [] = .ok g ∧ (g.outs 0).length + (g.ins 0).length = 1 ∧
      (g.outs 1).length + (g.ins 1).length = 3 ∧ (g.outs 2).length + (g.ins 2).length = 2 ∧
      neighborSet (g.outs 0) (g.ins 0) = [1] := ⟨_, rfl, rfl, rfl, rfl, rfl⟩
  have h1 : ∃ g, remaining debug64 binaryHeap ig 500 [0] = .ok g ∧ (g.outs 1).length + (g.ins 1).length = 2 ∧
      (g.outs 2).length + (g.ins 2).length = 2 := ⟨_, rfl, rfl, rfl⟩
  obtain ⟨g0, hg0, a1, a2, a3, a4⟩ := h0
  obtain ⟨g1, hg1, b1, b2⟩ := h1
  obtain ⟨d0, n0⟩ := left (pre := []) rfl hg0
  obtain ⟨d1, _⟩ := left (pre := [0]) rfl hg1
  rintro pre v rest he u hu p q ⟨_, l, _, _, hl, rfl, _⟩ ⟨_, l', _, _, hl', rfl, _⟩
  show l + 10 * degree (remainingEdges debug64 binaryHeap ig 500 pre) v <
    l' + 10 * degree (remainingEdges debug64 binaryHeap ig 500 pre) u
  rcases pre with _ | ⟨x, _ | ⟨y, _ | ⟨z, pre⟩⟩⟩
  · injection he with e1 e2
    subst e1 e2
    rw [isLevel_unique hl (isLevel_nil 0), isLevel_unique hl' (isLevel_nil u), d0, d0, a1]
    simp only [List.mem_cons, List.not_mem_nil, or_false] at hu
    rcases hu with rfl | rfl
    · rw [a3]; decide
    · rw [a2]; decide
  · injection he with e1 e2
    injection e2 with e2 e3
    subst e1 e2 e3
    simp only [List.mem_cons, List.not_mem_nil, or_false] at hu
    subst hu
    have h2 := isLevel_snoc_far (done := []) (v := 0) (isLevel_nil 2) (fun h => by
      have := (n0 0 2).1 h
      rw [a4] at this
      simp at this)
    have h3 := isLevel_snoc_adj (done := []) (v := 0) (isLevel_nil 1) (isLevel_nil 0) ((n0 0 1).2 (by rw [a4]; simp))
    rw [isLevel_unique hl h2, isLevel_unique hl' h3, d1, d1, b1, b2]
    decide
  · injection he with e1 e2
    injection e2 with e2 e3
    injection e3 with e3 e4
    subst e4
    simp at hu
  · exact absurd (congrArg List.length he) (by simp)

/-- a bidirectional edge on both sides of node 1 -/
def ops' : List Op := [.addEdgeBidir 0 1 3, .addEdgeBidir 1 2 4, .freeze]

/-- the resulting graph -/
def ig' : InputGraph where
  edges := [⟨0, 1, 3⟩, ⟨1, 0, 3⟩, ⟨1, 2, 4⟩, ⟨2, 1, 4⟩]
  numNodes := 3
  frozen := true

end Ties

/-- a concrete case: the model of `priority_queue` follows the order -/
example : getNodeOrdering Ties.fg = .ok [0, 2, 1] ∧
    prepareWithOrderWithParams debug64 binaryHeap Ties.ig [0, 2, 1] 500 = .ok (.ok Ties.fg) :=
  C130_order rfl Ties.built rfl C79_node_queue_ordered (params := .default Ties.rel) Ties.prepared' (by decide) Ties.noTies

/-- a concrete case: from the list queue to the model of `priority_queue` -/
example : prepareWithParams debug64 binaryHeap prioQueue Ties.ig (.default Ties.rel) = .ok Ties.fg :=
  C130_queues rfl Ties.built rfl listQueue_ordered C79_node_queue_ordered Ties.prepared (order := [0, 2, 1]) (by decide) Ties.noTies

/-- a concrete case: another queue, another heap and other budgets -/
example {pq' : PQ} {fg' : FastGraph} (h : prepareWithParams debug64 pq' prioQueue Ties.ig ⟨Ties.rel, 7, 8, 9⟩ = .ok fg') : Ties.fg = fg' :=
  C130_generous_budgets rfl Ties.built rfl listQueue_ordered C79_node_queue_ordered (by decide) Ties.prepared h (order := [0, 2, 1])
    (by decide) Ties.noTies
example : prepareWithParams debug64 binaryHeap prioQueue Ties.ig ⟨Ties.rel, 7, 8, 9⟩ = .ok Ties.fg := rfl

/-- **C130** With ties the queue does decide: nodes 0 and 2 have the same priority, and two queues that both hand out a node of least
priority lead to different prepared graphs. -/
theorem C130_ties_decided_by_queue : ∃ (ops : List Op) (ig : InputGraph) (params : Params) (fg fg' : FastGraph),
    buildGraph debug64 ops = .ok ig ∧ ig.frozen = true ∧
    prepareWithParams debug64 binaryHeap listQueue ig params = .ok fg ∧
    prepareWithParams debug64 binaryHeap prioQueue ig params = .ok fg' ∧
    getNodeOrdering fg = .ok [2, 0, 1] ∧ getNodeOrdering fg' = .ok [0, 2, 1] :=
  ⟨Ties.ops', Ties.ig', .default Ties.rel, _, _, rfl, rfl, rfl, rfl, rfl, rfl⟩

end FP.Props
