import Verif.Proofs.Budget
import Verif.Props.Simple
import Verif.Props.Witness
import Verif.Props.Preparation
/-!
# Preparing with generous budgets is a function of the graph

Witness searches stop at a number of settled nodes (fast_graph_builder.rs:281-297, 325). When this number exceeds the number of nodes,
neither its value nor the order in which the heap returns items of the same weight has any influence on the prepared graph. With
smaller budgets both have.
-/
set_option autoImplicit false
namespace FP
namespace Props
open Spec

/-- **C82** Contracting a node with budgets above the number of nodes: the resulting graph does not depend on the heap, the budget or the
earlier use of the search. -/
theorem C82_contract_node {P : Plat} (hP : P.checked = true) {pq₁ pq₂ : PQ} {n : Nat} (hn : n ≤ P.umax) {g : PreparationGraph}
    (hg : PrepOk n g) {before₁ before₂ : List WitnessCall} {w₁ : WitnessSearch pq₁} {w₂ : WitnessSearch pq₂}
    (h₁ : runWitness P (WitnessSearch.new P pq₁ n) before₁ = .ok w₁) (h₂ : runWitness P (WitnessSearch.new P pq₂ n) before₂ = .ok w₂)
    {v m₁ m₂ : Nat} (hv : v < n) (hm₁ : n < m₁) (hm₂ : n < m₂) {g₁ g₂ : PreparationGraph} {w₁' : WitnessSearch pq₁}
    {w₂' : WitnessSearch pq₂} (e₁ : contractNode P g w₁ v m₁ = .ok (g₁, w₁')) (e₂ : contractNode P g w₂ v m₂ = .ok (g₂, w₂')) :
    g₁ = g₂ :=
  contractNode_unique hP hn (prepOk_iff.1 hg) hv (runWitness_self (WRel.new P pq₁ n) h₁).b₁ (runWitness_self (WRel.new P pq₂ n) h₂).b₁
    hm₁ hm₂ e₁ e₂

/-- **C82** The same for the relevance of a node. -/
theorem C82_relevance {P : Plat} (hP : P.checked = true) {pq₁ pq₂ : PQ} {n : Nat} (hn : n ≤ P.umax) {g : PreparationGraph}
    (hg : PrepOk n g) {before₁ before₂ : List WitnessCall} {w₁ : WitnessSearch pq₁} {w₂ : WitnessSearch pq₂}
    (h₁ : runWitness P (WitnessSearch.new P pq₁ n) before₁ = .ok w₁) (h₂ : runWitness P (WitnessSearch.new P pq₂ n) before₂ = .ok w₂)
    {v level m₁ m₂ : Nat} (hv : v < n) (hm₁ : n < m₁) (hm₂ : n < m₂) {relevance : Nat → Int → Nat → Nat} {g₁ g₂ : PreparationGraph}
    {w₁' : WitnessSearch pq₁} {w₂' : WitnessSearch pq₂} {r₁ r₂ : Nat} (e₁ : calcRelevance P relevance g w₁ v level m₁ = .ok (g₁, w₁', r₁))
    (e₂ : calcRelevance P relevance g w₂ v level m₂ = .ok (g₂, w₂', r₂)) : r₁ = r₂ :=
  calcRelevance_unique hP hn (prepOk_iff.1 hg) hv (runWitness_self (WRel.new P pq₁ n) h₁).b₁ (runWitness_self (WRel.new P pq₂ n) h₂).b₁
    hm₁ hm₂ e₁ e₂

/-- **C82** Preparing with a given order and budgets above the number of nodes: the prepared graph is determined by the input graph and
the order. -/
theorem C82_prepare_with_order_with_params {P : Plat} (hP : P.checked = true) {ops : List Op} {ig : InputGraph}
    (hb : buildGraph P ops = .ok ig) (hf : ig.frozen = true) {pq₁ pq₂ : PQ} {order : List Nat} {m₁ m₂ : Nat} (hm₁ : ig.numNodes < m₁)
    (hm₂ : ig.numNodes < m₂) {fg₁ fg₂ : FastGraph} (e₁ : prepareWithOrderWithParams P pq₁ ig order m₁ = .ok (.ok fg₁))
    (e₂ : prepareWithOrderWithParams P pq₂ ig order m₂ = .ok (.ok fg₂)) : fg₁ = fg₂ := by
  have hF := (buildGraph_inv (Or.inl hP) hb).frozenOk hf
  unfold prepareWithOrderWithParams buildWithOrderWithParams at e₁ e₂
  rw [getNumNodes_frozen hf] at e₁ e₂
  simp only [bind_okM] at e₁ e₂
  by_cases hl : (ig.numNodes != order.length) = true
  · rw [if_pos hl] at e₁
    cases e₁
  · rw [if_neg hl] at e₁ e₂
    obtain ⟨f₁, k₁, e₁⟩ := bind_eq_ok.1 e₁
    obtain ⟨f₂, k₂, e₂⟩ := bind_eq_ok.1 e₂
    cases e₁
    cases e₂
    exact runContractionWithOrder_same hP hF hm₁ hm₂ _ _ k₁ k₂

/-- **C82** Preparing with parameters that differ at most in their budgets, all above the number of nodes: the same order, the same
prepared graph. -/
theorem C82_prepare_with_params {P : Plat} (hP : P.checked = true) {ops : List Op} {ig : InputGraph}
    (hb : buildGraph P ops = .ok ig) (hf : ig.frozen = true) {pq₁ pq₂ : PQ} {nq : NodeQueue} {relevance : Nat → Int → Nat → Nat}
    {i₁ n₁ c₁ i₂ n₂ c₂ : Nat} (hm : ∀ m ∈ [i₁, n₁, c₁, i₂, n₂, c₂], ig.numNodes < m) {fg₁ fg₂ : FastGraph}
    (e₁ : prepareWithParams P pq₁ nq ig ⟨relevance, i₁, n₁, c₁⟩ = .ok fg₁)
    (e₂ : prepareWithParams P pq₂ nq ig ⟨relevance, i₂, n₂, c₂⟩ = .ok fg₂) : fg₁ = fg₂ := by
  have hF := (buildGraph_inv (Or.inl hP) hb).frozenOk hf
  unfold prepareWithParams buildWithParams at e₁ e₂
  rw [getNumNodes_frozen hf] at e₁ e₂
  simp only [bind_okM] at e₁ e₂
  exact runContraction_same hP hF (p₁ := ⟨relevance, i₁, n₁, c₁⟩) (p₂ := ⟨relevance, i₂, n₂, c₂⟩)
    ⟨rfl, hm _ (by simp), hm _ (by simp), hm _ (by simp), hm _ (by simp), hm _ (by simp), hm _ (by simp)⟩ _ _ e₁ e₂

/-- **C82** With weights that cannot overflow both runs return, checked build or not, so the calls are interchangeable. -/
theorem C82_bounded_with_params {P : Plat} {ops : List Op} {ig : InputGraph} (hb : buildGraph P.debug ops = .ok ig)
    (hf : ig.frozen = true) {W : Nat} (hW : ∀ e ∈ accepted ops, e.weight ≤ W) (hfit : 4 * ((ig.numNodes - 1) * W) ≤ P.umax)
    (hcap : ig.numNodes * ig.numNodes < P.umax) (hcnt : ig.numNodes * ig.numNodes ≤ I32_MAX) (pq₁ pq₂ : PQ) (nq : NodeQueue)
    (relevance : Nat → Int → Nat → Nat) {i₁ n₁ c₁ i₂ n₂ c₂ : Nat} (hm : ∀ m ∈ [i₁, n₁, c₁, i₂, n₂, c₂], ig.numNodes < m) :
    prepareWithParams P pq₁ nq ig ⟨relevance, i₁, n₁, c₁⟩ = prepareWithParams P pq₂ nq ig ⟨relevance, i₂, n₂, c₂⟩ := by
  obtain ⟨f₁, k₁⟩ := C64_prepare_with_params (P := P.debug) hb hf hW hfit hcap hcnt pq₁ nq ⟨relevance, i₁, n₁, c₁⟩ (hm _ (by simp))
  obtain ⟨f₂, k₂⟩ := C64_prepare_with_params (P := P.debug) hb hf hW hfit hcap hcnt pq₂ nq ⟨relevance, i₂, n₂, c₂⟩ (hm _ (by simp))
  have := C82_prepare_with_params (P := P.debug) rfl hb hf hm k₁ k₂
  subst this
  rw [C32_prepare_with_params hb hf pq₁ nq _ (by rw [k₁]; simp), C32_prepare_with_params hb hf pq₂ nq _ (by rw [k₂]; simp), k₁, k₂]

/-- **C82** The same for a given order. -/
theorem C82_bounded_with_order {P : Plat} {ops : List Op} {ig : InputGraph} (hb : buildGraph P.debug ops = .ok ig)
    (hf : ig.frozen = true) {W : Nat} (hW : ∀ e ∈ accepted ops, e.weight ≤ W) (hfit : 4 * ((ig.numNodes - 1) * W) ≤ P.umax)
    (hcap : ig.numNodes * ig.numNodes < P.umax) (pq₁ pq₂ : PQ) {order : List Nat} (ho : order.Perm (List.range ig.numNodes))
    {m₁ m₂ : Nat} (hm₁ : ig.numNodes < m₁) (hm₂ : ig.numNodes < m₂) :
    prepareWithOrderWithParams P pq₁ ig order m₁ = prepareWithOrderWithParams P pq₂ ig order m₂ := by
  obtain ⟨f₁, k₁⟩ := C64_prepare_with_order_with_params (P := P.debug) hb hf hW hfit hcap pq₁ ho hm₁
  obtain ⟨f₂, k₂⟩ := C64_prepare_with_order_with_params (P := P.debug) hb hf hW hfit hcap pq₂ ho hm₂
  have := C82_prepare_with_order_with_params (P := P.debug) rfl hb hf hm₁ hm₂ k₁ k₂
  subst this
  rw [C32_prepare_with_order hb hf pq₁ ho _ (by rw [k₁]; simp), C32_prepare_with_order hb hf pq₂ ho _ (by rw [k₂]; simp), k₁, k₂]

/-- **C82** For graphs with less than 100 nodes `prepare_with_order` with the order found by `prepare` reproduces the graph of
`prepare`, although the default budgets are 100 and 500. -/
theorem C82_default_budgets_agree {P : Plat} (hP : P.checked = true) {ops : List Op} {ig : InputGraph} (hb : buildGraph P ops = .ok ig)
    (hf : ig.frozen = true) (hn : ig.numNodes < 100) {pq pq' : PQ} {nq : NodeQueue} {relevance : Nat → Int → Nat → Nat} {fg fg' : FastGraph}
    {order : List Nat} (h : prepare P pq nq relevance ig = .ok fg) (ho : getNodeOrdering fg = .ok order)
    (h' : prepareWithOrder P pq' ig order = .ok (.ok fg')) : fg' = fg := by
  obtain ⟨nodes, h1, h2⟩ := C14_prepare_again_same_graph P pq nq (params := Params.default relevance) h
  rw [ho] at h1
  cases h1
  exact C82_prepare_with_order_with_params hP hb hf (m₁ := paramsWithOrderDefault) (m₂ := 500) hn (by omega) h' h2

/-! ### Another heap, and small budgets -/

/-- The least item of a list, the latest of these. -/
def popLeast : List HeapItem → Option (HeapItem × List HeapItem)
  | [] => none
  | x :: xs =>
    match popLeast xs with
    | none => some (x, [])
    | some (y, ys) => if y.weight < x.weight then some (y, x :: ys) else some (x, xs)

theorem popLeast_none {l : List HeapItem} : popLeast l = none ↔ l = [] := by
  cases l with
  | nil => simp [popLeast]
  | cons x xs =>
    unfold popLeast
    cases popLeast xs with
    | none => simp
    | some r => obtain ⟨y, ys⟩ := r; simp only; split <;> simp

theorem popLeast_some : ∀ {l : List HeapItem} {x : HeapItem} {r : List HeapItem}, popLeast l = some (x, r) →
    l.Perm (x :: r) ∧ ∀ y ∈ l, x.weight ≤ y.weight
  | [], _, _, h => by cases h
  | a :: l, x, r, h => by
    unfold popLeast at h
    cases hl : popLeast l with
    | none =>
      rw [hl] at h
      cases h
      rw [popLeast_none.1 hl]
      simp
    | some q =>
      obtain ⟨y, ys⟩ := q
      obtain ⟨h1, h2⟩ := popLeast_some hl
      rw [hl] at h
      simp only at h
      split at h
      · rename_i hlt
        cases h
        refine ⟨(h1.cons a).trans (List.Perm.swap _ _ _), ?_⟩
        intro z hz
        rcases List.mem_cons.1 hz with rfl | hz
        · omega
        · exact h2 z hz
      · rename_i hlt
        cases h
        refine ⟨.refl _, ?_⟩
        intro z hz
        rcases List.mem_cons.1 hz with rfl | hz
        · exact Nat.le_refl _
        · have := h2 z hz
          omega

/-- A list as a heap; of several items of least weight the latest is returned first. -/
def latestFirst : PQ where
  σ := List HeapItem
  empty := []
  push x q := x :: q
  pop := popLeast
  items q := q
  items_empty := rfl
  items_push _ _ := .refl _
  pop_none _ := popLeast_none
  pop_some _ _ _ h := ⟨(popLeast_some h).1, fun y hy => by
    have := (popLeast_some h).2 y hy
    unfold HeapItem.cmp
    rw [Ordering.swap_eq_gt.ne]
    exact fun hc => by
      have := Nat.compare_eq_lt.1 hc
      omega⟩

/-- Two nodes, 3 and 4, at distance 1 from 0; only 4 leads around node 1. -/
def tied : List Op := [.addEdge 0 1 2, .addEdge 1 2 2, .addEdge 0 3 1, .addEdge 0 4 1, .addEdge 4 2 1, .freeze]

/-- the resulting input graph -/
def tiedGraph : InputGraph := ⟨[⟨0, 1, 2⟩, ⟨0, 3, 1⟩, ⟨0, 4, 1⟩, ⟨1, 2, 2⟩, ⟨4, 2, 1⟩], 5, true⟩

/-- With budgets above 5 both heaps give the same graph. -/
example : ∃ fg₁ fg₂, prepareWithOrderWithParams debug64 binaryHeap tiedGraph [1, 0, 2, 3, 4] 6 = .ok (.ok fg₁) ∧
    prepareWithOrderWithParams debug64 latestFirst tiedGraph [1, 0, 2, 3, 4] 100 = .ok (.ok fg₂) ∧ fg₁ = fg₂ :=
  ⟨_, _, rfl, rfl, C82_prepare_with_order_with_params (P := debug64) (ops := tied) (ig := tiedGraph) (pq₁ := binaryHeap)
    (pq₂ := latestFirst) (order := [1, 0, 2, 3, 4]) (m₁ := 6) (m₂ := 100) rfl rfl rfl (by decide) (by decide) rfl rfl⟩
example : prepareWithOrderWithParams release64 binaryHeap tiedGraph [1, 0, 2, 3, 4] 6 =
    prepareWithOrderWithParams release64 latestFirst tiedGraph [1, 0, 2, 3, 4] 100 :=
  C82_bounded_with_order (P := release64) (ops := tied) (W := 2) rfl rfl (by decide) (by decide) (by decide) _ _ (by decide) (by decide)
    (by decide)
example : prepareWithParams debug32 binaryHeap listQueue tiedGraph ⟨Ex.rel, 6, 7, 8⟩ =
    prepareWithParams debug32 latestFirst listQueue tiedGraph ⟨Ex.rel, 500, 100, 500⟩ :=
  C82_bounded_with_params (P := debug32) (ops := tied) (W := 2) rfl rfl (by decide) (by decide) (by decide) (by decide) _ _ _ _ (by decide)
example : ∃ fg₁ fg₂, prepareWithParams debug64 binaryHeap listQueue Ex.ig ⟨Ex.rel, 6, 7, 8⟩ = .ok fg₁ ∧
    prepareWithParams debug64 latestFirst listQueue Ex.ig ⟨Ex.rel, 8, 9, 10⟩ = .ok fg₂ ∧ fg₁ = fg₂ :=
  ⟨_, _, rfl, rfl, C82_prepare_with_params (P := debug64) (ops := Ex.ops) (ig := Ex.ig) (pq₁ := binaryHeap) (pq₂ := latestFirst)
    (nq := listQueue) (relevance := Ex.rel) (i₁ := 6) (n₁ := 7) (c₁ := 8) (i₂ := 8) (n₂ := 9) (c₂ := 10) rfl rfl rfl (by decide) rfl rfl⟩
example : prepareWithOrder debug64 latestFirst Ex.ig [0, 4, 1, 3, 2] = .ok (.ok Ex.fg) := by
  obtain ⟨fg', e⟩ : ∃ fg', prepareWithOrder debug64 latestFirst Ex.ig [0, 4, 1, 3, 2] = .ok (.ok fg') := ⟨_, rfl⟩
  rw [C82_default_budgets_agree (P := debug64) rfl Ex.built rfl (by decide) Ex.preparedDefault rfl e] at e
  exact e
example : ∃ g₁ w₁ g₂ w₂, contractNode debug64 exPrep (WitnessSearch.new debug64 binaryHeap 5) 2 6 = .ok (g₁, w₁) ∧
    contractNode debug64 exPrep (WitnessSearch.new debug64 latestFirst 5) 2 100 = .ok (g₂, w₂) ∧ g₁ = g₂ :=
  ⟨_, _, _, _, rfl, rfl, C82_contract_node (P := debug64) (pq₁ := binaryHeap) (pq₂ := latestFirst) (n := 5) rfl (by decide) exPrep_ok
    (before₁ := []) (before₂ := []) rfl rfl (v := 2) (m₁ := 6) (m₂ := 100) (by decide) (by decide) (by decide) rfl rfl⟩
example : ∃ g₁ w₁ r₁ g₂ w₂ r₂, calcRelevance debug64 Ex.rel exPrep (WitnessSearch.new debug64 binaryHeap 5) 2 1 6 = .ok (g₁, w₁, r₁) ∧
    calcRelevance debug64 Ex.rel exPrep (WitnessSearch.new debug64 latestFirst 5) 2 1 100 = .ok (g₂, w₂, r₂) ∧ r₁ = r₂ :=
  ⟨_, _, _, _, _, _, rfl, rfl, C82_relevance (P := debug64) (pq₁ := binaryHeap) (pq₂ := latestFirst) (n := 5) rfl (by decide) exPrep_ok
    (before₁ := []) (before₂ := []) rfl rfl (v := 2) (level := 1) (m₁ := 6) (m₂ := 100) (by decide) (by decide) (by decide)
    (relevance := Ex.rel) rfl rfl⟩

/-- **C82** With a small budget the order in which the heap returns items of the same weight can decide whether a shortcut is added. -/
theorem C82_small_budget_false : ¬ ∀ (ops : List Op) (ig : InputGraph) (pq₁ pq₂ : PQ) (order : List Nat) (maxSettled : Nat)
    (fg₁ fg₂ : FastGraph), buildGraph debug64 ops = .ok ig → ig.frozen = true → order.Perm (List.range ig.numNodes) →
    prepareWithOrderWithParams debug64 pq₁ ig order maxSettled = .ok (.ok fg₁) →
    prepareWithOrderWithParams debug64 pq₂ ig order maxSettled = .ok (.ok fg₂) → fg₁.edgesFwd.length = fg₂.edgesFwd.length := by
  intro h
  have := h tied tiedGraph binaryHeap latestFirst [1, 0, 2, 3, 4] 2 _ _ rfl rfl (by decide) rfl rfl
  revert this
  decide

end Props
end FP
