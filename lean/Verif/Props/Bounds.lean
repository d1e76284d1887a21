import Verif.Proofs.SelfPath
import Verif.Props.Build
/-!
# When nothing overflows

Explicit bounds under which preparations and queries return. `P.debug` is `P` with overflow checks, so the statements
cover builds with and without them; for a platform `P` with checks `P.debug` is `P`.
-/
set_option autoImplicit false
namespace FP
namespace Props
open Spec

/-- Weights the client passed bound the weights of the graph. -/
theorem weights_le {P : Plat} (hP : P.checked = true) {ops : List Op} {ig : InputGraph} (hb : buildGraph P ops = .ok ig)
    {W : Nat} (hW : ∀ e ∈ accepted ops, e.weight ≤ W) : ∀ e ∈ ig.edges, e.weight ≤ W :=
  fun e he => hW e ((buildGraph_inv (Or.inl hP) hb).sub e he)

/-- **C05** The query from a node to itself returns the empty path, whatever the calculator was used for before and
however large the weights are. `hW` says that the weights the client passed are `usize` values. -/
theorem C05_self_path {P : Plat} {ops : List Op} {ig : InputGraph} {fg : FastGraph} (hc : Client P.debug ops ig fg)
    (hW : ∀ e ∈ accepted ops, e.weight ≤ P.umax) (pq : PQ) (history : List Request) {c : PathCalculator pq}
    (hh : runRequests P (PathCalculator.new P pq ig.numNodes) history = .ok c) {s : Nat} (hs : s < ig.numNodes) :
    ∃ c', c.calcPath P fg s s = .ok (c', some ⟨s, s, 0, [s]⟩) := by
  have hF := (hc.inv rfl).frozenOk hc.frozen
  have hg := hc.good rfl
  have hpos : ∀ u v w, edgesOf ig.edges u v w → 1 ≤ w := fun u v w he => (hc.inv rfl).pos _ he
  obtain ⟨f1, f2⟩ := (hc.prepared.built rfl hF).fits (weights_le (P := P.debug) rfl hc.built hW)
  obtain ⟨p1, p2⟩ := hg.pos hpos
  have hE : EdgesFit P.debug ig.numNodes fg :=
    ⟨fun u hu id ed hat => ⟨p1 u hu id ed hat, f1 ed (List.mem_of_getElem? hat.2.2)⟩,
      fun u hu id ed hat => ⟨p2 u hu id ed hat, f2 ed (List.mem_of_getElem? hat.2.2)⟩⟩
  obtain ⟨c', e, _⟩ := calcPath_self (P := P.debug) rfl hg hE hpos (runRequests_base (CalcOk.new P pq ig.numNodes) hh) hs
  refine ⟨c', ?_⟩
  have : c.calcPathMulti P fg [(s, 0)] [(s, 0)] = _ := C32_query P pq c fg [(s, 0)] [(s, 0)] (by
    show c.calcPath P.debug fg s s ≠ _
    rw [e]; simp)
  unfold PathCalculator.calcPath
  rw [this]
  exact e

/-- **C05** with a new calculator. -/
theorem C05_self_path_fresh {P : Plat} {ops : List Op} {ig : InputGraph} {fg : FastGraph} (hc : Client P.debug ops ig fg)
    (hW : ∀ e ∈ accepted ops, e.weight ≤ P.umax) (pq : PQ) {s : Nat} (hs : s < ig.numNodes) :
    calcPath P pq fg s s = .ok (some ⟨s, s, 0, [s]⟩) := by
  obtain ⟨c', e⟩ := C05_self_path hc hW pq [] rfl hs
  unfold calcPath
  rw [show fg.getNumNodes = ig.numNodes from (hc.good rfl).num, e]
  rfl

example : calcPath debug64 binaryHeap Ex.fgo 3 3 = .ok (some ⟨3, 3, 0, [3]⟩) :=
  C05_self_path_fresh (P := debug64) exampleClient' (by decide) binaryHeap (by decide)
example : ∃ c c', runRequests release64 (PathCalculator.new release64 binaryHeap 5)
      [⟨Ex.fg, [(0, 0)], [(4, 0)]⟩, ⟨Ex.fgo, Ex.sources, Ex.targets⟩] = .ok c ∧
    c.calcPath release64 Ex.fg 1 1 = .ok (c', some ⟨1, 1, 0, [1]⟩) := by
  obtain ⟨c', e⟩ := C05_self_path (P := release64) exampleClient (by decide) binaryHeap
    [⟨Ex.fg, [(0, 0)], [(4, 0)]⟩, ⟨Ex.fgo, Ex.sources, Ex.targets⟩] rfl (s := 1) (by decide)
  exact ⟨_, c', rfl, e⟩

/-- **C33, preparation by parameters** With `n` nodes and weights of at most `W`, `2 ^ (n + 2) * W ≤ usize::MAX` and
`n * n < usize::MAX` suffice, and `n * n ≤ i32::MAX` when the order is computed (the shortcuts of a node are counted in an `i32`;
C62). -/
theorem C33_prepare_with_params {P : Plat} {ops : List Op} {ig : InputGraph} (hb : buildGraph P.debug ops = .ok ig)
    (hf : ig.frozen = true) {W : Nat} (hW : ∀ e ∈ accepted ops, e.weight ≤ W)
    (hfit : 2 ^ (ig.numNodes + 2) * W ≤ P.umax) (hcap : ig.numNodes * ig.numNodes < P.umax)
    (hcnt : ig.numNodes * ig.numNodes ≤ I32_MAX) (pq : PQ) (nq : NodeQueue) (params : Params) :
    ∃ fg, prepareWithParams P pq nq ig params = .ok fg := by
  have hF := (buildGraph_inv (Or.inl rfl) hb).frozenOk hf
  have h : ∃ fg, prepareWithParams P.debug pq nq ig params = .ok fg := by
    obtain ⟨fg, e⟩ := runContraction_total (P := P.debug) (pq := pq) (nq := nq) rfl hF params
      (stepsOk_any _ _ _ _) (PrepFits.bounded (P := P.debug) ⟨hfit, hcap⟩ (weights_le (P := P.debug) rfl hb hW)) hcnt
    refine ⟨fg, ?_⟩
    unfold prepareWithParams buildWithParams
    rw [getNumNodes_frozen hf]
    exact e
  obtain ⟨fg, e⟩ := h
  exact ⟨fg, (C32_prepare_with_params hb hf pq nq params (by rw [e]; simp)).trans e⟩

/-- **C33, default preparation** -/
theorem C33_prepare {P : Plat} {ops : List Op} {ig : InputGraph} (hb : buildGraph P.debug ops = .ok ig)
    (hf : ig.frozen = true) {W : Nat} (hW : ∀ e ∈ accepted ops, e.weight ≤ W)
    (hfit : 2 ^ (ig.numNodes + 2) * W ≤ P.umax) (hcap : ig.numNodes * ig.numNodes < P.umax)
    (hcnt : ig.numNodes * ig.numNodes ≤ I32_MAX) (pq : PQ) (nq : NodeQueue) (relevance : Nat → Int → Nat → Nat) :
    ∃ fg, prepare P pq nq relevance ig = .ok fg :=
  C33_prepare_with_params hb hf hW hfit hcap hcnt pq nq _

/-- **C33, preparation by order** -/
theorem C33_prepare_with_order_with_params {P : Plat} {ops : List Op} {ig : InputGraph}
    (hb : buildGraph P.debug ops = .ok ig) (hf : ig.frozen = true) {W : Nat} (hW : ∀ e ∈ accepted ops, e.weight ≤ W)
    (hfit : 2 ^ (ig.numNodes + 2) * W ≤ P.umax) (hcap : ig.numNodes * ig.numNodes < P.umax)
    (pq : PQ) {order : List Nat} (ho : order.Perm (List.range ig.numNodes)) (maxSettled : Nat) :
    ∃ fg, prepareWithOrderWithParams P pq ig order maxSettled = .ok (.ok fg) := by
  have hF := (buildGraph_inv (Or.inl rfl) hb).frozenOk hf
  have h : ∃ fg, prepareWithOrderWithParams P.debug pq ig order maxSettled = .ok (.ok fg) := by
    obtain ⟨fg, e⟩ := runContractionWithOrder_total (P := P.debug) (pq := pq) rfl hF ho maxSettled
      (stepsOk_any _ _ _ _) (PrepFits.bounded (P := P.debug) ⟨hfit, hcap⟩ (weights_le (P := P.debug) rfl hb hW))
    refine ⟨fg, ?_⟩
    unfold prepareWithOrderWithParams buildWithOrderWithParams
    rw [getNumNodes_frozen hf]
    simp only [bind_okM]
    rw [if_neg (by simp [ho.length_eq]), e]
    rfl
  obtain ⟨fg, e⟩ := h
  exact ⟨fg, (C32_prepare_with_order hb hf pq ho maxSettled (by rw [e]; simp)).trans e⟩

/-- **C33, preparation by order, default limit** -/
theorem C33_prepare_with_order {P : Plat} {ops : List Op} {ig : InputGraph}
    (hb : buildGraph P.debug ops = .ok ig) (hf : ig.frozen = true) {W : Nat} (hW : ∀ e ∈ accepted ops, e.weight ≤ W)
    (hfit : 2 ^ (ig.numNodes + 2) * W ≤ P.umax) (hcap : ig.numNodes * ig.numNodes < P.umax)
    (pq : PQ) {order : List Nat} (ho : order.Perm (List.range ig.numNodes)) :
    ∃ fg, prepareWithOrder P pq ig order = .ok (.ok fg) :=
  C33_prepare_with_order_with_params hb hf hW hfit hcap pq ho _

/-- **C33, queries** Initial weights of at most `ws` and `wt` (or `usize::MAX`, which are skipped) and edge weights of at
most `W` with `ws + wt + 2 ^ n * W ≤ usize::MAX` suffice; the calculator may have any history. -/
theorem C33_query {P : Plat} {ops : List Op} {ig : InputGraph} {fg : FastGraph} (hc : Client P.debug ops ig fg) {W : Nat}
    (hW : ∀ e ∈ accepted ops, e.weight ≤ W) (pq : PQ) (history : List Request) {c : PathCalculator pq}
    (hh : runRequests P (PathCalculator.new P pq ig.numNodes) history = .ok c) {S T : List (Nat × Nat)}
    (hS : S ≠ []) (hT : T ≠ []) {ws wt : Nat} (hSn : ∀ x ∈ S, x.1 < ig.numNodes ∧ (x.2 < P.umax → x.2 ≤ ws))
    (hTn : ∀ x ∈ T, x.1 < ig.numNodes ∧ (x.2 < P.umax → x.2 ≤ wt))
    (hfit : ws + wt + 2 ^ ig.numNodes * W ≤ P.umax) : ∃ r, c.calcPathMulti P fg S T = .ok r := by
  obtain ⟨r, e, _⟩ := calcPathMulti_total (P := P.debug) rfl (hc.good rfl)
    (fun u v w he => weights_le (P := P.debug) rfl hc.built hW _ he)
    (runRequests_base (CalcOk.new P pq ig.numNodes) hh) hS hT hSn hTn hfit
  exact ⟨r, (C32_query P pq c fg S T (by rw [e]; simp)).trans e⟩

/-- **C33, queries, by the stored weights** A client that looks at the weights stored in its prepared graph has a bound
that is linear in the number of nodes. -/
theorem C33_query_stored {P : Plat} {ops : List Op} {ig : InputGraph} {fg : FastGraph} (hc : Client P.debug ops ig fg)
    {A : Nat} (hA : ∀ e ∈ fg.edgesFwd ++ fg.edgesBwd, e.weight ≤ A) (pq : PQ) (history : List Request)
    {c : PathCalculator pq} (hh : runRequests P (PathCalculator.new P pq ig.numNodes) history = .ok c)
    {S T : List (Nat × Nat)} (hS : S ≠ []) (hT : T ≠ []) {ws wt : Nat}
    (hSn : ∀ x ∈ S, x.1 < ig.numNodes ∧ (x.2 < P.umax → x.2 ≤ ws))
    (hTn : ∀ x ∈ T, x.1 < ig.numNodes ∧ (x.2 < P.umax → x.2 ≤ wt))
    (hfit : ws + wt + 2 * (ig.numNodes * A) ≤ P.umax) : ∃ r, c.calcPathMulti P fg S T = .ok r := by
  obtain ⟨r, e, _⟩ := calcPathMulti_total_stored (P := P.debug) rfl (hc.good rfl)
    (fun ed h => hA ed (List.mem_append_left _ h)) (fun ed h => hA ed (List.mem_append_right _ h))
    (runRequests_base (CalcOk.new P pq ig.numNodes) hh) hS hT hSn hTn hfit
  exact ⟨r, (C32_query P pq c fg S T (by rw [e]; simp)).trans e⟩

example : ∃ fg, prepareWithParams release64 binaryHeap listQueue Ex.ig ⟨Ex.rel, 5, 0, 7⟩ = .ok fg :=
  C33_prepare_with_params (P := release64) Ex.built rfl (W := 9) (by decide) (by decide) (by decide) (by decide) _ _ _
example : ∃ fg, prepareWithOrder debug32 binaryHeap Ex.ig [4, 2, 0, 1, 3] = .ok (.ok fg) :=
  C33_prepare_with_order (P := debug32) (ops := Ex.ops) rfl rfl (W := 9) (by decide) (by decide) (by decide) _ (by decide)
example : ∃ r, (PathCalculator.new debug64 binaryHeap 5).calcPathMulti debug64 Ex.fgo Ex.sources Ex.targets = .ok r :=
  C33_query (P := debug64) exampleClient' (W := 9) (by decide) binaryHeap [] rfl (by decide) (by decide)
    (ws := 9) (wt := 20) (by decide) (by decide) (by decide)
example : ∃ r, (PathCalculator.new debug64 binaryHeap 5).calcPathMulti debug64 Ex.fgo Ex.sources Ex.targets = .ok r :=
  C33_query_stored (P := debug64) exampleClient' (A := 13) (by decide) binaryHeap [] rfl (by decide) (by decide)
    (ws := 9) (wt := 20) (by decide) (by decide) (by decide)

/-! A bound that is linear in the node count does not hold for the stored weights: with limited witness searches a
shortcut can weigh more than any simple path. -/

/-- Nine nodes, weights of at most 100. -/
def heavyOps : List Op :=
  [.addEdge 0 2 100, .addEdge 0 3 1, .addEdge 0 5 2, .addEdge 0 6 10, .addEdge 0 7 1, .addEdge 1 0 100, .addEdge 2 0 3,
    .addEdge 2 1 1, .addEdge 2 4 100, .addEdge 2 6 1, .addEdge 2 8 100, .addEdge 3 1 100, .addEdge 4 1 100,
    .addEdge 4 3 1, .addEdge 5 3 100, .addEdge 5 6 10, .addEdge 6 5 100, .addEdge 7 1 100, .addEdge 7 8 3,
    .addEdge 8 7 1, .freeze]

/-- The resulting graph. -/
def heavyGraph : InputGraph where
  edges := (accepted heavyOps)
  numNodes := 9
  frozen := true

/-- The claim that `(n - 1) * W`, the largest weight of a simple path, bounds the stored weights is false. -/
theorem C33_linear_bound_false : ¬ ∀ (ops : List Op) (ig : InputGraph) (fg : FastGraph) (W : Nat),
    Client debug64 ops ig fg → (∀ e ∈ accepted ops, e.weight ≤ W) →
    ∀ e ∈ fg.edgesFwd ++ fg.edgesBwd, e.weight ≤ (ig.numNodes - 1) * W := by
  intro h
  have hp : ∃ fg, prepareWithOrderWithParams debug64 binaryHeap heavyGraph (List.range 9) 2 = .ok (.ok fg) ∧
      ∃ e ∈ fg.edgesFwd ++ fg.edgesBwd, e.weight = 1000 := by
    refine ⟨_, rfl, ?_⟩
    decide +kernel
  obtain ⟨fg, e, ed, m, hw⟩ := hp
  have := h heavyOps heavyGraph fg 100 ⟨rfl, rfl, .orderParams binaryHeap (List.range 9) 2 (List.Perm.refl _) e⟩ (by decide) ed m
  rw [hw] at this
  exact absurd this (by decide)

end Props
end FP
