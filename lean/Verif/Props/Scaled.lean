import Verif.Proofs.ScaledPrep
import Verif.Props.NoTies
set_option autoImplicit false
/-! # The unit of the weights

C47 says that the answers scale with the weights. Here: the prepared graph does. If the weights are given in another unit, say in meters
instead of kilometers, preparation takes the same decisions, ties and budgets included. -/
namespace FP.Props
open Spec

/-- A heap that decides by comparing weights: when it is given weights that compare alike, it hands out the same nodes. -/
def ComparingHeap (pq : PQ) : Prop :=
  ∀ T : Nat → Nat → Prop, (∀ p q p' q', T p p' → T q q' → (p ≤ q ↔ p' ≤ q')) →
    ∃ S : pq.σ → pq.σ → Prop, S pq.empty pq.empty ∧
      (∀ q q' n w w', S q q' → T w w' → S (pq.push ⟨w, n⟩ q) (pq.push ⟨w', n⟩ q')) ∧
      (∀ q q', S q q' → (pq.pop q = none ∧ pq.pop q' = none) ∨
        ∃ n w w' r r', pq.pop q = some (⟨w, n⟩, r) ∧ pq.pop q' = some (⟨w', n⟩, r') ∧ T w w' ∧ S r r') ∧
      (∀ q q', S q q' → (pq.items q').length = (pq.items q).length)

/-- **C133** The algorithm of `BinaryHeap` decides by comparing. -/
theorem C133_binary_heap : ComparingHeap binaryHeap := fun _ hT =>
  ⟨_, (binaryHeap_same hT).empty, (binaryHeap_same hT).push, (binaryHeap_same hT).pop, (binaryHeap_same hT).items⟩

theorem ComparingHeap.same {pq : PQ} (h : ComparingHeap pq) {k : Nat} (hk : 1 ≤ k) :
    ∃ S, SameHeaps pq (fun w w' => w' = k * w) S := by
  obtain ⟨S, h1, h2, h3, h4⟩ := h (fun w w' => w' = k * w) (by
    rintro p q _ _ rfl rfl
    exact (Nat.mul_le_mul_left_iff hk).symm)
  exact ⟨S, h1, h2, h3, h4⟩

/-- **C133** If the edges handed over by two clients are the same except that the weights of the second one are `k` times those of the
first one, then so are the frozen graphs. -/
theorem C133_frozen {P : Plat} (hP : P.checked = true) {ops₁ ops₂ : List Op} {ig₁ ig₂ : InputGraph}
    (hb₁ : buildGraph P ops₁ = .ok ig₁) (hf₁ : ig₁.frozen = true) (hb₂ : buildGraph P ops₂ = .ok ig₂) (hf₂ : ig₂.frozen = true)
    {k : Nat} (hk : 1 ≤ k)
    (hsc : ∀ u v w', (⟨u, v, w'⟩ : Edge) ∈ accepted ops₂ ↔ ∃ w, (⟨u, v, w⟩ : Edge) ∈ accepted ops₁ ∧ w' = k * w) :
    ig₂ = ig₁.scale k := by
  have h₁ := buildGraph_inv (Or.inl hP) hb₁
  have h₂ := buildGraph_inv (Or.inl hP) hb₂
  have hmin : ∀ u v w', IsMinEdge (accepted ops₂) u v w' ↔ ∃ w, IsMinEdge (accepted ops₁) u v w ∧ w' = k * w := by
    intro u v w'
    constructor
    · rintro ⟨h, hle⟩
      obtain ⟨w, hw, rfl⟩ := (hsc _ _ _).1 h
      exact ⟨w, ⟨hw, fun x hx => (Nat.mul_le_mul_left_iff hk).1 (hle _ ((hsc _ _ _).2 ⟨x, hx, rfl⟩))⟩, rfl⟩
    · rintro ⟨w, ⟨h, hle⟩, rfl⟩
      refine ⟨(hsc _ _ _).2 ⟨w, h, rfl⟩, fun x hx => ?_⟩
      obtain ⟨y, hy, rfl⟩ := (hsc _ _ _).1 hx
      exact Nat.mul_le_mul_left k (hle y hy)
  have he : ig₂.edges = (ig₁.scale k).edges := by
    refine sorted_ext (h₂.sorted hf₂) (List.pairwise_map.2 (h₁.sorted hf₁)) ?_
    rintro ⟨u, v, w'⟩
    rw [h₂.mem_iff hf₂, hmin]
    simp only [InputGraph.scale, List.mem_map]
    constructor
    · rintro ⟨w, hw, rfl⟩
      exact ⟨⟨u, v, w⟩, (h₁.mem_iff hf₁ _ _ _).2 hw, rfl⟩
    · rintro ⟨⟨a, b, w⟩, hw, e⟩
      simp only [Edge.mk.injEq] at e
      obtain ⟨rfl, rfl, rfl⟩ := e
      exact ⟨w, (h₁.mem_iff hf₁ _ _ _).1 hw, rfl⟩
  have hn : ig₂.numNodes = ig₁.numNodes := by
    rw [h₁.num, h₂.num]
    refine nodeCount_congr (fun u v => ?_)
    constructor
    · rintro ⟨_, h⟩
      obtain ⟨w, hw, _⟩ := (hmin _ _ _).1 h
      exact ⟨w, hw⟩
    · rintro ⟨w, hw⟩
      exact ⟨_, (hmin _ _ _).2 ⟨w, hw, rfl⟩⟩
  cases ig₁; cases ig₂
  simp only [InputGraph.scale] at he hn hf₁ hf₂ ⊢
  subst he hn hf₁ hf₂
  rfl

/-- **C133** If `prepare_with_params` returns for the graph with `k` times the weights, it returns for the original graph too, and the
results differ only in the weights: the same ranks, the same edges and shortcuts in the same places, `k` times the weights. (`usize::MAX`
stands for "no path", so `k` must not divide it; all even numbers are fine.) -/
theorem C133_params {P : Plat} (hP : P.checked = true) {ops₁ ops₂ : List Op} {ig₁ ig₂ : InputGraph}
    (hb₁ : buildGraph P ops₁ = .ok ig₁) (hf₁ : ig₁.frozen = true) (hb₂ : buildGraph P ops₂ = .ok ig₂) (hf₂ : ig₂.frozen = true)
    {k : Nat} (hk : 1 ≤ k) (hu : ¬ k ∣ P.umax)
    (hsc : ∀ u v w', (⟨u, v, w'⟩ : Edge) ∈ accepted ops₂ ↔ ∃ w, (⟨u, v, w⟩ : Edge) ∈ accepted ops₁ ∧ w' = k * w)
    {pq : PQ} (hpq : ComparingHeap pq) {nq : NodeQueue} {params : Params} {fg₂ : FastGraph}
    (h : prepareWithParams P pq nq ig₂ params = .ok fg₂) :
    ∃ fg₁, prepareWithParams P pq nq ig₁ params = .ok fg₁ ∧ fg₂ = fg₁.scale k := by
  obtain ⟨S, hS⟩ := hpq.same hk
  rw [C133_frozen hP hb₁ hf₁ hb₂ hf₂ hk hsc] at h
  exact buildWithParams_scale hS hP ⟨hk, hu⟩ ig₁ params _ h

/-- **C133** The same for `prepare_with_order_with_params`, errors included. -/
theorem C133_order {P : Plat} (hP : P.checked = true) {ops₁ ops₂ : List Op} {ig₁ ig₂ : InputGraph}
    (hb₁ : buildGraph P ops₁ = .ok ig₁) (hf₁ : ig₁.frozen = true) (hb₂ : buildGraph P ops₂ = .ok ig₂) (hf₂ : ig₂.frozen = true)
    {k : Nat} (hk : 1 ≤ k) (hu : ¬ k ∣ P.umax)
    (hsc : ∀ u v w', (⟨u, v, w'⟩ : Edge) ∈ accepted ops₂ ↔ ∃ w, (⟨u, v, w⟩ : Edge) ∈ accepted ops₁ ∧ w' = k * w)
    {pq : PQ} (hpq : ComparingHeap pq) {order : List Nat} {maxSettled : Nat} {r₂ : Except String FastGraph}
    (h : prepareWithOrderWithParams P pq ig₂ order maxSettled = .ok r₂) :
    ∃ r₁, prepareWithOrderWithParams P pq ig₁ order maxSettled = .ok r₁ ∧
      (∀ fg₁, r₁ = .ok fg₁ → r₂ = .ok (fg₁.scale k)) ∧ (∀ e, r₁ = .error e → r₂ = .error e) := by
  obtain ⟨S, hS⟩ := hpq.same hk
  rw [C133_frozen hP hb₁ hf₁ hb₂ hf₂ hk hsc] at h
  obtain ⟨r₁, h1, h2⟩ := buildWithOrder_scale hS hP ⟨hk, hu⟩ ig₁ order maxSettled _ h
  refine ⟨r₁, h1, ?_, ?_⟩ <;> rintro _ rfl <;> exact h2

namespace Scaled

/-- the calls of the example graph, with weights a thousand times as large -/
def ops : List Op :=
  [.addEdge 0 1 3000, .addEdge 1 2 4000, .addEdge 0 2 9000, .addEdgeBidir 2 3 1000, .addEdge 3 4 5000, .addEdge 4 1 2000,
    .addEdge 2 2 7000, .addEdge 1 3 0, .addEdge 0 1 8000, .freeze]

def ig : InputGraph where
  edges := [⟨0, 1, 3000⟩, ⟨0, 2, 9000⟩, ⟨1, 2, 4000⟩, ⟨2, 3, 1000⟩, ⟨3, 2, 1000⟩, ⟨3, 4, 5000⟩, ⟨4, 1, 2000⟩]
  numNodes := 5
  frozen := true

theorem edges (u v w' : Nat) :
    (⟨u, v, w'⟩ : Edge) ∈ accepted ops ↔ ∃ w, (⟨u, v, w⟩ : Edge) ∈ accepted Ex.ops ∧ w' = 1000 * w := by
  have h : accepted ops = (accepted Ex.ops).map (fun e => { e with weight := 1000 * e.weight }) := by decide
  rw [h, List.mem_map]
  constructor
  · rintro ⟨⟨a, b, w⟩, hm, e⟩
    simp only [Edge.mk.injEq] at e
    obtain ⟨rfl, rfl, rfl⟩ := e
    exact ⟨w, hm, rfl⟩
  · rintro ⟨w, hm, rfl⟩
    exact ⟨_, hm, rfl⟩

/-- The hypotheses of `C133_params` can be met. -/
example : ∃ fg₂, prepareWithParams debug64 binaryHeap listQueue ig ⟨Ex.rel, 500, 100, 500⟩ = .ok fg₂ ∧
    ∃ fg₁, prepareWithParams debug64 binaryHeap listQueue Ex.ig ⟨Ex.rel, 500, 100, 500⟩ = .ok fg₁ ∧ fg₂ = fg₁.scale 1000 :=
  have h : prepareWithParams debug64 binaryHeap listQueue ig ⟨Ex.rel, 500, 100, 500⟩ = .ok (Ex.fg.scale 1000) := rfl
  ⟨_, h, C133_params (ops₁ := Ex.ops) (ops₂ := ops) rfl Ex.built rfl rfl rfl (by decide) (by decide) edges C133_binary_heap h⟩

/-- And those of `C133_order`. -/
example : ∃ r₁, prepareWithOrderWithParams debug64 binaryHeap Ex.ig Ex.order 500 = .ok r₁ ∧
    (∀ fg₁, r₁ = .ok fg₁ → (.ok (Ex.fgo.scale 1000) : Except String FastGraph) = .ok (fg₁.scale 1000)) ∧
    (∀ e, r₁ = .error e → (.ok (Ex.fgo.scale 1000) : Except String FastGraph) = .error e) :=
  C133_order (ops₁ := Ex.ops) (ops₂ := ops) (ig₂ := ig) rfl Ex.built rfl rfl rfl (by decide) (by decide) edges C133_binary_heap rfl

/-- A path of weight `usize::MAX / 3`. -/
def third : InputGraph where
  edges := [⟨0, 1, 1⟩, ⟨1, 2, 6148914691236517204⟩]
  numNodes := 3
  frozen := true

/-- its calls -/
def thirdOps : List Op := [.addEdge 0 1 1, .addEdge 1 2 6148914691236517204, .freeze]
/-- the calls with three times the weights -/
def wholeOps : List Op := [.addEdge 0 1 3, .addEdge 1 2 18446744073709551612, .freeze]

/-- the prepared graphs: with the shortcut from 0 to 2 and without it -/
def thirdFg : FastGraph where
  numNodes := 3
  ranks := [1, 0, 2]
  edgesFwd := [⟨1, 2, 6148914691236517204, Ex.inv, Ex.inv⟩, ⟨0, 2, 6148914691236517205, 0, 0⟩]
  firstEdgeIdsFwd := [0, 1, 2, 2]
  edgesBwd := [⟨1, 0, 1, Ex.inv, Ex.inv⟩]
  firstEdgeIdsBwd := [0, 1, 1, 1]

def wholeFg : FastGraph where
  numNodes := 3
  ranks := [1, 0, 2]
  edgesFwd := [⟨1, 2, 18446744073709551612, Ex.inv, Ex.inv⟩]
  firstEdgeIdsFwd := [0, 1, 1, 1]
  edgesBwd := [⟨1, 0, 3, Ex.inv, Ex.inv⟩]
  firstEdgeIdsBwd := [0, 1, 1, 1]

end Scaled

/-- **C133** The condition on `k` is needed: if `k` divides `usize::MAX` a path of the scaled graph may have exactly this weight, and then
its shortcut is left out, although nothing panics. -/
theorem C133_divisor : ∃ (ops₁ ops₂ : List Op) (ig₁ ig₂ : InputGraph) (order : List Nat) (fg₁ fg₂ : FastGraph),
    buildGraph debug64 ops₁ = .ok ig₁ ∧ buildGraph debug64 ops₂ = .ok ig₂ ∧ ig₂ = ig₁.scale 3 ∧
    prepareWithOrder debug64 binaryHeap ig₁ order = .ok (.ok fg₁) ∧ prepareWithOrder debug64 binaryHeap ig₂ order = .ok (.ok fg₂) ∧
    fg₁.getNumOutEdges + fg₁.getNumInEdges = 3 ∧ fg₂.getNumOutEdges + fg₂.getNumInEdges = 2 := by
  exact ⟨Scaled.thirdOps, Scaled.wholeOps, Scaled.third, Scaled.third.scale 3, [1, 0, 2], Scaled.thirdFg, Scaled.wholeFg,
    rfl, rfl, rfl, rfl, rfl, rfl, rfl⟩

end FP.Props
