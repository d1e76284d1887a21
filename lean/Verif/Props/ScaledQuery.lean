import Verif.Proofs.ScaledQuery
import Verif.Props.Scaled
import Verif.Props.EndToEnd
set_option autoImplicit false
/-! # The unit of the weights and the routes

C47 compares the weights of the answers in two units. Here: the whole answers, that is which of several shortest paths is returned. -/
namespace FP.Props
open Spec

/-- A source (or target) with its weight in the two units. Entries of weight `usize::MAX` are ignored by the code in every unit. -/
def SameEnd (P : Plat) (k : Nat) (x x' : Nat × Nat) : Prop :=
  x'.1 = x.1 ∧ ((x'.2 = k * x.2 ∧ x'.2 ≤ P.umax) ∨ (x.2 = P.umax ∧ x'.2 = P.umax))

theorem SameEnd.ends {P : Plat} {k : Nat} (hk : Factor P k) {l l' : List (Nat × Nat)} (h : List.Forall₂ (SameEnd P k) l l') :
    PathCalculator.Ends P k l l' := by
  refine h.imp ?_
  rintro x x' ⟨h1, ⟨h2, h3⟩ | h2⟩
  · rw [h2] at h3
    exact ⟨h1, by rw [h2]; exact RouteWeight.of_le hk h3⟩
  · exact ⟨h1, .inr h2⟩

theorem ComparingHeap.route {pq : PQ} (h : ComparingHeap pq) {P : Plat} {k : Nat} (hk : Factor P k) :
    ∃ S, SameHeaps pq (RouteWeight P k) S := by
  obtain ⟨S, h1, h2, h3, h4⟩ := h (RouteWeight P k) (fun p q p' q' hp hq => (hp.le_iff hk hq).symm)
  exact ⟨S, h1, h2, h3, h4⟩

/-- **C134** If a query with several sources and targets returns for the graph with `k` times the weights, then it returns for the
original graph as well, with the same nodes in the same order and the weight in the original unit, or with no path in both cases. The
graph can be any value of type `FastGraph`. -/
theorem C134_multi {P : Plat} (hP : P.checked = true) {k : Nat} (hk : 1 ≤ k) (hu : ¬ k ∣ P.umax) {pq : PQ} (hpq : ComparingHeap pq)
    {fg : FastGraph} {sources sources' targets targets' : List (Nat × Nat)} (hs : List.Forall₂ (SameEnd P k) sources sources')
    (ht : List.Forall₂ (SameEnd P k) targets targets') {r' : Option ShortestPath}
    (h : calcPathMulti P pq (fg.scale k) sources' targets' = .ok r') :
    ∃ r, calcPathMulti P pq fg sources targets = .ok r ∧ (r = none → r' = none) ∧
      ∀ p, r = some p → r' = some ⟨p.source, p.target, k * p.weight, p.nodes⟩ := by
  obtain ⟨S, hS⟩ := hpq.route ⟨hk, hu⟩
  obtain ⟨r, h1, h2⟩ := PathCalculator.libCalcPathMulti_route ⟨hk, hu⟩ hP hS fg (SameEnd.ends ⟨hk, hu⟩ hs) (SameEnd.ends ⟨hk, hu⟩ ht)
    r' h
  unfold PathCalculator.RouteAnswer at h2
  refine ⟨r, h1, ?_, ?_⟩ <;> rintro _ <;> (try intro e) <;> subst_vars <;> rfl

/-- **C134** The same for one source and one target. -/
theorem C134_path {P : Plat} (hP : P.checked = true) {k : Nat} (hk : 1 ≤ k) (hu : ¬ k ∣ P.umax) {pq : PQ} (hpq : ComparingHeap pq)
    {fg : FastGraph} {s t : Nat} {r' : Option ShortestPath} (h : calcPath P pq (fg.scale k) s t = .ok r') :
    ∃ r, calcPath P pq fg s t = .ok r ∧ (r = none → r' = none) ∧
      ∀ p, r = some p → r' = some ⟨p.source, p.target, k * p.weight, p.nodes⟩ :=
  C134_multi hP hk hu hpq (sources := [(s, 0)]) (targets := [(t, 0)]) (.cons ⟨rfl, .inl ⟨by simp, Nat.zero_le _⟩⟩ .nil)
    (.cons ⟨rfl, .inl ⟨by simp, Nat.zero_le _⟩⟩ .nil) h

/-- **C134** From the calls of the client to the route: when all weights are given in a smaller unit and both preparation and query
return, then they do so in the original unit, and the route visits the same nodes. -/
theorem C134_routes {P : Plat} (hP : P.checked = true) {ops₁ ops₂ : List Op} {ig₁ ig₂ : InputGraph}
    (hb₁ : buildGraph P ops₁ = .ok ig₁) (hf₁ : ig₁.frozen = true) (hb₂ : buildGraph P ops₂ = .ok ig₂) (hf₂ : ig₂.frozen = true)
    {k : Nat} (hk : 1 ≤ k) (hu : ¬ k ∣ P.umax)
    (hsc : ∀ u v w', (⟨u, v, w'⟩ : Edge) ∈ accepted ops₂ ↔ ∃ w, (⟨u, v, w⟩ : Edge) ∈ accepted ops₁ ∧ w' = k * w)
    {pq pq' : PQ} (hpq : ComparingHeap pq) (hpq' : ComparingHeap pq') {nq : NodeQueue} {params : Params} {fg₂ : FastGraph}
    (hp : prepareWithParams P pq nq ig₂ params = .ok fg₂) {s t : Nat} {r₂ : Option ShortestPath}
    (hq : calcPath P pq' fg₂ s t = .ok r₂) :
    ∃ fg₁ r₁, prepareWithParams P pq nq ig₁ params = .ok fg₁ ∧ calcPath P pq' fg₁ s t = .ok r₁ ∧ (r₁ = none → r₂ = none) ∧
      ∀ p, r₁ = some p → r₂ = some ⟨p.source, p.target, k * p.weight, p.nodes⟩ := by
  obtain ⟨fg₁, h1, rfl⟩ := C133_params hP hb₁ hf₁ hb₂ hf₂ hk hu hsc hpq hp
  obtain ⟨r₁, h2, h3⟩ := C134_path hP hk hu hpq' hq
  exact ⟨fg₁, r₁, h1, h2, h3⟩

/-- **C134** With weights that cannot overflow (as in C54) everything returns, in every build: the two prepared graphs differ in the unit
only, and so do the answers of all queries. -/
theorem C134_total {P : Plat} {ops₁ ops₂ : List Op} {ig₁ ig₂ : InputGraph}
    (hb₁ : buildGraph P.debug ops₁ = .ok ig₁) (hf₁ : ig₁.frozen = true) (hb₂ : buildGraph P.debug ops₂ = .ok ig₂)
    (hf₂ : ig₂.frozen = true) {k : Nat} (hk : 1 ≤ k) (hu : ¬ k ∣ P.umax)
    (hsc : ∀ u v w', (⟨u, v, w'⟩ : Edge) ∈ accepted ops₂ ↔ ∃ w, (⟨u, v, w⟩ : Edge) ∈ accepted ops₁ ∧ w' = k * w)
    {W : Nat} (hW : ∀ e ∈ accepted ops₁, e.weight ≤ W) (hfit : 2 ^ (ig₁.numNodes + 2) * (k * W) ≤ P.umax)
    (hcap : ig₁.numNodes * ig₁.numNodes < P.umax) (hcnt : ig₁.numNodes * ig₁.numNodes ≤ I32_MAX) {pq pq' : PQ}
    (hpq : ComparingHeap pq) (hpq' : ComparingHeap pq') (nq : NodeQueue) (params : Params) :
    ∃ fg, prepareWithParams P pq nq ig₁ params = .ok fg ∧ prepareWithParams P pq nq ig₂ params = .ok (fg.scale k) ∧
      ∀ s t, s < ig₁.numNodes → t < ig₁.numNodes → ∃ r, calcPath P pq' fg s t = .ok r ∧
        calcPath P pq' (fg.scale k) s t = .ok (r.map (fun p => ⟨p.source, p.target, k * p.weight, p.nodes⟩)) := by
  have hn : ig₂.numNodes = ig₁.numNodes := by
    rw [C133_frozen (P := P.debug) rfl hb₁ hf₁ hb₂ hf₂ hk hsc]; rfl
  have hW₂ : ∀ e ∈ accepted ops₂, e.weight ≤ k * W := by
    rintro ⟨u, v, w'⟩ he
    obtain ⟨w, hw, rfl⟩ := (hsc _ _ _).1 he
    exact Nat.mul_le_mul_left k (hW _ hw)
  obtain ⟨fg₂, h₂, hq⟩ := C54_prepare_and_query (P := P.debug) hb₂ hf₂ hW₂ (by rw [hn]; exact hfit) (by rw [hn]; exact hcap)
    (by rw [hn]; exact hcnt) pq nq params
  obtain ⟨fg₁, h₁, rfl⟩ := C133_params (P := P.debug) rfl hb₁ hf₁ hb₂ hf₂ hk hu hsc hpq h₂
  have release : ∀ {fg : FastGraph} {s t : Nat} {r : Option ShortestPath}, calcPath P.debug pq' fg s t = .ok r →
      calcPath P pq' fg s t = .ok r := by
    intro fg s t r h
    unfold calcPath at h ⊢
    obtain ⟨⟨c, x⟩, e, h⟩ := bind_eq_ok.1 h
    have := C32_query P pq' (PathCalculator.new P pq' fg.getNumNodes) fg [(s, 0)] [(t, 0)] (by
      intro e'
      have e : PathCalculator.calcPathMulti P.debug (PathCalculator.new P pq' fg.getNumNodes) fg [(s, 0)] [(t, 0)] = .ok (c, x) := e
      rw [e] at e'
      cases e')
    unfold PathCalculator.calcPath at e ⊢
    rw [this]
    exact (congrArg (fun m => m >>= _) e).trans h
  refine ⟨fg₁, (C32_prepare_with_params hb₁ hf₁ pq nq params (by rw [h₁]; simp)).trans h₁,
    (C32_prepare_with_params hb₂ hf₂ pq nq params (by rw [h₂]; simp)).trans h₂, ?_⟩
  intro s t hs ht
  obtain ⟨r₂, e₂, _⟩ := hq pq' s t (by rw [hn]; exact hs) (by rw [hn]; exact ht)
  obtain ⟨r₁, e₁, h3, h4⟩ := C134_path (P := P.debug) rfl hk hu hpq' e₂
  refine ⟨r₁, release e₁, (release e₂).trans ?_⟩
  cases r₁ with
  | none => rw [h3 rfl]; rfl
  | some p => rw [h4 p rfl]; rfl

namespace Scaled

/-- The sources of the example in a smaller unit; the entry that is never used stays as it is. -/
def sources : List (Nat × Nat) := Ex.sources.map (fun x => if x.2 = Ex.inv then x else (x.1, 1000 * x.2))
/-- the targets -/
def targets : List (Nat × Nat) := Ex.targets.map (fun x => if x.2 = Ex.inv then x else (x.1, 1000 * x.2))

theorem sameEnds {l : List (Nat × Nat)} (h : ∀ x ∈ l, x.2 = Ex.inv ∨ 1000 * x.2 ≤ Ex.inv) :
    List.Forall₂ (SameEnd debug64 1000) l (l.map (fun x => if x.2 = Ex.inv then x else (x.1, 1000 * x.2))) := by
  induction l with
  | nil => exact .nil
  | cons x l ih =>
    refine .cons ?_ (ih (fun y hy => h y (List.mem_cons_of_mem _ hy)))
    show SameEnd debug64 1000 x (if x.2 = Ex.inv then x else (x.1, 1000 * x.2))
    by_cases hx : x.2 = Ex.inv
    · rw [if_pos hx]
      exact ⟨rfl, .inr ⟨hx, hx⟩⟩
    · rw [if_neg hx]
      exact ⟨rfl, .inl ⟨rfl, (h x (List.mem_cons_self ..)).resolve_left hx⟩⟩

/-- The hypotheses of `C134_multi` can be met. -/
example : ∃ r, calcPathMulti debug64 binaryHeap Ex.fgo Ex.sources Ex.targets = .ok r ∧
    (r = none → (some ⟨3, 4, 14000, [3, 4]⟩ : Option ShortestPath) = none) ∧
    ∀ p, r = some p → (some ⟨3, 4, 14000, [3, 4]⟩ : Option ShortestPath) = some ⟨p.source, p.target, 1000 * p.weight, p.nodes⟩ :=
  C134_multi (sources' := sources) (targets' := targets) rfl (by decide) (by decide) C133_binary_heap (sameEnds (by decide))
    (sameEnds (by decide)) rfl

/-- And those of `C134_routes`. -/
example : ∃ fg₁ r₁, prepareWithParams debug64 binaryHeap listQueue Ex.ig ⟨Ex.rel, 500, 100, 500⟩ = .ok fg₁ ∧
    calcPath debug64 binaryHeap fg₁ 0 4 = .ok r₁ ∧
    (r₁ = none → (some { Ex.path with weight := 1000 * Ex.path.weight }) = none) ∧
    ∀ p, r₁ = some p → some { Ex.path with weight := 1000 * Ex.path.weight } = some ⟨p.source, p.target, 1000 * p.weight, p.nodes⟩ :=
  C134_routes (ops₁ := Ex.ops) (ops₂ := ops) (ig₂ := ig) (fg₂ := Ex.fg.scale 1000) rfl Ex.built rfl rfl rfl (by decide) (by decide) edges
    C133_binary_heap C133_binary_heap rfl rfl

/-- And those of `C134_total`, for a release build. -/
example : ∃ fg, prepareWithParams release64 binaryHeap listQueue Ex.ig ⟨Ex.rel, 500, 100, 500⟩ = .ok fg ∧
    prepareWithParams release64 binaryHeap listQueue ig ⟨Ex.rel, 500, 100, 500⟩ = .ok (fg.scale 1000) ∧
    ∀ s t, s < 5 → t < 5 → ∃ r, calcPath release64 binaryHeap fg s t = .ok r ∧
      calcPath release64 binaryHeap (fg.scale 1000) s t = .ok (r.map (fun p => ⟨p.source, p.target, 1000 * p.weight, p.nodes⟩)) :=
  C134_total (P := release64) (ops₁ := Ex.ops) (ops₂ := ops) (ig₁ := Ex.ig) (W := 9) rfl rfl rfl rfl (by decide) (by decide) edges
    (by decide) (by decide) (by decide) (by decide) C133_binary_heap C133_binary_heap _ _

end Scaled

/-- **C134** Again the condition on `k` is needed: with three times the weights the path of weight `usize::MAX / 3` is gone. -/
theorem C134_divisor : ∃ fg : FastGraph, calcPath debug64 binaryHeap (fg.scale 3) 0 2 = .ok none ∧
    ∃ p, calcPath debug64 binaryHeap fg 0 2 = .ok (some p) :=
  ⟨Scaled.thirdFg, rfl, ⟨0, 2, 6148914691236517205, [0, 1, 2]⟩, rfl⟩

end FP.Props
