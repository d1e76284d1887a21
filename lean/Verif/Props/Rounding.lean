import Verif.Props.Starts
set_option autoImplicit false
/-! # Weights that are a little off -/
namespace FP.Props
open Spec

/-- Every edge of the first list has a counterpart in the second one whose weight is at most `a / b` times as large. -/
def WithinFactor (a b : Nat) (es₁ es₂ : List Edge) : Prop :=
  ∀ e ∈ es₁, ∃ w, (⟨e.src, e.dst, w⟩ : Edge) ∈ es₂ ∧ b * w ≤ a * e.weight

/-- Every edge of the first list has a counterpart in the second one that is at most `c` heavier. -/
def WithinSum (c : Nat) (es₁ es₂ : List Edge) : Prop :=
  ∀ e ∈ es₁, ∃ w, (⟨e.src, e.dst, w⟩ : Edge) ∈ es₂ ∧ w ≤ e.weight + c

theorem WithinFactor.walk {a b : Nat} {es₁ es₂ : List Edge} (h : WithinFactor a b es₁ es₂) : ∀ {nodes : List Nat} {w : Nat},
    IsWalk (edgesOf es₁) nodes w → ∃ w', IsWalk (edgesOf es₂) nodes w' ∧ b * w' ≤ a * w
  | [], _, hw => hw.elim
  | [_], w, hw => ⟨0, rfl, by simp⟩
  | u :: v :: rest, w, hw => by
    obtain ⟨x, y, h1, h2, rfl⟩ := hw
    obtain ⟨x', k1, k2⟩ := h _ h1
    obtain ⟨y', k3, k4⟩ := h.walk h2
    refine ⟨x' + y', ⟨x', y', k1, k3, rfl⟩, ?_⟩
    simp only at k2
    rw [Nat.mul_add, Nat.mul_add]
    omega

theorem WithinSum.walk {c : Nat} {es₁ es₂ : List Edge} (h : WithinSum c es₁ es₂) : ∀ {nodes : List Nat} {w : Nat},
    IsWalk (edgesOf es₁) nodes w → ∃ w', IsWalk (edgesOf es₂) nodes w' ∧ w' ≤ w + c * (nodes.length - 1)
  | [], _, hw => hw.elim
  | [_], w, hw => ⟨0, rfl, by simp⟩
  | u :: v :: rest, w, hw => by
    obtain ⟨x, y, h1, h2, rfl⟩ := hw
    obtain ⟨x', k1, k2⟩ := h _ h1
    obtain ⟨y', k3, k4⟩ := h.walk h2
    refine ⟨x' + y', ⟨x', y', k1, k3, rfl⟩, ?_⟩
    simp only [List.length_cons, Nat.add_sub_cancel] at k2 k4 ⊢
    rw [Nat.mul_add, Nat.mul_one]
    omega

/-- **C113** If every edge became at most `a / b` times as heavy, the answers did as well: the weight of the new path, if it is a weight at
all, is at most `a / b` times that of the old one. -/
theorem C113_factor {P : Plat} (hP : P.checked = true) {ops₁ ops₂ : List Op} {ig₁ ig₂ : InputGraph} {fg₁ fg₂ : FastGraph}
    (hc₁ : Client P ops₁ ig₁ fg₁) (hc₂ : Client P ops₂ ig₂ fg₂) {a b : Nat}
    (hw : WithinFactor a b (accepted ops₁) (accepted ops₂)) (pq₁ pq₂ : PQ) {s t : Nat} {p₁ : ShortestPath}
    (h₁ : calcPath P pq₁ fg₁ s t = .ok (some p₁)) (hlt : a * p₁.weight < b * P.umax) {r₂ : Option ShortestPath}
    (h₂ : calcPath P pq₂ fg₂ s t = .ok r₂) : ∃ p₂, r₂ = some p₂ ∧ b * p₂.weight ≤ a * p₁.weight := by
  have a₁ := (query_answer hP hc₁ h₁).2.2.single.2 _ rfl
  have a₂ := (query_answer hP hc₂ h₂).2.2
  obtain ⟨nodes, k1, k2, k3⟩ := a₁.2.2.2.2.2.2.1
  obtain ⟨w', k4, k5⟩ := hw.walk k1
  have hle := cost_le a₂ (hasRoute_single.2 ⟨nodes, k4, k2, k3⟩)
  have hmul : b * cost P r₂ ≤ a * p₁.weight := Nat.le_trans (Nat.mul_le_mul_left b hle) k5
  cases r₂ with
  | none =>
    have : cost P none = P.umax := rfl
    rw [this] at hmul
    omega
  | some p₂ => exact ⟨p₂, rfl, hmul⟩

/-- **C113** If every edge became at most `c` heavier, the new path weighs at most `c` more for every edge of the old one. -/
theorem C113_sum {P : Plat} (hP : P.checked = true) {ops₁ ops₂ : List Op} {ig₁ ig₂ : InputGraph} {fg₁ fg₂ : FastGraph}
    (hc₁ : Client P ops₁ ig₁ fg₁) (hc₂ : Client P ops₂ ig₂ fg₂) {c : Nat}
    (hw : WithinSum c (accepted ops₁) (accepted ops₂)) (pq₁ pq₂ : PQ) {s t : Nat} {p₁ : ShortestPath}
    (h₁ : calcPath P pq₁ fg₁ s t = .ok (some p₁)) (hlt : p₁.weight + c * (p₁.nodes.length - 1) < P.umax) {r₂ : Option ShortestPath}
    (h₂ : calcPath P pq₂ fg₂ s t = .ok r₂) : ∃ p₂, r₂ = some p₂ ∧ p₂.weight ≤ p₁.weight + c * (p₁.nodes.length - 1) := by
  have a₁ := (query_answer hP hc₁ h₁).2.2.single.2 _ rfl
  have a₂ := (query_answer hP hc₂ h₂).2.2
  obtain ⟨-, -, -, k1, k2, k3, -⟩ := a₁
  obtain ⟨w', k4, k5⟩ := hw.walk k1
  have hle := cost_le a₂ (hasRoute_single.2 ⟨p₁.nodes, k4, k2, k3⟩)
  cases r₂ with
  | none =>
    have : cost P none = P.umax := rfl
    rw [this] at hle
    omega
  | some p₂ => exact ⟨p₂, rfl, Nat.le_trans hle k5⟩

/-- the example with slightly larger weights -/
def Ex.roundedOps : List Op :=
  [.addEdge 0 1 4, .addEdge 1 2 6, .addEdge 0 2 11, .addEdgeBidir 2 3 1, .addEdge 3 4 7, .addEdge 4 1 3, .freeze]

theorem Ex.rounded_accepted : accepted Ex.roundedOps =
    [⟨0, 1, 4⟩, ⟨1, 2, 6⟩, ⟨0, 2, 11⟩, ⟨2, 3, 1⟩, ⟨3, 2, 1⟩, ⟨3, 4, 7⟩, ⟨4, 1, 3⟩] := rfl
theorem Ex.ops_accepted : accepted Ex.ops =
    [⟨0, 1, 3⟩, ⟨1, 2, 4⟩, ⟨0, 2, 9⟩, ⟨2, 3, 1⟩, ⟨3, 2, 1⟩, ⟨3, 4, 5⟩, ⟨4, 1, 2⟩, ⟨0, 1, 8⟩] := rfl

/-- No edge is more than 3/2 times as heavy; the path of weight 13 becomes one of weight 18. -/
example : ∃ ig fg, Client debug64 Ex.roundedOps ig fg ∧ calcPath debug64 binaryHeap fg 0 4 = .ok (some ⟨0, 4, 18, [0, 1, 2, 3, 4]⟩) ∧
    ∃ p, some (⟨0, 4, 18, [0, 1, 2, 3, 4]⟩ : ShortestPath) = some p ∧ 2 * p.weight ≤ 3 * Ex.path.weight := by
  refine ⟨_, _, ⟨rfl, rfl, .default binaryHeap listQueue Ex.rel rfl⟩, rfl, ?_⟩
  refine C113_factor (P := debug64) (ops₂ := Ex.roundedOps) rfl exampleClient ⟨rfl, rfl, .default binaryHeap listQueue Ex.rel rfl⟩ ?_
    binaryHeap binaryHeap Ex.query (by decide) rfl
  rw [Ex.rounded_accepted, Ex.ops_accepted]
  intro e he
  simp only [List.mem_cons, List.not_mem_nil, or_false] at he
  rcases he with rfl | rfl | rfl | rfl | rfl | rfl | rfl | rfl
  exacts [⟨4, by decide, by decide⟩, ⟨6, by decide, by decide⟩, ⟨11, by decide, by decide⟩, ⟨1, by decide, by decide⟩,
    ⟨1, by decide, by decide⟩, ⟨7, by decide, by decide⟩, ⟨3, by decide, by decide⟩, ⟨4, by decide, by decide⟩]

/-- No edge is more than 2 heavier; the path of four edges gains 5, at most 8. -/
example : ∃ ig fg, Client debug64 Ex.roundedOps ig fg ∧ calcPath debug64 binaryHeap fg 0 4 = .ok (some ⟨0, 4, 18, [0, 1, 2, 3, 4]⟩) ∧
    ∃ p, some (⟨0, 4, 18, [0, 1, 2, 3, 4]⟩ : ShortestPath) = some p ∧ p.weight ≤ Ex.path.weight + 2 * (Ex.path.nodes.length - 1) := by
  refine ⟨_, _, ⟨rfl, rfl, .default binaryHeap listQueue Ex.rel rfl⟩, rfl, ?_⟩
  refine C113_sum (P := debug64) (ops₂ := Ex.roundedOps) rfl exampleClient ⟨rfl, rfl, .default binaryHeap listQueue Ex.rel rfl⟩ ?_
    binaryHeap binaryHeap Ex.query (by decide) rfl
  rw [Ex.rounded_accepted, Ex.ops_accepted]
  intro e he
  simp only [List.mem_cons, List.not_mem_nil, or_false] at he
  rcases he with rfl | rfl | rfl | rfl | rfl | rfl | rfl | rfl
  exacts [⟨4, by decide, by decide⟩, ⟨6, by decide, by decide⟩, ⟨11, by decide, by decide⟩, ⟨1, by decide, by decide⟩,
    ⟨1, by decide, by decide⟩, ⟨7, by decide, by decide⟩, ⟨3, by decide, by decide⟩, ⟨4, by decide, by decide⟩]

end FP.Props
