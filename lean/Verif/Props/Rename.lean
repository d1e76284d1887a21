import Verif.Props.Query
import Verif.Proofs.Distance
/-!
# Other node ids

Node ids only name nodes. A client that uses other ids, or keeps further nodes and edges in the same graph that cannot be reached
from its own, gets the same weights.
-/
set_option autoImplicit false
namespace FP
namespace Props
open Spec

/-- `f` maps the nodes below `n` and the edges `E₁` between them one to one to a part of `E₂` that no edge leaves. -/
structure Embeds (f : Nat → Nat) (n : Nat) (E₁ E₂ : List Edge) : Prop where
  inj : ∀ u < n, ∀ v < n, f u = f v → u = v
  image : ∀ e ∈ E₁, (⟨f e.src, f e.dst, e.weight⟩ : Edge) ∈ E₂
  closed : ∀ e ∈ E₂, ∀ u < n, e.src = f u → ∃ v < n, e.dst = f v ∧ (⟨u, v, e.weight⟩ : Edge) ∈ E₁

private theorem walk_image {f : Nat → Nat} {n : Nat} {E₁ E₂ : List Edge} (h : Embeds f n E₁ E₂) {s t w : Nat}
    (hw : Wk (edgesOf E₁) s t w) : Wk (edgesOf E₂) (f s) (f t) w := by
  induction hw with
  | nil s => exact .nil _
  | cons he _ ih => exact .cons (h.image _ he) ih

private theorem walk_preimage {f : Nat → Nat} {n : Nat} {E₁ E₂ : List Edge} (h : Embeds f n E₁ E₂) {s' t' w : Nat}
    (hw : Wk (edgesOf E₂) s' t' w) : ∀ s < n, ∀ t < n, s' = f s → t' = f t → Wk (edgesOf E₁) s t w := by
  induction hw with
  | nil s' =>
    rintro s hs t ht rfl h2
    rw [h.inj _ hs _ ht h2]
    exact .nil _
  | cons he _ ih =>
    intro s hs t ht h1 h2
    obtain ⟨v, hv, h3, h4⟩ := h.closed _ he s hs h1
    exact .cons h4 (ih v hv t ht h3 h2)

/-- **C83** Queries with several sources and targets: the graphs may have different numbers of nodes, be prepared in different ways and
with different heaps. -/
theorem C83_renamed_multi {P : Plat} (hP : P.checked = true) {ops₁ ops₂ : List Op} {ig₁ ig₂ : InputGraph}
    {fg₁ fg₂ : FastGraph} (hc₁ : Client P ops₁ ig₁ fg₁) (hc₂ : Client P ops₂ ig₂ fg₂) {f : Nat → Nat}
    (hf : Embeds f ig₁.numNodes (accepted ops₁) (accepted ops₂)) (pq₁ pq₂ : PQ) {S T : List (Nat × Nat)}
    {r₁ r₂ : Option ShortestPath} (h₁ : calcPathMulti P pq₁ fg₁ S T = .ok r₁)
    (h₂ : calcPathMulti P pq₂ fg₂ (S.map (fun x => (f x.1, x.2))) (T.map (fun x => (f x.1, x.2))) = .ok r₂) :
    r₁.map (·.weight) = r₂.map (·.weight) := by
  obtain ⟨ha, _, a₁⟩ := query_answer hP hc₁ h₁
  refine a₁.weight_eq (query_answer hP hc₂ h₂).2.2 ?_ ?_
  · rintro w _ ⟨s, ws, t, wt, x, h1, h2, h3, rfl⟩
    exact ⟨_, Nat.le_refl _, f s, ws, f t, wt, x, List.mem_map.2 ⟨_, h1, rfl⟩, List.mem_map.2 ⟨_, h2, rfl⟩,
      hasWalk_iff.2 (walk_image hf (hasWalk_iff.1 h3)), rfl⟩
  · rintro w _ ⟨s', ws, t', wt, x, h1, h2, h3, rfl⟩
    obtain ⟨⟨s, ws⟩, k1, e1⟩ := List.mem_map.1 h1
    obtain ⟨⟨t, wt⟩, k2, e2⟩ := List.mem_map.1 h2
    cases e1
    cases e2
    exact ⟨_, Nat.le_refl _, s, ws, t, wt, x, k1, k2,
      hasWalk_iff.2 (walk_preimage hf (hasWalk_iff.1 h3) s (ha.sl (s, ws) k1) t (ha.el (t, wt) k2) rfl rfl), rfl⟩

/-- **C83** A renamed graph, or a graph that contains the renamed graph as a closed part, gives the same weights. -/
theorem C83_renamed_nodes {P : Plat} (hP : P.checked = true) {ops₁ ops₂ : List Op} {ig₁ ig₂ : InputGraph}
    {fg₁ fg₂ : FastGraph} (hc₁ : Client P ops₁ ig₁ fg₁) (hc₂ : Client P ops₂ ig₂ fg₂) {f : Nat → Nat}
    (hf : Embeds f ig₁.numNodes (accepted ops₁) (accepted ops₂)) (pq₁ pq₂ : PQ) {s t : Nat} {r₁ r₂ : Option ShortestPath}
    (h₁ : calcPath P pq₁ fg₁ s t = .ok r₁) (h₂ : calcPath P pq₂ fg₂ (f s) (f t) = .ok r₂) :
    r₁.map (·.weight) = r₂.map (·.weight) :=
  C83_renamed_multi hP hc₁ hc₂ hf pq₁ pq₂ (query_single h₁) (query_single h₂)

/-- The ids of a permuted graph: node `u` becomes node `4 - u`, in a graph that has two further nodes and an edge into the old part. -/
def Ex.renamedOps : List Op :=
  [.addEdge 5 6 3, .addEdge 5 2 1] ++ Ex.ops.map (fun
    | .addEdge a b w => .addEdge (4 - a) (4 - b) w
    | .addEdgeBidir a b w => .addEdgeBidir (4 - a) (4 - b) w
    | op => op)

theorem Ex.renamed : Embeds (fun u => 4 - u) Ex.ig.numNodes (accepted Ex.ops) (accepted Ex.renamedOps) :=
  ⟨by decide, by decide, by decide⟩

example : ∃ ig fg r, Client debug64 Ex.renamedOps ig fg ∧ ig.numNodes = 7 ∧ calcPath debug64 binaryHeap fg 4 0 = .ok r ∧
    (some Ex.path).map (·.weight) = r.map (·.weight) ∧ r.map (·.weight) = some 13 := by
  refine ⟨_, _, _, ⟨rfl, rfl, .default binaryHeap listQueue Ex.rel rfl⟩, rfl, rfl, ?_, rfl⟩
  exact C83_renamed_nodes (ops₂ := Ex.renamedOps) rfl exampleClient ⟨rfl, rfl, .default binaryHeap listQueue Ex.rel rfl⟩ Ex.renamed
    binaryHeap binaryHeap (s := 0) (t := 4) Ex.query rfl

/-- The other nodes may lead into the part; they may not be reached from it. -/
example : ¬ Embeds id 3 [⟨0, 1, 5⟩, ⟨1, 2, 5⟩] [⟨0, 1, 5⟩, ⟨1, 2, 5⟩, ⟨0, 3, 1⟩, ⟨3, 2, 1⟩] := by
  intro h
  obtain ⟨v, hv, e, _⟩ := h.closed ⟨0, 3, 1⟩ (by decide) 0 (by decide) rfl
  simp only [id] at e
  omega

end Props
end FP
