import Verif.Props.Query
set_option autoImplicit false
/-! # Nodes in the middle of edges -/
namespace FP.Props
open Spec

/-- The second graph is the first with the edge from `u` to `v` replaced by two edges over the new node `m`. -/
structure IsSubdivision (es es' : List Edge) (u v m a b : Nat) : Prop where
  edge : (⟨u, v, a + b⟩ : Edge) ∈ es
  new_node : ∀ e ∈ es, e.src ≠ m ∧ e.dst ≠ m
  result : ∀ e, e ∈ es' ↔ (e ∈ es ∧ e ≠ ⟨u, v, a + b⟩) ∨ e = ⟨u, m, a⟩ ∨ e = ⟨m, v, b⟩

theorem IsSubdivision.walk_iff {es es' : List Edge} {u v m a b : Nat} (h : IsSubdivision es es' u v m a b) {s t w : Nat}
    (hs : s ≠ m) (ht : t ≠ m) : HasWalk (edgesOf es') s t w ↔ HasWalk (edgesOf es) s t w := by
  rw [hasWalk_iff, hasWalk_iff]
  have hv := (h.new_node _ h.edge).2
  constructor
  · intro hw
    suffices H : (s ≠ m → Wk (edgesOf es) s t w) ∧ (s = m → ∃ w', Wk (edgesOf es) v t w' ∧ w = b + w') from H.1 hs
    clear hs
    induction hw with
    | nil s => exact ⟨fun _ => .nil s, fun e => absurd e ht⟩
    | @cons s x t c d e hk ih =>
      obtain ⟨i1, i2⟩ := ih ht
      rcases (h.result _).1 e with ⟨k, -⟩ | k | k
      · obtain ⟨n1, n2⟩ := h.new_node _ k
        exact ⟨fun _ => .cons k (i1 n2), fun e => absurd e n1⟩
      · cases k
        obtain ⟨w', hw', rfl⟩ := i2 rfl
        refine ⟨fun _ => ?_, fun e => absurd e (h.new_node _ h.edge).1⟩
        rw [← Nat.add_assoc]
        exact .cons h.edge hw'
      · cases k
        exact ⟨fun e => absurd rfl e, fun _ => ⟨d, i1 hv, rfl⟩⟩
  · refine Wk.bind ?_
    intro x y c e
    by_cases he : (⟨x, y, c⟩ : Edge) = ⟨u, v, a + b⟩
    · cases he
      exact .cons ((h.result _).2 (.inr (.inl rfl))) (.single ((h.result _).2 (.inr (.inr rfl))))
    · exact .single ((h.result _).2 (.inl ⟨e, he⟩))

/-- **C107** A node in the middle of an edge changes no answer between the other nodes, also with several sources and targets. -/
theorem C107_subdivision_multi {P : Plat} (hP : P.checked = true) {ops₁ ops₂ : List Op} {ig₁ ig₂ : InputGraph}
    {fg₁ fg₂ : FastGraph} (hc₁ : Client P ops₁ ig₁ fg₁) (hc₂ : Client P ops₂ ig₂ fg₂) {u v m a b : Nat}
    (hsub : IsSubdivision (accepted ops₁) (accepted ops₂) u v m a b) (pq₁ pq₂ : PQ) {S T : List (Nat × Nat)}
    (hS : ∀ w, (m, w) ∉ S) (hT : ∀ w, (m, w) ∉ T) {r₁ r₂ : Option ShortestPath}
    (h₁ : calcPathMulti P pq₁ fg₁ S T = .ok r₁) (h₂ : calcPathMulti P pq₂ fg₂ S T = .ok r₂) :
    r₁.map (·.weight) = r₂.map (·.weight) := by
  have key : ∀ w, HasRoute (edgesOf (accepted ops₁)) S T w ↔ HasRoute (edgesOf (accepted ops₂)) S T w := by
    intro w
    constructor
    · rintro ⟨s, ws, t, wt, x, k1, k2, k3, k4⟩
      exact ⟨s, ws, t, wt, x, k1, k2, (hsub.walk_iff (by rintro rfl; exact hS _ k1) (by rintro rfl; exact hT _ k2)).2 k3, k4⟩
    · rintro ⟨s, ws, t, wt, x, k1, k2, k3, k4⟩
      exact ⟨s, ws, t, wt, x, k1, k2, (hsub.walk_iff (by rintro rfl; exact hS _ k1) (by rintro rfl; exact hT _ k2)).1 k3, k4⟩
  have a₁ := (query_answer hP hc₁ h₁).2.2
  have a₂ := (query_answer hP hc₂ h₂).2.2
  cases r₁ with
  | none =>
    cases r₂ with
    | none => rfl
    | some q =>
      obtain ⟨q', e, -⟩ := a₂.weight_le a₁ (fun w _ h => ⟨w, Nat.le_refl _, (key w).2 h⟩) rfl
      cases e
  | some p =>
    obtain ⟨q, rfl, h1⟩ := a₁.weight_le a₂ (fun w _ h => ⟨w, Nat.le_refl _, (key w).1 h⟩) rfl
    obtain ⟨p', e, h2⟩ := a₂.weight_le a₁ (fun w _ h => ⟨w, Nat.le_refl _, (key w).2 h⟩) rfl
    cases e
    simp only [Option.map_some, Option.some.injEq]
    omega

/-- **C107** The same for one source and one target. -/
theorem C107_subdivision {P : Plat} (hP : P.checked = true) {ops₁ ops₂ : List Op} {ig₁ ig₂ : InputGraph}
    {fg₁ fg₂ : FastGraph} (hc₁ : Client P ops₁ ig₁ fg₁) (hc₂ : Client P ops₂ ig₂ fg₂) {u v m a b : Nat}
    (hsub : IsSubdivision (accepted ops₁) (accepted ops₂) u v m a b) (pq₁ pq₂ : PQ) {s t : Nat} (hs : s ≠ m) (ht : t ≠ m)
    {r₁ r₂ : Option ShortestPath} (h₁ : calcPath P pq₁ fg₁ s t = .ok r₁) (h₂ : calcPath P pq₂ fg₂ s t = .ok r₂) :
    r₁.map (·.weight) = r₂.map (·.weight) :=
  C107_subdivision_multi hP hc₁ hc₂ hsub pq₁ pq₂ (S := [(s, 0)]) (T := [(t, 0)]) (by simp; omega) (by simp; omega) h₁ h₂

/-- **C107** The new node itself: from it the answers are those from the head of the edge, plus the second part. -/
theorem C107_from_the_new_node {P : Plat} (hP : P.checked = true) {ops₁ ops₂ : List Op} {ig₁ ig₂ : InputGraph}
    {fg₁ fg₂ : FastGraph} (hc₁ : Client P ops₁ ig₁ fg₁) (hc₂ : Client P ops₂ ig₂ fg₂) {u v m a b : Nat}
    (hsub : IsSubdivision (accepted ops₁) (accepted ops₂) u v m a b) (pq₁ pq₂ : PQ) {t : Nat} (ht : t ≠ m)
    {r₁ r₂ : Option ShortestPath} (h₁ : calcPathMulti P pq₁ fg₁ [(v, b)] [(t, 0)] = .ok r₁)
    (h₂ : calcPath P pq₂ fg₂ m t = .ok r₂) : r₁.map (·.weight) = r₂.map (·.weight) := by
  have hv := (hsub.new_node _ hsub.edge).2
  have key : ∀ w, HasRoute (edgesOf (accepted ops₁)) [(v, b)] [(t, 0)] w ↔
      HasRoute (edgesOf (accepted ops₂)) [(m, 0)] [(t, 0)] w := by
    intro w
    rw [hasRoute_single]
    constructor
    · rintro ⟨s, ws, t, wt, x, k1, k2, k3, rfl⟩
      simp only [List.mem_cons, List.not_mem_nil, or_false, Prod.mk.injEq] at k1 k2
      obtain ⟨rfl, rfl⟩ := k1
      obtain ⟨rfl, rfl⟩ := k2
      have k := hasWalk_iff.1 ((hsub.walk_iff hv ht).2 k3)
      rw [Nat.add_zero]
      exact hasWalk_iff.2 (.cons ((hsub.result _).2 (.inr (.inr rfl))) k)
    · intro hk
      rw [hasWalk_iff] at hk
      generalize hm : m = m' at hk
      cases hk with
      | nil => exact absurd hm.symm ht
      | @cons _ x _ c d e hk =>
        subst hm
        rcases (hsub.result _).1 e with ⟨k, -⟩ | k | k
        · exact absurd rfl (hsub.new_node _ k).1
        · cases k; exact absurd rfl (hsub.new_node _ hsub.edge).1
        · cases k
          exact ⟨v, b, t, 0, d, by simp, by simp, (hsub.walk_iff hv ht).1 (hasWalk_iff.2 hk), rfl⟩
  have a₁ := (query_answer hP hc₁ h₁).2.2
  have a₂ := (query_answer hP hc₂ h₂).2.2
  cases r₁ with
  | none =>
    cases r₂ with
    | none => rfl
    | some q =>
      obtain ⟨q', e, -⟩ := a₂.weight_le a₁ (fun w _ h => ⟨w, Nat.le_refl _, (key w).2 h⟩) rfl
      cases e
  | some p =>
    obtain ⟨q, rfl, h1⟩ := a₁.weight_le a₂ (fun w _ h => ⟨w, Nat.le_refl _, (key w).1 h⟩) rfl
    obtain ⟨p', e, h2⟩ := a₂.weight_le a₁ (fun w _ h => ⟨w, Nat.le_refl _, (key w).2 h⟩) rfl
    cases e
    simp only [Option.map_some, Option.some.injEq]
    omega

/-- the example with node 5 in the middle of the edge from 3 to 4 -/
def Ex.midOps : List Op :=
  [.addEdge 0 1 3, .addEdge 1 2 4, .addEdge 0 2 9, .addEdgeBidir 2 3 1, .addEdge 3 5 2, .addEdge 5 4 3, .addEdge 4 1 2, .addEdge 0 1 8,
    .freeze]

theorem Ex.subdivision : IsSubdivision (accepted Ex.ops) (accepted Ex.midOps) 3 4 5 2 3 where
  edge := by decide
  new_node := by decide
  result := by
    intro e
    change e ∈ [(⟨0, 1, 3⟩ : Edge), ⟨1, 2, 4⟩, ⟨0, 2, 9⟩, ⟨2, 3, 1⟩, ⟨3, 2, 1⟩, ⟨3, 5, 2⟩, ⟨5, 4, 3⟩, ⟨4, 1, 2⟩, ⟨0, 1, 8⟩] ↔
      (e ∈ [(⟨0, 1, 3⟩ : Edge), ⟨1, 2, 4⟩, ⟨0, 2, 9⟩, ⟨2, 3, 1⟩, ⟨3, 2, 1⟩, ⟨3, 4, 5⟩, ⟨4, 1, 2⟩, ⟨0, 1, 8⟩] ∧ _) ∨ _
    simp only [List.mem_cons, List.not_mem_nil, or_false]
    constructor
    · rintro (rfl | rfl | rfl | rfl | rfl | rfl | rfl | rfl | rfl) <;> simp
    · rintro (⟨rfl | rfl | rfl | rfl | rfl | rfl | rfl | rfl, h⟩ | rfl | rfl) <;> simp_all

/-- a concrete case: the path from 0 to 4 now has one more node and the same weight -/
example : ∃ ig fg, Client debug64 Ex.midOps ig fg ∧
    calcPath debug64 binaryHeap fg 0 4 = .ok (some ⟨0, 4, 13, [0, 1, 2, 3, 5, 4]⟩) ∧
    (some Ex.path).map (·.weight) = (some (⟨0, 4, 13, [0, 1, 2, 3, 5, 4]⟩ : ShortestPath)).map (·.weight) := by
  refine ⟨_, _, ⟨rfl, rfl, .default binaryHeap listQueue Ex.rel rfl⟩, rfl, ?_⟩
  exact C107_subdivision rfl exampleClient ⟨rfl, rfl, .default binaryHeap listQueue Ex.rel rfl⟩ Ex.subdivision binaryHeap binaryHeap
    (by decide) (by decide) Ex.query rfl

/-- a concrete case: from the middle of the edge to node 2 -/
example : ∃ ig fg, Client debug64 Ex.midOps ig fg ∧ calcPath debug64 binaryHeap fg 5 2 = .ok (some ⟨5, 2, 9, [5, 4, 1, 2]⟩) ∧
    (some (⟨4, 2, 9, [4, 1, 2]⟩ : ShortestPath)).map (·.weight) =
      (some (⟨5, 2, 9, [5, 4, 1, 2]⟩ : ShortestPath)).map (·.weight) := by
  refine ⟨_, _, ⟨rfl, rfl, .default binaryHeap listQueue Ex.rel rfl⟩, rfl, ?_⟩
  exact C107_from_the_new_node rfl exampleClient ⟨rfl, rfl, .default binaryHeap listQueue Ex.rel rfl⟩ Ex.subdivision binaryHeap binaryHeap
    (t := 2) (by decide) rfl rfl

end FP.Props
