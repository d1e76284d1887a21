import Verif.Props.Query
import Verif.Proofs.TextIO
set_option autoImplicit false
/-! # Start weights -/
namespace FP.Props
open Spec

/-- The weight of an answer, `usize::MAX` if there is none (as in `ShortestPath::none`, shortest_path.rs:57-64). -/
def cost (P : Plat) (r : Option ShortestPath) : Nat := (r.map (·.weight)).getD P.umax

theorem cost_le {P : Plat} {E : EdgeRel} {S T : List (Nat × Nat)} {r : Option ShortestPath} (h : Answer P E S T r) {w : Nat}
    (hw : HasRoute E S T w) : cost P r ≤ w := by
  cases r with
  | none => exact h w hw
  | some p => exact h.2.2 w hw

theorem cost_cases {P : Plat} {E : EdgeRel} {S T : List (Nat × Nat)} {r : Option ShortestPath} (h : Answer P E S T r) :
    cost P r = P.umax ∨ (cost P r < P.umax ∧ HasRoute E S T (cost P r)) := by
  cases r with
  | none => exact Or.inl rfl
  | some p =>
    obtain ⟨hlt, ⟨ws, wt, w, k1, k2, k3, k4, k5, k6⟩, _⟩ := h
    exact Or.inr ⟨hlt, p.source, ws, p.target, wt, w, k1, k2, ⟨p.nodes, k3, k4, k5⟩, k6⟩

theorem cost_le_umax {P : Plat} {E : EdgeRel} {S T : List (Nat × Nat)} {r : Option ShortestPath} (h : Answer P E S T r) :
    cost P r ≤ P.umax := by
  rcases cost_cases h with h | h <;> omega

/-- **C110** Every entry of the old sources can be reached from an entry of the new sources with at most `c` more weight: then the
answer becomes at most `c` heavier. -/
theorem C110_nearby_sources {P : Plat} (hP : P.checked = true) {ops : List Op} {ig : InputGraph} {fg : FastGraph}
    (hc : Client P ops ig fg) (pq₁ pq₂ : PQ) {S S' T : List (Nat × Nat)} {c : Nat}
    (hS : ∀ x w, (x, w) ∈ S → ∃ s ws d, (s, ws) ∈ S' ∧ HasWalk (edgesOf (accepted ops)) s x d ∧ ws + d ≤ w + c)
    {r r' : Option ShortestPath} (h : calcPathMulti P pq₁ fg S T = .ok r) (h' : calcPathMulti P pq₂ fg S' T = .ok r') :
    cost P r' ≤ cost P r + c := by
  have a := (query_answer hP hc h).2.2
  have a' := (query_answer hP hc h').2.2
  rcases cost_cases a with e | ⟨_, x, w, t, wt, d, m1, m2, hw, e⟩
  · have := cost_le_umax a'; omega
  · obtain ⟨s, ws, d', k1, k2, k3⟩ := hS x w m1
    have := cost_le a' ⟨s, ws, t, wt, d' + d, k1, m2, hasWalk_iff.2 ((hasWalk_iff.1 k2).append (hasWalk_iff.1 hw)), rfl⟩
    omega

/-- **C110** The same for targets. -/
theorem C110_nearby_targets {P : Plat} (hP : P.checked = true) {ops : List Op} {ig : InputGraph} {fg : FastGraph}
    (hc : Client P ops ig fg) (pq₁ pq₂ : PQ) {S T T' : List (Nat × Nat)} {c : Nat}
    (hT : ∀ x w, (x, w) ∈ T → ∃ t wt d, (t, wt) ∈ T' ∧ HasWalk (edgesOf (accepted ops)) x t d ∧ wt + d ≤ w + c)
    {r r' : Option ShortestPath} (h : calcPathMulti P pq₁ fg S T = .ok r) (h' : calcPathMulti P pq₂ fg S T' = .ok r') :
    cost P r' ≤ cost P r + c := by
  have a := (query_answer hP hc h).2.2
  have a' := (query_answer hP hc h').2.2
  rcases cost_cases a with e | ⟨_, s, ws, x, w, d, m1, m2, hw, e⟩
  · have := cost_le_umax a'; omega
  · obtain ⟨t, wt, d', k1, k2, k3⟩ := hT x w m2
    have := cost_le a' ⟨s, ws, t, wt, d + d', m1, k1, hasWalk_iff.2 ((hasWalk_iff.1 hw).append (hasWalk_iff.1 k2)), rfl⟩
    omega

theorem hasWalk_self {E : EdgeRel} (x : Nat) : HasWalk E x x 0 := ⟨[x], rfl, rfl, rfl⟩

/-- **C110** Start weights that change by at most `c` change the answer by at most `c`. -/
theorem C110_start_weights {P : Plat} (hP : P.checked = true) {ops : List Op} {ig : InputGraph} {fg : FastGraph}
    (hc : Client P ops ig fg) (pq₁ pq₂ : PQ) {S S' T : List (Nat × Nat)} {c : Nat}
    (hS : List.Forall₂ (fun a b => a.1 = b.1 ∧ a.2 ≤ b.2 + c ∧ b.2 ≤ a.2 + c) S S')
    {r r' : Option ShortestPath} (h : calcPathMulti P pq₁ fg S T = .ok r) (h' : calcPathMulti P pq₂ fg S' T = .ok r') :
    cost P r' ≤ cost P r + c ∧ cost P r ≤ cost P r' + c := by
  constructor
  · refine C110_nearby_sources hP hc pq₁ pq₂ (c := c) (fun x w hx => ?_) h h'
    obtain ⟨⟨y, w'⟩, hy, k1, k2, k3⟩ := forall₂_mem hS hx
    simp only at k1 k3
    subst k1
    exact ⟨x, w', 0, hy, hasWalk_self x, by omega⟩
  · refine C110_nearby_sources hP hc pq₂ pq₁ (c := c) (fun x w hx => ?_) h' h
    obtain ⟨⟨y, w'⟩, hy, k1, k2, k3⟩ := forall₂_mem hS.flip hx
    simp only at k1 k2
    subst k1
    exact ⟨y, w', 0, hy, hasWalk_self y, by omega⟩

/-- **C110** A further source that can be reached from another one with no more than its own start weight does not change the
answer. -/
theorem C110_dominated_source {P : Plat} (hP : P.checked = true) {ops : List Op} {ig : InputGraph} {fg : FastGraph}
    (hc : Client P ops ig fg) (pq₀ pq₁ pq₂ : PQ) {S T : List (Nat × Nat)} {s ws x w : Nat} (hs : (s, ws) ∈ S) {q : ShortestPath}
    (hq : calcPath P pq₀ fg s x = .ok (some q)) (hw : ws + q.weight ≤ w)
    {r r' : Option ShortestPath} (h : calcPathMulti P pq₁ fg S T = .ok r)
    (h' : calcPathMulti P pq₂ fg ((x, w) :: S) T = .ok r') : r'.map (·.weight) = r.map (·.weight) := by
  have hd := (C01_calc_path_is_minimal hP hc pq₀ hq).1
  have e₁ := C110_nearby_sources hP hc pq₁ pq₂ (c := 0) (fun y v hy => ⟨y, v, 0, List.mem_cons_of_mem _ hy, hasWalk_self y, by omega⟩) h h'
  have e₂ := C110_nearby_sources hP hc pq₂ pq₁ (c := 0) (fun y v hy => by
    rcases List.mem_cons.1 hy with hy | hy
    · cases hy
      exact ⟨s, ws, q.weight, hs, hd, by omega⟩
    · exact ⟨y, v, 0, hy, hasWalk_self y, by omega⟩) h' h
  have a := (query_answer hP hc h).2.2
  have a' := (query_answer hP hc h').2.2
  have e : cost P r = cost P r' := by omega
  cases r with
  | none =>
    cases r' with
    | none => rfl
    | some p' => have := a'.1; simp only [cost, Option.map, Option.getD] at e; omega
  | some p =>
    cases r' with
    | none => have := a.1; simp only [cost, Option.map, Option.getD] at e; omega
    | some p' => simp only [cost, Option.map, Option.getD] at e; simp [e]

/-- **C110** The answer for two lists of sources together is the better one of the two answers. -/
theorem C110_union_of_sources {P : Plat} (hP : P.checked = true) {ops : List Op} {ig : InputGraph} {fg : FastGraph}
    (hc : Client P ops ig fg) (pq₁ pq₂ pq₃ : PQ) {S₁ S₂ T : List (Nat × Nat)} {r₁ r₂ r : Option ShortestPath}
    (h₁ : calcPathMulti P pq₁ fg S₁ T = .ok r₁) (h₂ : calcPathMulti P pq₂ fg S₂ T = .ok r₂)
    (h : calcPathMulti P pq₃ fg (S₁ ++ S₂) T = .ok r) : cost P r = min (cost P r₁) (cost P r₂) := by
  have a := (query_answer hP hc h).2.2
  have a₁ := (query_answer hP hc h₁).2.2
  have a₂ := (query_answer hP hc h₂).2.2
  have e₁ := C110_nearby_sources hP hc pq₁ pq₃ (c := 0) (fun y v hy => ⟨y, v, 0, List.mem_append_left _ hy, hasWalk_self y, by omega⟩) h₁ h
  have e₂ := C110_nearby_sources hP hc pq₂ pq₃ (c := 0) (fun y v hy => ⟨y, v, 0, List.mem_append_right _ hy, hasWalk_self y, by omega⟩) h₂ h
  rcases cost_cases a with e | ⟨_, s, ws, t, wt, d, m1, m2, hw, e⟩
  · have := cost_le_umax a₁; have := cost_le_umax a₂; omega
  · rcases List.mem_append.1 m1 with m1 | m1
    · have := cost_le a₁ ⟨s, ws, t, wt, d, m1, m2, hw, e⟩; omega
    · have := cost_le a₂ ⟨s, ws, t, wt, d, m1, m2, hw, e⟩; omega

/-- **C110** The same for targets. -/
theorem C110_union_of_targets {P : Plat} (hP : P.checked = true) {ops : List Op} {ig : InputGraph} {fg : FastGraph}
    (hc : Client P ops ig fg) (pq₁ pq₂ pq₃ : PQ) {S T₁ T₂ : List (Nat × Nat)} {r₁ r₂ r : Option ShortestPath}
    (h₁ : calcPathMulti P pq₁ fg S T₁ = .ok r₁) (h₂ : calcPathMulti P pq₂ fg S T₂ = .ok r₂)
    (h : calcPathMulti P pq₃ fg S (T₁ ++ T₂) = .ok r) : cost P r = min (cost P r₁) (cost P r₂) := by
  have a := (query_answer hP hc h).2.2
  have a₁ := (query_answer hP hc h₁).2.2
  have a₂ := (query_answer hP hc h₂).2.2
  have e₁ := C110_nearby_targets hP hc pq₁ pq₃ (c := 0) (fun y v hy => ⟨y, v, 0, List.mem_append_left _ hy, hasWalk_self y, by omega⟩) h₁ h
  have e₂ := C110_nearby_targets hP hc pq₂ pq₃ (c := 0) (fun y v hy => ⟨y, v, 0, List.mem_append_right _ hy, hasWalk_self y, by omega⟩) h₂ h
  rcases cost_cases a with e | ⟨_, s, ws, t, wt, d, m1, m2, hw, e⟩
  · have := cost_le_umax a₁; have := cost_le_umax a₂; omega
  · rcases List.mem_append.1 m2 with m2 | m2
    · have := cost_le a₁ ⟨s, ws, t, wt, d, m1, m2, hw, e⟩; omega
    · have := cost_le a₂ ⟨s, ws, t, wt, d, m1, m2, hw, e⟩; omega

/-- **C110** `c` more at every source is `c` more in the answer; nothing is found iff this is no weight any more. -/
theorem C110_shifted_sources {P : Plat} (hP : P.checked = true) {ops : List Op} {ig : InputGraph} {fg : FastGraph}
    (hc : Client P ops ig fg) (pq₁ pq₂ : PQ) {S T : List (Nat × Nat)} {c : Nat} {r r' : Option ShortestPath}
    (h : calcPathMulti P pq₁ fg S T = .ok r) (h' : calcPathMulti P pq₂ fg (S.map fun a => (a.1, a.2 + c)) T = .ok r') :
    cost P r' = min P.umax (cost P r + c) := by
  have a := (query_answer hP hc h).2.2
  have a' := (query_answer hP hc h').2.2
  have e₁ := C110_nearby_sources hP hc pq₁ pq₂ (c := c) (fun y v hy =>
    ⟨y, v + c, 0, List.mem_map.2 ⟨(y, v), hy, rfl⟩, hasWalk_self y, by omega⟩) h h'
  have e₂ := cost_le_umax a'
  rcases cost_cases a' with e | ⟨_, s, ws, t, wt, d, m1, m2, hw, e⟩
  · omega
  · obtain ⟨⟨s', ws'⟩, hm, he⟩ := List.mem_map.1 m1
    simp only [Prod.mk.injEq] at he
    obtain ⟨rfl, rfl⟩ := he
    have := cost_le a ⟨s', ws', t, wt, d, hm, m2, hw, rfl⟩
    omega

/-! Concrete cases; from 0, 1, 2, 3 to 4 the weights are 13, 10, 6, 5. -/

/-- Node 1 with start weight 5 is reached from node 0 with start weight 2. -/
example : (some (⟨1, 4, 15, [1, 2, 3, 4]⟩ : ShortestPath)).map (·.weight) =
    (some (⟨0, 4, 15, [0, 1, 2, 3, 4]⟩ : ShortestPath)).map (·.weight) :=
  C110_dominated_source rfl exampleClient binaryHeap binaryHeap binaryHeap (S := [(0, 2)]) (s := 0) (ws := 2) (x := 1) (w := 5)
    (by decide) (q := ⟨0, 1, 3, [0, 1]⟩) rfl (by decide) (T := [(4, 0)]) rfl rfl
/-- The better of two sources. -/
example : cost debug64 (some ⟨2, 4, 13, [2, 3, 4]⟩) =
    min (cost debug64 (some ⟨0, 4, 15, [0, 1, 2, 3, 4]⟩)) (cost debug64 (some ⟨2, 4, 13, [2, 3, 4]⟩)) :=
  C110_union_of_sources rfl exampleClient binaryHeap binaryHeap binaryHeap (S₁ := [(0, 2)]) (S₂ := [(2, 7)]) (T := [(4, 0)]) rfl rfl rfl
/-- The better of two targets. -/
example : cost debug64 (some ⟨0, 1, 5, [0, 1]⟩) =
    min (cost debug64 (some ⟨0, 4, 15, [0, 1, 2, 3, 4]⟩)) (cost debug64 (some ⟨0, 1, 5, [0, 1]⟩)) :=
  C110_union_of_targets rfl exampleClient binaryHeap binaryHeap binaryHeap (S := [(0, 2)]) (T₁ := [(4, 0)]) (T₂ := [(1, 0)]) rfl rfl rfl
/-- 10 more at the source. -/
example : cost debug64 (some ⟨0, 4, 25, [0, 1, 2, 3, 4]⟩) =
    min debug64.umax (cost debug64 (some ⟨0, 4, 15, [0, 1, 2, 3, 4]⟩) + 10) :=
  C110_shifted_sources rfl exampleClient binaryHeap binaryHeap (S := [(0, 2)]) (T := [(4, 0)]) rfl rfl
/-- Start weights that change by at most 2. -/
example : cost debug64 (some ⟨2, 4, 15, [2, 3, 4]⟩) ≤ cost debug64 (some ⟨2, 4, 13, [2, 3, 4]⟩) + 2 ∧
    cost debug64 (some ⟨2, 4, 13, [2, 3, 4]⟩) ≤ cost debug64 (some ⟨2, 4, 15, [2, 3, 4]⟩) + 2 :=
  C110_start_weights rfl exampleClient binaryHeap binaryHeap (S := [(0, 2), (2, 7)]) (S' := [(0, 3), (2, 9)]) (T := [(4, 0)])
    (.cons (by decide) (.cons (by decide) .nil)) rfl rfl
/-- Node 1 instead of node 0: at most 3 less. -/
example : cost debug64 (some ⟨0, 4, 13, [0, 1, 2, 3, 4]⟩) ≤ cost debug64 (some ⟨1, 4, 10, [1, 2, 3, 4]⟩) + 3 :=
  C110_nearby_sources rfl exampleClient binaryHeap binaryHeap (S := [(1, 0)]) (S' := [(0, 0)]) (T := [(4, 0)])
    (fun x w hx => by
      simp only [List.mem_singleton, Prod.mk.injEq] at hx
      obtain ⟨rfl, rfl⟩ := hx
      exact ⟨0, 0, 3, by decide, ⟨[0, 1], ⟨3, 0, by unfold edgesOf; decide, rfl, rfl⟩, rfl, rfl⟩, by decide⟩) rfl rfl
/-- Node 4 instead of node 3: at most 5 more. -/
example : cost debug64 (some ⟨0, 4, 13, [0, 1, 2, 3, 4]⟩) ≤ cost debug64 (some ⟨0, 3, 8, [0, 1, 2, 3]⟩) + 5 :=
  C110_nearby_targets rfl exampleClient binaryHeap binaryHeap (S := [(0, 0)]) (T := [(3, 0)]) (T' := [(4, 0)])
    (fun x w hx => by
      simp only [List.mem_singleton, Prod.mk.injEq] at hx
      obtain ⟨rfl, rfl⟩ := hx
      exact ⟨4, 0, 5, by decide, ⟨[3, 4], ⟨5, 0, by unfold edgesOf; decide, rfl, rfl⟩, rfl, rfl⟩, by decide⟩) rfl rfl

end FP.Props
