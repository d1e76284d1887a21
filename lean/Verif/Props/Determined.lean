import Verif.Props.EndToEnd
/-!
# When the answer is determined by the graph

Preparation parameters, node orders and ties in the heap can change which of several lightest paths is returned. If there is only one,
nothing can.
-/
set_option autoImplicit false
namespace FP
namespace Props
open Spec

/-- There is no other node list from `s` to `t` that is a walk of weight at most `w`. -/
def OnlyWalk (E : EdgeRel) (s t : Nat) (L : List Nat) (w : Nat) : Prop :=
  ∀ L' w', IsWalk E L' w' → L'.head? = some s → L'.getLast? = some t → w' ≤ w → L' = L

/-- **C97** If there is only one lightest path, every client gets it, completely. -/
theorem C97_single {P : Plat} (hP : P.checked = true) {ops : List Op} {ig : InputGraph} {fg : FastGraph} (hc : Client P ops ig fg) (pq : PQ)
    {s t w : Nat} {L : List Nat} (hL : IsWalk (edgesOf (accepted ops)) L w) (hs : L.head? = some s) (ht : L.getLast? = some t)
    (hu : OnlyWalk (edgesOf (accepted ops)) s t L w) (hmin : ∀ w', IsWalk (edgesOf (accepted ops)) L w' → w ≤ w') (hw : w < P.umax)
    {r : Option ShortestPath} (hq : calcPath P pq fg s t = .ok r) : r = some ⟨s, t, w, L⟩ := by
  cases r with
  | none => exact absurd ⟨w, hw, L, hL, hs, ht⟩ ((C02_none_iff_unreachable hP hc pq hq).1 rfl)
  | some p =>
    obtain ⟨h1, h2, h3, h4, h5⟩ := C03_nodes_are_a_path hP hc pq hq
    have hd := C01_calc_path_is_minimal hP hc pq hq
    have h5' := Spec.IsWalk.mono (fun _ _ _ he => (hc.inv hP).sub _ he) h5
    have hle := hd.2 w ⟨L, hL, hs, ht⟩
    have hn := hu _ _ h5' h1 h2 hle
    rw [hn] at h5'
    have := hmin _ h5'
    obtain ⟨a, b, c, d⟩ := p
    simp only at *
    have : c = w := by omega
    subst this h3 h4 hn
    rfl

/-- Three nodes; the way from 0 to 2 over 1 is lighter than the edge. -/
def detourOps : List Op := [.addEdge 0 1 1, .addEdge 1 2 1, .addEdge 0 2 3, .freeze]

theorem detour_edges {u v w : Nat} (h : edgesOf (accepted detourOps) u v w) :
    u = 0 ∧ v = 1 ∧ w = 1 ∨ u = 1 ∧ v = 2 ∧ w = 1 ∨ u = 0 ∧ v = 2 ∧ w = 3 := by
  simpa [edgesOf, accepted, detourOps, Op.edges] using h

theorem detour_only : OnlyWalk (edgesOf (accepted detourOps)) 0 2 [0, 1, 2] 2 := by
  rintro (_ | ⟨a, _ | ⟨b, L⟩⟩) w' h1 h2 h3 h4
  · exact absurd h1 id
  · cases h2; cases h3
  · cases h2
    obtain ⟨x, y, e1, e2, rfl⟩ := h1
    rcases detour_edges e1 with ⟨_, rfl, rfl⟩ | ⟨h, _⟩ | ⟨_, rfl, rfl⟩
    · cases L with
      | nil => cases h3
      | cons c L =>
        obtain ⟨x, y, e1, e2, rfl⟩ := e2
        rcases detour_edges e1 with ⟨h, _⟩ | ⟨_, rfl, rfl⟩ | ⟨h, _⟩
        · cases h
        · cases L with
          | nil => rfl
          | cons d L =>
            obtain ⟨x, y, e1, _⟩ := e2
            rcases detour_edges e1 with ⟨h, _⟩ | ⟨h, _⟩ | ⟨h, _⟩ <;> cases h
        · cases h
    · cases h
    · omega

-- every client with these calls gets the path over 1
example {ig : InputGraph} {fg : FastGraph} (hc : Client debug64 detourOps ig fg) (pq : PQ) {r : Option ShortestPath}
    (hq : calcPath debug64 pq fg 0 2 = .ok r) : r = some ⟨0, 2, 2, [0, 1, 2]⟩ :=
  C97_single (P := debug64) (w := 2) (L := [0, 1, 2]) rfl hc pq
    ⟨1, 1, by simp [edgesOf, accepted, detourOps, Op.edges], ⟨1, 0, by simp [edgesOf, accepted, detourOps, Op.edges], rfl, rfl⟩, rfl⟩
    rfl rfl detour_only (by
      rintro w' ⟨x, y, e1, ⟨x', y', e2, _, rfl⟩, rfl⟩
      rcases detour_edges e1 with ⟨_, _, rfl⟩ | ⟨h, _⟩ | ⟨_, h, _⟩
      · rcases detour_edges e2 with ⟨h, _⟩ | ⟨_, _, rfl⟩ | ⟨h, _⟩
        · cases h
        · omega
        · cases h
      · cases h
      · cases h) (by decide) hq
example : ∃ fg, Client debug64 detourOps ⟨[⟨0, 1, 1⟩, ⟨0, 2, 3⟩, ⟨1, 2, 1⟩], 3, true⟩ fg ∧
    calcPath debug64 binaryHeap fg 0 2 = .ok (some ⟨0, 2, 2, [0, 1, 2]⟩) :=
  ⟨_, ⟨rfl, rfl, .default binaryHeap listQueue (fun _ _ _ => 0) rfl⟩, rfl⟩

/-- **C97** The same for several sources and targets: if only one pair of entries and one path between them give the least sum. -/
theorem C97_multi {P : Plat} (hP : P.checked = true) {ops : List Op} {ig : InputGraph} {fg : FastGraph} (hc : Client P ops ig fg) (pq : PQ)
    {S T : List (Nat × Nat)} {s ws t wt w : Nat} {L : List Nat} (hS : (s, ws) ∈ S) (hT : (t, wt) ∈ T)
    (hL : IsWalk (edgesOf (accepted ops)) L w) (hs : L.head? = some s) (ht : L.getLast? = some t)
    (hu : ∀ s' ws' t' wt' L' w', (s', ws') ∈ S → (t', wt') ∈ T → IsWalk (edgesOf (accepted ops)) L' w' → L'.head? = some s' →
      L'.getLast? = some t' → ws' + w' + wt' ≤ ws + w + wt → L' = L)
    (hmin : ∀ ws' wt' w', (s, ws') ∈ S → (t, wt') ∈ T → IsWalk (edgesOf (accepted ops)) L w' → ws + w + wt ≤ ws' + w' + wt')
    (hw : ws + w + wt < P.umax) {r : Option ShortestPath} (hq : calcPathMulti P pq fg S T = .ok r) :
    r = some ⟨s, t, ws + w + wt, L⟩ := by
  have hroute : HasRoute (edgesOf (accepted ops)) S T (ws + w + wt) := ⟨s, ws, t, wt, w, hS, hT, ⟨L, hL, hs, ht⟩, rfl⟩
  cases r with
  | none => exact absurd ⟨_, hw, hroute⟩ ((C08_multi_none_iff hP hc pq hq).1 rfl)
  | some p =>
    obtain ⟨ws', w', wt', h1, h2, h3, h4, h5, h6⟩ := C07_multi_decomposes hP hc pq hq
    have h5' := Spec.IsWalk.mono (fun _ _ _ he => (hc.inv hP).sub _ he) h5
    have hle := (C06_multi_is_minimal hP hc pq hq).2 _ hroute
    have hn := hu _ _ _ _ _ _ h1 h2 h5' h3 h4 (by omega)
    obtain ⟨a, b, c, d⟩ := p
    simp only at *
    subst hn
    rw [hs] at h3
    rw [ht] at h4
    cases h3
    cases h4
    have := hmin _ _ _ h1 h2 h5'
    have : c = ws + w + wt := by omega
    subst this
    rfl

-- with weighted ends; the second target is too far away
example {ig : InputGraph} {fg : FastGraph} (hc : Client debug64 detourOps ig fg) (pq : PQ) {r : Option ShortestPath}
    (hq : calcPathMulti debug64 pq fg [(0, 5)] [(2, 4), (1, 20)] = .ok r) : r = some ⟨0, 2, 11, [0, 1, 2]⟩ :=
  C97_multi (P := debug64) (s := 0) (ws := 5) (t := 2) (wt := 4) (w := 2) (L := [0, 1, 2]) rfl hc pq (by decide) (by decide)
    ⟨1, 1, by simp [edgesOf, accepted, detourOps, Op.edges], ⟨1, 0, by simp [edgesOf, accepted, detourOps, Op.edges], rfl, rfl⟩, rfl⟩
    rfl rfl (by
      intro s' ws' t' wt' L' w' h1 h2 h3 h4 h5 h6
      simp only [Prod.mk.injEq, List.mem_cons, List.not_mem_nil, or_false] at h1 h2
      obtain ⟨rfl, rfl⟩ := h1
      rcases h2 with ⟨rfl, rfl⟩ | ⟨rfl, rfl⟩
      · exact detour_only L' w' h3 h4 h5 (by omega)
      · omega) (by
      rintro ws' wt' w' h1 h2 ⟨x, y, e1, ⟨x', y', e2, _, rfl⟩, rfl⟩
      simp at h1 h2
      rcases detour_edges e1 with ⟨_, _, rfl⟩ | ⟨h, _⟩ | ⟨_, h, _⟩
      · rcases detour_edges e2 with ⟨h, _⟩ | ⟨_, _, rfl⟩ | ⟨h, _⟩
        · cases h
        · omega
        · cases h
      · cases h
      · cases h) (by decide) hq

/-- **C97** If two clients with the same calls get different answers to a query, there are two different lightest paths. -/
theorem C97_different_answers {P : Plat} (hP : P.checked = true) {ops : List Op} {ig₁ ig₂ : InputGraph} {fg₁ fg₂ : FastGraph}
    (hc₁ : Client P ops ig₁ fg₁) (hc₂ : Client P ops ig₂ fg₂) (pq₁ pq₂ : PQ) {s t : Nat} {r₁ r₂ : Option ShortestPath}
    (hq₁ : calcPath P pq₁ fg₁ s t = .ok r₁) (hq₂ : calcPath P pq₂ fg₂ s t = .ok r₂) (hne : r₁ ≠ r₂) :
    ∃ L₁ L₂ w, L₁ ≠ L₂ ∧ IsDist (edgesOf (accepted ops)) s t w ∧
      (IsWalk (edgesOf (accepted ops)) L₁ w ∧ L₁.head? = some s ∧ L₁.getLast? = some t) ∧
      (IsWalk (edgesOf (accepted ops)) L₂ w ∧ L₂.head? = some s ∧ L₂.getLast? = some t) := by
  have hw := C12_answers_do_not_depend_on_preparation hP hc₁ hc₂ pq₁ pq₂ (query_single hq₁) (query_single hq₂)
  cases r₁ with
  | none =>
    cases r₂ with
    | none => exact absurd rfl hne
    | some q => cases hw
  | some p =>
    cases r₂ with
    | none => cases hw
    | some q =>
      obtain ⟨a1, a2, a3, a4, a5⟩ := C03_nodes_are_a_path hP hc₁ pq₁ hq₁
      obtain ⟨b1, b2, b3, b4, b5⟩ := C03_nodes_are_a_path hP hc₂ pq₂ hq₂
      have hpq : p.weight = q.weight := by simpa using hw
      refine ⟨p.nodes, q.nodes, p.weight, fun hn => ?_, C01_calc_path_is_minimal hP hc₁ pq₁ hq₁, ⟨Spec.IsWalk.mono (fun _ _ _ he => (hc₁.inv hP).sub _ he) a5, a1, a2⟩, ?_⟩
      · apply hne
        obtain ⟨x1, x2, x3, x4⟩ := p
        obtain ⟨y1, y2, y3, y4⟩ := q
        simp only at *
        subst a3 a4 b3 b4 hpq hn
        rfl
      · rw [hpq]
        exact ⟨Spec.IsWalk.mono (fun _ _ _ he => (hc₂.inv hP).sub _ he) b5, b1, b2⟩

-- a square with two ways of weight 2 from 0 to 3: contracting 1 first or 2 first gives different paths
example : ∃ fg₁ fg₂, Client debug64 [.addEdge 0 1 1, .addEdge 0 2 1, .addEdge 1 3 1, .addEdge 2 3 1, .freeze]
      ⟨[⟨0, 1, 1⟩, ⟨0, 2, 1⟩, ⟨1, 3, 1⟩, ⟨2, 3, 1⟩], 4, true⟩ fg₁ ∧
    Client debug64 [.addEdge 0 1 1, .addEdge 0 2 1, .addEdge 1 3 1, .addEdge 2 3 1, .freeze]
      ⟨[⟨0, 1, 1⟩, ⟨0, 2, 1⟩, ⟨1, 3, 1⟩, ⟨2, 3, 1⟩], 4, true⟩ fg₂ ∧
    calcPath debug64 binaryHeap fg₁ 0 3 = .ok (some ⟨0, 3, 2, [0, 2, 3]⟩) ∧
    calcPath debug64 binaryHeap fg₂ 0 3 = .ok (some ⟨0, 3, 2, [0, 1, 3]⟩) :=
  ⟨_, _, ⟨rfl, rfl, .order binaryHeap [1, 2, 0, 3] (by decide) rfl⟩, ⟨rfl, rfl, .order binaryHeap [2, 1, 0, 3] (by decide) rfl⟩, rfl, rfl⟩

end Props
end FP
