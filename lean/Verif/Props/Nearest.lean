import Verif.Props.Starts
set_option autoImplicit false
/-! # The nearest targets -/
namespace FP.Props
open Spec

/-- What a client does who wants the `k` nearest of some targets: query for all of them (lib.rs:92-99), drop the target found, repeat
until `k` are found, none is left or none can be reached. -/
def nearest (P : Plat) (pq : PQ) (fg : FastGraph) (s : Nat) : Nat → List Nat → M (List ShortestPath)
  | 0, _ => .ok []
  | _ + 1, [] => .ok []
  | k + 1, t :: ts => do
    match ← calcPathMulti P pq fg [(s, 0)] ((t :: ts).map (·, 0)) with
    | none => .ok []
    | some p =>
      let ps ← nearest P pq fg s k ((t :: ts).filter (· != p.target))
      .ok (p :: ps)

/-- Routes to one of several targets. -/
theorem hasRoute_targets {E : EdgeRel} {s : Nat} {T : List Nat} {w : Nat} :
    HasRoute E [(s, 0)] (T.map (·, 0)) w ↔ ∃ t ∈ T, HasWalk E s t w := by
  constructor
  · rintro ⟨a, wa, b, wb, x, h1, h2, h3, rfl⟩
    simp only [List.mem_singleton, Prod.mk.injEq] at h1
    obtain ⟨rfl, rfl⟩ := h1
    obtain ⟨t, ht, e⟩ := List.mem_map.1 h2
    injection e with e1 e2
    subst e1 e2
    exact ⟨t, ht, by simpa using h3⟩
  · rintro ⟨t, ht, h⟩
    exact ⟨s, 0, t, 0, w, by simp, List.mem_map.2 ⟨t, ht, rfl⟩, h, by simp⟩

/-- **C114** The loop finds the nearest targets in ascending order: every path found is a shortest path to a target of its own, the
weights ascend, no target left over is nearer than one that was found, and if fewer than `k` were found, no target left over can be
reached (with a weight below the maximum). -/
theorem C114_nearest {P : Plat} (hP : P.checked = true) {ops : List Op} {ig : InputGraph} {fg : FastGraph}
    (hc : Client P ops ig fg) (pq : PQ) (s : Nat) : ∀ (k : Nat) (T : List Nat) (ps : List ShortestPath), nearest P pq fg s k T = .ok ps →
    ps.length ≤ k ∧ (ps.map (·.weight)).Pairwise (· ≤ ·) ∧ (ps.map (·.target)).Nodup ∧
    (∀ p ∈ ps, p.target ∈ T ∧ p.source = s ∧ p.weight < P.umax ∧ IsWalk (edgesOf (accepted ops)) p.nodes p.weight ∧
      p.nodes.head? = some s ∧ p.nodes.getLast? = some p.target ∧ IsDist (edgesOf (accepted ops)) s p.target p.weight) ∧
    ∀ t ∈ T, t ∉ ps.map (·.target) → ∀ w, HasWalk (edgesOf (accepted ops)) s t w →
      (∀ p ∈ ps, p.weight ≤ w) ∧ (ps.length < k → P.umax ≤ w)
  | 0, T, ps, h => by
    simp only [nearest] at h
    injection h with h
    subst h
    simp
  | k + 1, [], ps, h => by
    simp only [nearest] at h
    injection h with h
    subst h
    simp
  | k + 1, t :: ts, ps, h => by
    simp only [nearest] at h
    obtain ⟨r, h1, h2⟩ := bind_eq_ok.1 h
    have a := (query_answer hP hc h1).2.2
    cases r with
    | none =>
      injection h2 with h2
      subst h2
      refine ⟨by simp, by simp, by simp, by simp, fun x hx _ w hw => ⟨by simp, fun _ => ?_⟩⟩
      exact a w (hasRoute_targets.2 ⟨x, hx, hw⟩)
    | some p =>
      simp only at h2
      obtain ⟨qs, h3, h4⟩ := bind_eq_ok.1 h2
      injection h4 with h4
      subst h4
      obtain ⟨c1, c2, c3, c4, c5⟩ := C114_nearest hP hc pq s k _ qs h3
      obtain ⟨hlt, ⟨ws, wt, w, k1, k2, k3, k4, k5, k6⟩, hmin⟩ := a
      simp only [List.mem_singleton, Prod.mk.injEq] at k1
      obtain ⟨ks, rfl⟩ := k1
      obtain ⟨t', ht', e⟩ := List.mem_map.1 k2
      injection e with e1 e2
      subst e1 e2
      have k6 : p.weight = w := by omega
      subst k6
      have hmem : ∀ q ∈ qs, q.target ∈ t :: ts ∧ q.target ≠ p.target := by
        intro q hq
        have := (c4 q hq).1
        simpa using List.mem_filter.1 this
      have hle : ∀ q ∈ qs, p.weight ≤ q.weight := fun q hq =>
        hmin _ (hasRoute_targets.2 ⟨q.target, (hmem q hq).1, (c4 q hq).2.2.2.2.2.2.1⟩)
      refine ⟨by simpa using c1, ?_, ?_, ?_, ?_⟩
      · rw [List.map_cons, List.pairwise_cons]
        exact ⟨fun w hw => by obtain ⟨q, hq, rfl⟩ := List.mem_map.1 hw; exact hle q hq, c2⟩
      · rw [List.map_cons, List.nodup_cons]
        exact ⟨fun hw => by obtain ⟨q, hq, e⟩ := List.mem_map.1 hw; exact (hmem q hq).2 e, c3⟩
      · intro q hq
        rcases List.mem_cons.1 hq with rfl | hq
        · refine ⟨ht', ks, hlt, k3, ks ▸ k4, k5, ⟨q.nodes, k3, ks ▸ k4, k5⟩, fun w hw => ?_⟩
          exact hmin w (hasRoute_targets.2 ⟨_, ht', hw⟩)
        · exact ⟨(hmem q hq).1, (c4 q hq).2⟩
      · intro x hx hnx w hw
        rw [List.map_cons, List.mem_cons, not_or] at hnx
        obtain ⟨d1, d2⟩ := c5 x (List.mem_filter.2 ⟨hx, by simpa using hnx.1⟩) hnx.2 w hw
        refine ⟨fun q hq => ?_, fun hk => d2 (by simpa using hk)⟩
        rcases List.mem_cons.1 hq with rfl | hq
        · exact hmin w (hasRoute_targets.2 ⟨x, hx, hw⟩)
        · exact d1 q hq

/-- **C114** With room for all targets, exactly the reachable ones are found. -/
theorem C114_all {P : Plat} (hP : P.checked = true) {ops : List Op} {ig : InputGraph} {fg : FastGraph}
    (hc : Client P ops ig fg) (pq : PQ) {s k : Nat} {T : List Nat} {ps : List ShortestPath} (h : nearest P pq fg s k T = .ok ps)
    (hk : T.length ≤ k) (t : Nat) : t ∈ ps.map (·.target) ↔ t ∈ T ∧ ∃ w < P.umax, HasWalk (edgesOf (accepted ops)) s t w := by
  obtain ⟨_, _, c3, c4, c5⟩ := C114_nearest hP hc pq s k T ps h
  constructor
  · intro ht
    obtain ⟨q, hq, rfl⟩ := List.mem_map.1 ht
    exact ⟨(c4 q hq).1, q.weight, (c4 q hq).2.2.1, (c4 q hq).2.2.2.2.2.2.1⟩
  · rintro ⟨ht, w, hw, hwalk⟩
    by_contra hn
    have hs : t :: ps.map (·.target) ⊆ T := fun x hx => by
      rcases List.mem_cons.1 hx with rfl | hx
      · exact ht
      · obtain ⟨q, hq, rfl⟩ := List.mem_map.1 hx; exact (c4 q hq).1
    have hlen := (List.Nodup.subperm (List.nodup_cons.2 ⟨hn, c3⟩) hs).length_le
    simp only [List.length_cons, List.length_map] at hlen
    have := (c5 t ht hn w hwalk).2 (by omega)
    omega

/-- The two nearest of three nodes, seen from node 0. -/
example : ∃ p q, nearest debug64 binaryHeap Ex.fg 0 2 [4, 3, 1] = .ok [p, q] ∧ p.target = 1 ∧ p.weight = 3 ∧ q.target = 3 ∧
    q.weight = 8 := ⟨_, _, rfl, rfl, rfl, rfl, rfl⟩
/-- From node 4 node 0 cannot be reached. -/
example : ¬ ∃ w < debug64.umax, HasWalk (edgesOf (accepted Ex.ops)) 4 0 w := fun h => by
  have := (C114_all rfl exampleClient binaryHeap (s := 4) (k := 3) (T := [0, 2, 1]) (ps := [⟨4, 1, 2, [4, 1]⟩, ⟨4, 2, 6, [4, 1, 2]⟩]) rfl
    (by decide) 0).2 ⟨by decide, h⟩
  exact absurd this (by decide)

end FP.Props
