import Verif.Props.Query
set_option autoImplicit false
/-! # Round trips

`calc_path(s, s)` is the empty path (C05). A client who wants to leave `s` and come back starts at the neighbors of `s`. -/
namespace FP.Props
open Spec

/-- Sources of the query: the ends of the edges that leave `s`, with the weights of these edges. -/
def neighborSources (es : List Edge) (s : Nat) : List (Nat × Nat) := (es.filter (fun e => e.src == s)).map (fun e => (e.dst, e.weight))

theorem mem_neighborSources {es : List Edge} {s v w : Nat} : (v, w) ∈ neighborSources es s ↔ edgesOf es s v w := by
  unfold neighborSources edgesOf
  simp only [List.mem_map, List.mem_filter, beq_iff_eq, Prod.mk.injEq]
  constructor
  · rintro ⟨⟨a, b, c⟩, ⟨h1, rfl⟩, rfl, rfl⟩
    exact h1
  · intro h
    exact ⟨_, ⟨h, rfl⟩, rfl, rfl⟩

/-- **C118** A query from the neighbors of `s` to `s` finds the lightest round trip: `s` followed by the returned nodes is a closed walk
of the reported weight that visits no node twice before it is back, and no closed walk through `s` with at least one edge is lighter. `none`
means that every such walk weighs `usize::MAX` or more. -/
theorem C118_round_trip {P : Plat} (hP : P.checked = true) {ops : List Op} {ig : InputGraph} {fg : FastGraph}
    (hc : Client P ops ig fg) (pq : PQ) {s : Nat} {r : Option ShortestPath}
    (h : calcPathMulti P pq fg (neighborSources (accepted ops) s) [(s, 0)] = .ok r) :
    match r with
    | none => ∀ v q w, IsWalk (edgesOf (accepted ops)) (s :: v :: q) w → (v :: q).getLast? = some s → P.umax ≤ w
    | some p => p.weight < P.umax ∧ IsWalk (edgesOf (accepted ops)) (s :: p.nodes) p.weight ∧ p.nodes.getLast? = some s ∧
      2 ≤ p.nodes.length ∧ p.nodes.Nodup ∧
      ∀ v q w, IsWalk (edgesOf (accepted ops)) (s :: v :: q) w → (v :: q).getLast? = some s → p.weight ≤ w := by
  have hpos : ∀ u v w, edgesOf (accepted ops) u v w → 1 ≤ w ∧ u ≠ v := by
    intro u v w he
    obtain ⟨op, -, he⟩ := List.mem_flatMap.1 he
    cases op <;> simp only [Op.edges] at he <;> (try split at he) <;>
      simp only [List.mem_cons, List.not_mem_nil, or_false, Edge.mk.injEq] at he <;> omega
  have key : ∀ {v q w}, IsWalk (edgesOf (accepted ops)) (s :: v :: q) w → (v :: q).getLast? = some s →
      HasRoute (edgesOf (accepted ops)) (neighborSources (accepted ops) s) [(s, 0)] w := by
    rintro v q w ⟨a, b, h1, h2, rfl⟩ hl
    exact ⟨v, a, s, 0, b, mem_neighborSources.2 h1, by simp, ⟨_, h2, rfl, hl⟩, rfl⟩
  have a := (query_answer hP hc h).2.2
  cases r with
  | none => exact fun v q w h1 h2 => a w (key h1 h2)
  | some p =>
    obtain ⟨hlt, ⟨ws, wt, w₀, k1, k2, k3, k4, k5, k6⟩, hmin⟩ := a
    simp only [List.mem_singleton, Prod.mk.injEq] at k2
    obtain ⟨e, rfl⟩ := k2
    have k1' := mem_neighborSources.1 k1
    rw [e] at k5
    obtain ⟨x, q, hx⟩ : ∃ x q, p.nodes = x :: q := by
      cases hn : p.nodes with
      | nil => rw [hn] at k4; cases k4
      | cons x q => exact ⟨x, q, rfl⟩
    have hxs : x = p.source := by rw [hx] at k4; simpa using k4
    refine ⟨hlt, ?_, k5, ?_, ?_, fun v q w h1 h2 => hmin w (key h1 h2)⟩
    · rw [hx] at k3 ⊢
      rw [hxs] at k3 ⊢
      exact ⟨ws, w₀, k1', k3, by omega⟩
    · rw [hx]
      cases q with
      | nil =>
        rw [hx] at k5
        simp only [List.getLast?_singleton, Option.some.injEq] at k5
        exact absurd (k5.symm.trans hxs) (hpos _ _ _ k1').2
      | cons y q => simp
    · refine isWalk_nodup (fun u v w he => (hpos u v w he).1) k3 k4 k5 (fun w' hw => ?_)
      have := hmin (ws + w' + 0) ⟨p.source, ws, s, 0, w', k1, by simp, hasWalk_iff.2 hw, rfl⟩
      omega

/-- From node 1 over 2, 3 and 4 back to 1. -/
theorem Ex.roundTrip : calcPathMulti debug64 binaryHeap Ex.fg (neighborSources (accepted Ex.ops) 1) [(1, 0)] =
    .ok (some ⟨2, 1, 12, [2, 3, 4, 1]⟩) := rfl
example (v : Nat) (q : List Nat) (w : Nat) (h : IsWalk (edgesOf (accepted Ex.ops)) (1 :: v :: q) w) (hl : (v :: q).getLast? = some 1) :
    12 ≤ w := (C118_round_trip rfl exampleClient binaryHeap Ex.roundTrip).2.2.2.2.2 v q w h hl
/-- Nobody comes back to node 0. -/
example : calcPathMulti debug64 binaryHeap Ex.fg (neighborSources (accepted Ex.ops) 0) [(0, 0)] = .ok none := rfl

end FP.Props
