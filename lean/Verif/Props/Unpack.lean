import Verif.Proofs.UnpackWork
import Verif.Props.EndToEnd
set_option autoImplicit false
/-! # Work of unpacking shortcuts

`Model/UnpackWork` counts the calls of `unpack_fwd` and `unpack_bwd` (path_calculator.rs:269-335). -/
namespace FP.Props
open Spec PathCalculator

/-- **C125** Counting changes neither answers nor panics nor calculators, for any values. -/
theorem C125_counting_is_harmless {pq : PQ} (P : Plat) (c : PathCalculator pq) (g : FastGraph) (S T : List (Nat × Nat)) :
    (c.calcPathMultiC P g S T).map Prod.fst = c.calcPathMulti P g S T := by
  have h := calcPathMultiC_cnt P c g S T
  revert h
  rcases c.calcPathMulti P g S T with e | ⟨c', _ | p⟩
  · intro h; simp only [CntQ] at h; rw [h]; rfl
  · intro h; simp only [CntQ] at h; rw [h]; rfl
  · rintro ⟨_, _, h, _⟩; rw [h]; rfl

/-- **C125** For any value of type `FastGraph` and any calculator: a path with `m` edges, unpacked from `tops` edges of the search
trees, takes `2 * m - tops` calls; no path takes none. -/
theorem C125_calls {pq : PQ} {P : Plat} {c c' : PathCalculator pq} {g : FastGraph} {S T : List (Nat × Nat)} {r : Option ShortestPath}
    {calls tops : Nat} (h : c.calcPathMultiC P g S T = .ok ((c', r), calls, tops)) :
    (r = none → calls = 0) ∧
    ∀ p, r = some p → calls + tops = 2 * (p.nodes.length - 1) ∧ p.nodes.length - 1 ≤ calls ∧ calls ≤ 2 * (p.nodes.length - 1) := by
  have hq := calcPathMultiC_cnt P c g S T
  rw [h] at hq
  revert hq
  rcases c.calcPathMulti P g S T with e | ⟨c'', _ | p⟩
  · intro hq; cases hq
  · intro hq
    injection hq with hq
    injection hq with h1 h2
    injection h1 with h1 h3
    injection h2 with h2 h4
    subst h3
    exact ⟨fun _ => h2, fun p hp => by cases hp⟩
  · rintro ⟨calls', tops', hq, k1, k2⟩
    injection hq with hq
    injection hq with h1 h2
    injection h1 with h1 h3
    injection h2 with h2 h4
    subst h2 h3 h4
    refine ⟨fun hr => (nomatch hr), ?_⟩
    rintro _ ⟨⟩
    exact ⟨k1, by omega, by omega⟩

/-- **C125** On prepared graphs, for calculators with any history, unpacking takes fewer than `2 * n` calls. -/
theorem C125_prepared {P : Plat} (hP : P.checked = true) {ops : List Op} {ig : InputGraph} {fg : FastGraph} (hc : Client P ops ig fg)
    {pq : PQ} (history : List Request) {c c' : PathCalculator pq} (hh : runRequests P (createCalculator P pq fg) history = .ok c)
    {S T : List (Nat × Nat)} {r : Option ShortestPath} {calls tops : Nat}
    (h : c.calcPathMultiC P fg S T = .ok ((c', r), calls, tops)) : calls ≤ 2 * (ig.numNodes - 1) := by
  have h0 : calcPathMulti P pq fg S T = .ok r := by
    rw [← C55_create_calculator P pq fg history hh S T, ← C125_counting_is_harmless, h]
    rfl
  obtain ⟨ha, hb, _⟩ := query_answer hP hc h0
  obtain ⟨k1, k2⟩ := C125_calls h
  cases r with
  | none => have := k1 rfl; omega
  | some p =>
    obtain ⟨_, _, k3⟩ := k2 p rfl
    obtain ⟨_, ⟨ws, wt, w, j1, j2, j3, j4, j5, j6⟩, j7⟩ := hb
    have hi := hc.inv hP
    have hn : p.nodes.Nodup := isWalk_nodup (fun u v w he => hi.pos _ he) j3 j4 j5 (fun w' hw => by
      have := j7 (ws + w' + wt) ⟨_, ws, _, wt, w', j1, j2, hasWalk_iff.2 hw, rfl⟩
      omega)
    have hl := isWalk_lt (fun u v w he => (hi.frozenOk hc.frozen).lt _ he) j3 j4 (ha.sl _ j1)
    have : p.nodes.length ≤ ig.numNodes := by
      have := (hn.subperm (l₂ := List.range ig.numNodes) (fun x hx => List.mem_range.2 (hl x hx))).length_le
      simpa using this
    omega

/-- a concrete case: a path of 4 edges -/
example : ∃ c calls tops, (createCalculator debug64 binaryHeap Ex.fg).calcPathMultiC debug64 Ex.fg [(0, 0)] [(4, 0)] =
    .ok ((c, some Ex.path), calls, tops) ∧ calls ≤ 2 * 4 ∧ 0 < calls :=
  have h : (createCalculator debug64 binaryHeap Ex.fg).calcPathMultiC debug64 Ex.fg [(0, 0)] [(4, 0)] = .ok ((_, some Ex.path), _, _) := rfl
  ⟨_, _, _, h, C125_prepared rfl exampleClient [] rfl h, by have := ((C125_calls h).2 _ rfl).2.1; exact Nat.lt_of_lt_of_le (by decide) this⟩

end FP.Props
