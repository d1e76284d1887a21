import Verif.Props.Query
set_option autoImplicit false
/-! # The second best route -/
namespace FP.Props
open Spec

/-- The consecutive pairs of a list of nodes. -/
def legs : List Nat → List (Nat × Nat)
  | u :: v :: rest => (u, v) :: legs (v :: rest)
  | _ => []

/-- A client leaves out all edges from `u` to `v`, prepares what is left in any way and asks again. -/
inductive AskedWithout (P : Plat) (ops : List Op) (s t u v : Nat) (r : Option ShortestPath) : Prop
  | mk (ops' : List Op) (ig : InputGraph) (fg : FastGraph) (pq : PQ) (client : Client P ops' ig fg)
    (rest : ∀ e, e ∈ accepted ops' ↔ e ∈ accepted ops ∧ ¬ (e.src = u ∧ e.dst = v)) (asked : calcPath P pq fg s t = .ok r)

theorem mem_of_mem_legs : ∀ {l : List Nat} {u v : Nat}, (u, v) ∈ legs l → u ∈ l ∧ v ∈ l
  | [], _, _, h => by cases h
  | [_], _, _, h => by cases h
  | a :: b :: rest, u, v, h => by
    rcases List.mem_cons.1 h with h | h
    · injection h with h1 h2
      subst h1 h2
      simp
    · obtain ⟨h1, h2⟩ := mem_of_mem_legs h
      exact ⟨List.mem_cons_of_mem _ h1, List.mem_cons_of_mem _ h2⟩

/-- Two simple paths between the same nodes, one with all legs of the other, are the same. -/
theorem eq_of_legs {t : Nat} : ∀ {l q : List Nat} {s : Nat}, l.Nodup → q.Nodup → l.head? = some s → q.head? = some s →
    l.getLast? = some t → q.getLast? = some t → (∀ x ∈ legs l, x ∈ legs q) → q = l
  | [], _, _, _, _, h, _, _, _, _ => by cases h
  | _ :: _, [], _, _, _, _, h, _, _, _ => by cases h
  | [a], [b], s, _, _, h1, h2, _, _, _ => by
    injection h1 with h1; injection h2 with h2; rw [h1, h2]
  | [a], b :: c :: rest, s, _, hq, h1, h2, h3, h4, _ => by
    injection h1 with h1; injection h2 with h2
    simp only [List.getLast?_singleton, Option.some.injEq] at h3
    rw [List.getLast?_cons_cons] at h4
    have := List.mem_of_getLast? h4
    rw [List.nodup_cons] at hq
    exact absurd (by rw [h2, ← h1, h3]; exact this) hq.1
  | a :: b :: l, [c], s, _, _, _, _, _, _, h => by
    have := h (a, b) (by simp [legs])
    cases this
  | a :: b :: l, c :: d :: q, s, hl, hq, h1, h2, h3, h4, h => by
    injection h1 with h1; injection h2 with h2
    subst h1 h2
    rw [List.nodup_cons] at hl hq
    rw [List.getLast?_cons_cons] at h3 h4
    have hbd : b = d := by
      rcases List.mem_cons.1 (h (c, b) (by simp [legs])) with e | e
      · injection e
      · exact absurd (mem_of_mem_legs e).1 hq.1
    subst hbd
    rw [eq_of_legs (s := b) hl.2 hq.2 rfl rfl h3 h4 (fun x hx => ?_)]
    rcases List.mem_cons.1 (h x (List.mem_cons_of_mem _ hx)) with e | e
    · subst e
      exact absurd (mem_of_mem_legs hx).1 hl.1
    · exact e

/-- A walk without the leg from `u` to `v` is a walk of the graph without these edges, and the other way round. -/
theorem isWalk_without {es es' : List Edge} {u v : Nat} (h : ∀ e, e ∈ es' ↔ e ∈ es ∧ ¬ (e.src = u ∧ e.dst = v)) :
    ∀ (q : List Nat) (w : Nat), IsWalk (edgesOf es') q w ↔ IsWalk (edgesOf es) q w ∧ (u, v) ∉ legs q
  | [], w => by simp [IsWalk]
  | [a], w => by simp [IsWalk, legs]
  | a :: b :: q, w => by
    simp only [IsWalk, legs, List.mem_cons, not_or, Prod.mk.injEq]
    constructor
    · rintro ⟨x, y, h1, h2, rfl⟩
      obtain ⟨k1, k2⟩ := (h _).1 h1
      obtain ⟨k3, k4⟩ := (isWalk_without h (b :: q) y).1 h2
      exact ⟨⟨x, y, k1, k3, rfl⟩, fun e => k2 ⟨e.1.symm, e.2.symm⟩, k4⟩
    · rintro ⟨⟨x, y, h1, h2, rfl⟩, h3, h4⟩
      exact ⟨x, y, (h _).2 ⟨h1, fun e => h3 ⟨e.1.symm, e.2.symm⟩⟩, (isWalk_without h (b :: q) y).2 ⟨h2, h4⟩, rfl⟩

/-- **C117** Leaving out one leg of the best path at a time finds the second best path: every answer is another simple path that is no
lighter than the first, and every other simple path lighter than `usize::MAX` is matched by an answer that is no heavier. -/
theorem C117_second_best {P : Plat} (hP : P.checked = true) {ops : List Op} {ig : InputGraph} {fg : FastGraph}
    (hc : Client P ops ig fg) (pq : PQ) {s t : Nat} {p : ShortestPath} (h : calcPath P pq fg s t = .ok (some p))
    {alt : Nat × Nat → Option ShortestPath} (ha : ∀ x ∈ legs p.nodes, AskedWithout P ops s t x.1 x.2 (alt x)) :
    (∀ x ∈ legs p.nodes, ∀ a, alt x = some a → a.nodes ≠ p.nodes ∧ a.nodes.Nodup ∧ IsWalk (edgesOf (accepted ops)) a.nodes a.weight ∧
      a.nodes.head? = some s ∧ a.nodes.getLast? = some t ∧ p.weight ≤ a.weight) ∧
    ∀ q w, q ≠ p.nodes → q.Nodup → IsWalk (edgesOf (accepted ops)) q w → q.head? = some s → q.getLast? = some t → w < P.umax →
      ∃ x ∈ legs p.nodes, ∃ a, alt x = some a ∧ a.weight ≤ w := by
  obtain ⟨-, -, -, -, p5, p6, p7⟩ := (query_answer hP hc (query_single h)).2.2.single.2 p rfl
  constructor
  · rintro x hx a e
    obtain ⟨ops', ig', fg', pq', hc', hrest, hask⟩ := ha x hx
    rw [e] at hask
    obtain ⟨-, -, -, a4, a5, a6, -⟩ := (query_answer hP hc' (query_single hask)).2.2.single.2 a rfl
    obtain ⟨k1, k2⟩ := (isWalk_without hrest _ _).1 a4
    exact ⟨fun e => k2 (e ▸ hx), C04_path_is_simple hP hc' pq' hask, k1, a5, a6, p7.2 _ ⟨_, k1, a5, a6⟩⟩
  · intro q w hne hq hw h1 h2 hlt
    have hex : ∃ x ∈ legs p.nodes, x ∉ legs q := by
      by_contra hn
      refine hne (eq_of_legs (C04_path_is_simple hP hc pq h) hq p5 h1 p6 h2 (fun x hx => ?_))
      by_contra hx'
      exact hn ⟨x, hx, hx'⟩
    obtain ⟨x, hx, hxq⟩ := hex
    obtain ⟨ops', ig', fg', pq', hc', hrest, hask⟩ := ha x hx
    have hwalk : HasWalk (edgesOf (accepted ops')) s t w := ⟨q, (isWalk_without hrest q w).2 ⟨hw, hxq⟩, h1, h2⟩
    cases e : alt x with
    | none =>
      rw [e] at hask
      exact absurd ⟨w, hlt, hwalk⟩ ((C02_none_iff_unreachable hP hc' pq' hask).1 rfl)
    | some a =>
      rw [e] at hask
      exact ⟨x, hx, a, e, (C01_calc_path_is_minimal hP hc' pq' hask).2 w hwalk⟩

/-- the example without the edges from 0 to 1 -/
def Ex.without01 : List Op := [.addEdge 1 2 4, .addEdge 0 2 9, .addEdgeBidir 2 3 1, .addEdge 3 4 5, .addEdge 4 1 2, .freeze]
/-- the example without the edge from 1 to 2 -/
def Ex.without12 : List Op := [.addEdge 0 1 3, .addEdge 0 2 9, .addEdgeBidir 2 3 1, .addEdge 3 4 5, .addEdge 4 1 2, .addEdge 0 1 8, .freeze]

/-- prepared without the edges from 0 to 1 -/
def Ex.fg01 : FastGraph where
  numNodes := 5
  ranks := [0, 2, 4, 3, 1]
  edgesFwd := [⟨0, 2, 9, Ex.inv, Ex.inv⟩, ⟨4, 1, 2, Ex.inv, Ex.inv⟩, ⟨1, 2, 4, Ex.inv, Ex.inv⟩, ⟨3, 2, 1, Ex.inv, Ex.inv⟩]
  firstEdgeIdsFwd := [0, 1, 2, 3, 4, 4]
  edgesBwd := [⟨4, 3, 5, Ex.inv, Ex.inv⟩, ⟨1, 3, 7, 0, 1⟩, ⟨3, 2, 1, Ex.inv, Ex.inv⟩]
  firstEdgeIdsBwd := [0, 0, 1, 2, 3, 3]
/-- prepared without the edge from 1 to 2 -/
def Ex.fg12 : FastGraph where
  numNodes := 5
  ranks := [2, 0, 4, 3, 1]
  edgesFwd := [⟨0, 2, 9, Ex.inv, Ex.inv⟩, ⟨3, 2, 1, Ex.inv, Ex.inv⟩]
  firstEdgeIdsFwd := [0, 0, 0, 1, 2, 2]
  edgesBwd := [⟨1, 0, 3, Ex.inv, Ex.inv⟩, ⟨1, 4, 2, Ex.inv, Ex.inv⟩, ⟨4, 3, 5, Ex.inv, Ex.inv⟩, ⟨3, 2, 1, Ex.inv, Ex.inv⟩]
  firstEdgeIdsBwd := [0, 2, 3, 3, 4, 4]
theorem Ex.client01 : Client debug64 Ex.without01
    ⟨[⟨0, 2, 9⟩, ⟨1, 2, 4⟩, ⟨2, 3, 1⟩, ⟨3, 2, 1⟩, ⟨3, 4, 5⟩, ⟨4, 1, 2⟩], 5, true⟩ Ex.fg01 :=
  ⟨rfl, rfl, .default binaryHeap listQueue Ex.rel rfl⟩
theorem Ex.client12 : Client debug64 Ex.without12
    ⟨[⟨0, 1, 3⟩, ⟨0, 2, 9⟩, ⟨2, 3, 1⟩, ⟨3, 2, 1⟩, ⟨3, 4, 5⟩, ⟨4, 1, 2⟩], 5, true⟩ Ex.fg12 :=
  ⟨rfl, rfl, .default binaryHeap listQueue Ex.rel rfl⟩

/-- The best path from 0 to 2 is [0, 1, 2] of weight 7; every other simple path weighs at least 9. -/
example (q : List Nat) (w : Nat) (hne : q ≠ [0, 1, 2]) (hq : q.Nodup) (hw : IsWalk (edgesOf (accepted Ex.ops)) q w)
    (h1 : q.head? = some 0) (h2 : q.getLast? = some 2) (hlt : w < debug64.umax) : 9 ≤ w := by
  have key := (C117_second_best rfl exampleClient binaryHeap (s := 0) (t := 2) (p := ⟨0, 2, 7, [0, 1, 2]⟩) rfl
    (alt := fun _ => some ⟨0, 2, 9, [0, 2]⟩) ?_).2 q w hne hq hw h1 h2 hlt
  · obtain ⟨_, _, a, e, h⟩ := key
    injection e with e
    subst e
    exact h
  · intro x hx
    simp only [legs, List.mem_cons, List.not_mem_nil, or_false] at hx
    rcases hx with rfl | rfl
    · refine ⟨Ex.without01, _, _, binaryHeap, Ex.client01, fun e => ?_, rfl⟩
      rw [show accepted Ex.without01 = (accepted Ex.ops).filter (fun e => !(decide (e.src = 0 ∧ e.dst = 1))) from rfl, List.mem_filter,
        Bool.not_eq_true', decide_eq_false_iff_not]
    · refine ⟨Ex.without12, _, _, binaryHeap, Ex.client12, fun e => ?_, rfl⟩
      rw [show accepted Ex.without12 = (accepted Ex.ops).filter (fun e => !(decide (e.src = 1 ∧ e.dst = 2))) from rfl, List.mem_filter,
        Bool.not_eq_true', decide_eq_false_iff_not]

end FP.Props
