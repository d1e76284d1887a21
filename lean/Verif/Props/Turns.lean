import Verif.Props.Query
set_option autoImplicit false
/-! # Turn restrictions and turn costs

The library knows nothing of turns. A client who wants them makes every road a node of the graph and every allowed turn an edge. -/
namespace FP.Props
open Spec

/-- Driving along the roads with these numbers: every road begins where the one before ends, the turn between them is allowed, and `w`
is the sum of the weights of the roads and of the turns. -/
def Drive (roads : List Edge) (turn : Nat → Nat → Option Nat) : List Nat → Nat → Prop
  | [], _ => False
  | [i], w => ∃ e, roads[i]? = some e ∧ w = e.weight
  | i :: j :: rest, w => ∃ e f c b, roads[i]? = some e ∧ roads[j]? = some f ∧ e.dst = f.src ∧ turn i j = some c ∧
      Drive roads turn (j :: rest) b ∧ w = e.weight + c + b

/-- The first road leaves `s`. -/
def Leaves (roads : List Edge) (is : List Nat) (s : Nat) : Prop := ∃ i e, is.head? = some i ∧ roads[i]? = some e ∧ e.src = s
/-- The last road arrives at `t`. -/
def Arrives (roads : List Edge) (is : List Nat) (t : Nat) : Prop := ∃ i e, is.getLast? = some i ∧ roads[i]? = some e ∧ e.dst = t

/-- The call for one pair of roads, if the turn is allowed (input_graph.rs:113-115 `add_edge`). -/
def turnOp (roads : List Edge) (turn : Nat → Nat → Option Nat) (i j : Nat) : List Op :=
  match roads[i]?, roads[j]?, turn i j with
  | some e, some f, some c => if e.dst = f.src then [.addEdge i j (c + f.weight)] else []
  | _, _, _ => []

/-- All calls of the client. -/
def turnOps (roads : List Edge) (turn : Nat → Nat → Option Nat) : List Op :=
  (List.range roads.length).flatMap (fun i => (List.range roads.length).flatMap (turnOp roads turn i)) ++ [.freeze]

/-- Sources of the query: the roads that leave `s`. -/
def leaving (roads : List Edge) (s : Nat) : List (Nat × Nat) :=
  (List.range roads.length).flatMap (fun i => match roads[i]? with
    | some e => if e.src = s then [(i, e.weight)] else []
    | none => [])

/-- Targets of the query: the roads that arrive at `t`. -/
def arriving (roads : List Edge) (t : Nat) : List (Nat × Nat) :=
  (List.range roads.length).flatMap (fun i => match roads[i]? with
    | some e => if e.dst = t then [(i, 0)] else []
    | none => [])

theorem lt_of_road {roads : List Edge} {i : Nat} {e : Edge} (h : roads[i]? = some e) : i < roads.length :=
  (List.getElem?_eq_some_iff.1 h).1

theorem mem_leaving {roads : List Edge} {s i w : Nat} : (i, w) ∈ leaving roads s ↔ ∃ e, roads[i]? = some e ∧ e.src = s ∧ w = e.weight := by
  unfold leaving
  rw [List.mem_flatMap]
  constructor
  · rintro ⟨k, _, h⟩
    cases hk : roads[k]? with
    | none => simp [hk] at h
    | some e =>
      simp only [hk] at h
      split at h
      · simp only [List.mem_singleton, Prod.mk.injEq] at h
        obtain ⟨rfl, rfl⟩ := h
        exact ⟨e, hk, by assumption, rfl⟩
      · cases h
  · rintro ⟨e, h, h1, rfl⟩
    exact ⟨i, List.mem_range.2 (lt_of_road h), by simp [h, h1]⟩

theorem mem_arriving {roads : List Edge} {t i w : Nat} : (i, w) ∈ arriving roads t ↔ (∃ e, roads[i]? = some e ∧ e.dst = t) ∧ w = 0 := by
  unfold arriving
  rw [List.mem_flatMap]
  constructor
  · rintro ⟨k, _, h⟩
    cases hk : roads[k]? with
    | none => simp [hk] at h
    | some e =>
      simp only [hk] at h
      split at h
      · simp only [List.mem_singleton, Prod.mk.injEq] at h
        obtain ⟨rfl, rfl⟩ := h
        exact ⟨⟨e, hk, by assumption⟩, rfl⟩
      · cases h
  · rintro ⟨⟨e, h, h1⟩, rfl⟩
    exact ⟨i, List.mem_range.2 (lt_of_road h), by simp [h, h1]⟩

theorem mem_turnOps {roads : List Edge} {turn : Nat → Nat → Option Nat} (hr : ∀ e ∈ roads, 0 < e.weight ∧ e.src ≠ e.dst) {i j w : Nat} :
    edgesOf (accepted (turnOps roads turn)) i j w ↔
      ∃ e f c, roads[i]? = some e ∧ roads[j]? = some f ∧ e.dst = f.src ∧ turn i j = some c ∧ w = c + f.weight := by
  unfold edgesOf accepted turnOps
  simp only [List.mem_flatMap, List.mem_append, List.mem_range, List.mem_singleton]
  constructor
  · rintro ⟨op, ⟨k, hk, l, hl, h⟩ | rfl, hop⟩
    · unfold turnOp at h
      split at h
      · split at h
        · simp only [List.mem_singleton] at h
          subst h
          simp only [Op.edges] at hop
          split at hop
          · simp only [List.mem_singleton, Edge.mk.injEq] at hop
            obtain ⟨rfl, rfl, rfl⟩ := hop
            exact ⟨_, _, _, by assumption, by assumption, by assumption, by assumption, rfl⟩
          · cases hop
        · cases h
      · cases h
    · simp [Op.edges] at hop
  · rintro ⟨e, f, c, h1, h2, h3, h4, rfl⟩
    have hij : i ≠ j := by
      rintro rfl
      rw [h1] at h2
      injection h2 with h2
      subst h2
      exact (hr e (List.mem_of_getElem? h1)).2 h3.symm
    have := (hr f (List.mem_of_getElem? h2)).1
    refine ⟨.addEdge i j (c + f.weight), .inl ⟨i, lt_of_road h1, j, lt_of_road h2, by simp [turnOp, h1, h2, h4, h3]⟩, ?_⟩
    simp only [Op.edges]
    rw [if_pos ⟨hij, by omega⟩]
    simp

/-- Driving is walking in the client's graph. -/
theorem drive_iff {roads : List Edge} {turn : Nat → Nat → Option Nat} (hr : ∀ e ∈ roads, 0 < e.weight ∧ e.src ≠ e.dst) :
    ∀ (is : List Nat) (w : Nat), Drive roads turn is w ↔
      ∃ i e x, is.head? = some i ∧ roads[i]? = some e ∧ IsWalk (edgesOf (accepted (turnOps roads turn))) is x ∧ w = e.weight + x
  | [], w => by simp [Drive]
  | [i], w => by
    simp only [Drive, IsWalk]
    constructor
    · rintro ⟨e, h, rfl⟩; exact ⟨i, e, 0, rfl, h, rfl, rfl⟩
    · rintro ⟨i', e, x, h1, h2, rfl, rfl⟩
      injection h1 with h1
      subst h1
      exact ⟨e, h2, rfl⟩
  | i :: j :: rest, w => by
    simp only [Drive, IsWalk]
    constructor
    · rintro ⟨e, f, c, b, h1, h2, h3, h4, h5, rfl⟩
      obtain ⟨j', f', x, k1, k2, k3, rfl⟩ := (drive_iff hr (j :: rest) b).1 h5
      injection k1 with k1
      subst k1
      rw [h2] at k2
      injection k2 with k2
      subst k2
      exact ⟨i, e, c + f.weight + x, rfl, h1, ⟨_, _, (mem_turnOps hr).2 ⟨e, f, c, h1, h2, h3, h4, rfl⟩, k3, rfl⟩, by omega⟩
    · rintro ⟨i', e', x, h1, h2, ⟨a, b, h3, h4, rfl⟩, rfl⟩
      injection h1 with h1
      subst h1
      obtain ⟨e, f, c, k1, k2, k3, k4, rfl⟩ := (mem_turnOps hr).1 h3
      rw [h2] at k1
      injection k1 with k1
      subst k1
      exact ⟨e', f, c, f.weight + b, h2, k2, k3, k4, (drive_iff hr (j :: rest) _).2 ⟨j, f, b, rfl, k2, h4, rfl⟩, by omega⟩

/-- **C116** With roads as nodes and turns as edges, a query from the roads leaving `s` to the roads arriving at `t` gives the lightest
drive that respects all turn restrictions and counts all turn costs. -/
theorem C116_turns {P : Plat} (hP : P.checked = true) {roads : List Edge} {turn : Nat → Nat → Option Nat}
    (hr : ∀ e ∈ roads, 0 < e.weight ∧ e.src ≠ e.dst) {ig : InputGraph} {fg : FastGraph} (hc : Client P (turnOps roads turn) ig fg)
    (pq : PQ) {s t : Nat} {r : Option ShortestPath} (h : calcPathMulti P pq fg (leaving roads s) (arriving roads t) = .ok r) :
    match r with
    | none => ∀ is w, Drive roads turn is w → Leaves roads is s → Arrives roads is t → P.umax ≤ w
    | some p => p.weight < P.umax ∧ Drive roads turn p.nodes p.weight ∧ Leaves roads p.nodes s ∧ Arrives roads p.nodes t ∧
      ∀ is w, Drive roads turn is w → Leaves roads is s → Arrives roads is t → p.weight ≤ w := by
  have key : ∀ {is w}, Drive roads turn is w → Leaves roads is s → Arrives roads is t →
      HasRoute (edgesOf (accepted (turnOps roads turn))) (leaving roads s) (arriving roads t) w := by
    rintro is w hd ⟨i, e, l1, l2, l3⟩ ⟨j, f, m1, m2, m3⟩
    obtain ⟨i', e', x, k1, k2, k3, rfl⟩ := (drive_iff hr is w).1 hd
    rw [l1] at k1
    injection k1 with k1
    subst k1
    rw [l2] at k2
    injection k2 with k2
    subst k2
    exact ⟨i, e.weight, j, 0, x, mem_leaving.2 ⟨e, l2, l3, rfl⟩, mem_arriving.2 ⟨⟨f, m2, m3⟩, rfl⟩, ⟨is, k3, l1, m1⟩, rfl⟩
  have a := (query_answer hP hc h).2.2
  cases r with
  | none => exact fun is w h1 h2 h3 => a w (key h1 h2 h3)
  | some p =>
    obtain ⟨hlt, ⟨ws, wt, w₀, k1, k2, k3, k4, k5, k6⟩, hmin⟩ := a
    obtain ⟨e, l1, l2, rfl⟩ := mem_leaving.1 k1
    obtain ⟨⟨f, m1, m2⟩, rfl⟩ := mem_arriving.1 k2
    exact ⟨hlt, (drive_iff hr _ _).2 ⟨_, e, w₀, k4, l1, k3, k6⟩, ⟨_, e, k4, l1, l2⟩, ⟨_, f, k5, m1, m2⟩,
      fun is w h1 h2 h3 => hmin w (key h1 h2 h3)⟩

namespace TurnEx
/-- a crossing at node 1 and a detour -/
def roads : List Edge := [⟨0, 1, 1⟩, ⟨1, 2, 1⟩, ⟨1, 3, 2⟩, ⟨3, 2, 1⟩, ⟨2, 1, 4⟩]
/-- from road 0 into road 1 no turn is allowed, into road 2 it costs 5, others are free -/
def turn (i j : Nat) : Option Nat := if i = 0 ∧ j = 1 then none else if i = 0 then some 5 else some 0
/-- the graph of the turns -/
def ig : InputGraph := ⟨[⟨0, 2, 7⟩, ⟨1, 4, 4⟩, ⟨2, 3, 1⟩, ⟨3, 4, 4⟩, ⟨4, 1, 1⟩, ⟨4, 2, 2⟩], 5, true⟩
/-- prepared -/
def fg : FastGraph where
  numNodes := 5
  ranks := [0, 1, 4, 2, 3]
  edgesFwd := [⟨0, 2, 7, Ex.inv, Ex.inv⟩, ⟨1, 4, 4, Ex.inv, Ex.inv⟩, ⟨3, 4, 4, Ex.inv, Ex.inv⟩, ⟨4, 2, 2, Ex.inv, Ex.inv⟩]
  firstEdgeIdsFwd := [0, 1, 2, 3, 4, 4]
  edgesBwd := [⟨1, 4, 1, Ex.inv, Ex.inv⟩, ⟨3, 2, 1, Ex.inv, Ex.inv⟩, ⟨4, 2, 5, 1, 2⟩]
  firstEdgeIdsBwd := [0, 0, 1, 2, 3, 3]
theorem client : Client debug64 (turnOps roads turn) ig fg := ⟨rfl, rfl, .default binaryHeap listQueue Ex.rel rfl⟩
theorem query : calcPathMulti debug64 binaryHeap fg (leaving roads 0) (arriving roads 2) = .ok (some ⟨0, 3, 9, [0, 2, 3]⟩) := rfl
end TurnEx

/-- Without the restriction the drive along roads 0 and 1 would weigh 2; now the detour is the lightest. -/
example (is : List Nat) (w : Nat) (h : Drive TurnEx.roads TurnEx.turn is w) (hl : Leaves TurnEx.roads is 0)
    (ha : Arrives TurnEx.roads is 2) : 9 ≤ w :=
  (C116_turns rfl (by decide) TurnEx.client binaryHeap TurnEx.query).2.2.2.2 is w h hl ha
example : Drive TurnEx.roads TurnEx.turn [0, 2, 3] 9 :=
  (C116_turns rfl (by decide) TurnEx.client binaryHeap TurnEx.query).2.1

end FP.Props
