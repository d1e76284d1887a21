import Verif.Props.Query
set_option autoImplicit false
/-! # Rules for routes

The library knows nothing but weights. A client with rules for the sequence of roads of a route (at most two tolls, a ferry only after
the border, …) makes `k` copies of every node, one for each state of a finite automaton that reads the labels of the roads. -/
namespace FP.Props
open Spec

/-- A walk of labelled roads on which the automaton `δ` goes from `q` to `q'`. -/
def RuleWalk (roads : List (Edge × Nat)) (δ : Nat → Nat → Option Nat) (k : Nat) : List Nat → Nat → Nat → Nat → Prop
  | [], _, _, _ => False
  | [_], q, q', w => q < k ∧ q' = q ∧ w = 0
  | u :: v :: rest, q, q', w => q < k ∧ ∃ a c q₁ b, ((⟨u, v, a⟩ : Edge), c) ∈ roads ∧ δ q c = some q₁ ∧
      RuleWalk roads δ k (v :: rest) q₁ q' b ∧ w = a + b

/-- The calls for one road: one edge for each state in which it may be used (input_graph.rs:113-115 `add_edge`). -/
def ruleOp (δ : Nat → Nat → Option Nat) (k : Nat) (x : Edge × Nat) (q : Nat) : List Op :=
  match δ q x.2 with
  | some q' => if q' < k then [.addEdge (x.1.src * k + q) (x.1.dst * k + q') x.1.weight] else []
  | none => []

/-- All calls of the client. -/
def ruleOps (roads : List (Edge × Nat)) (δ : Nat → Nat → Option Nat) (k : Nat) : List Op :=
  roads.flatMap (fun x => (List.range k).flatMap (ruleOp δ k x)) ++ [.freeze]

theorem code_inj {k u q v q' : Nat} (hq : q < k) (hq' : q' < k) (h : u * k + q = v * k + q') : u = v ∧ q = q' := by
  have h1 : (u * k + q) / k = u := by
    rw [Nat.mul_comm, Nat.mul_add_div (by omega), Nat.div_eq_of_lt hq]; rfl
  have h2 : (v * k + q') / k = v := by
    rw [Nat.mul_comm, Nat.mul_add_div (by omega), Nat.div_eq_of_lt hq']; rfl
  have e : u = v := by rw [← h1, ← h2, h]
  subst e
  exact ⟨rfl, by omega⟩

theorem code_div {k u q : Nat} (hq : q < k) : (u * k + q) / k = u := by
  rw [Nat.mul_comm, Nat.mul_add_div (by omega), Nat.div_eq_of_lt hq]; rfl

theorem mem_ruleOps {roads : List (Edge × Nat)} {δ : Nat → Nat → Option Nat} {k : Nat}
    (hr : ∀ x ∈ roads, 0 < x.1.weight ∧ x.1.src ≠ x.1.dst) {i j w : Nat} :
    edgesOf (accepted (ruleOps roads δ k)) i j w ↔ ∃ u v c q q', ((⟨u, v, w⟩ : Edge), c) ∈ roads ∧ q < k ∧ q' < k ∧ δ q c = some q' ∧
      i = u * k + q ∧ j = v * k + q' := by
  unfold edgesOf accepted ruleOps
  simp only [List.mem_flatMap, List.mem_append, List.mem_range, List.mem_singleton]
  constructor
  · rintro ⟨op, ⟨⟨⟨u, v, a⟩, c⟩, hx, q, hq, h⟩ | rfl, hop⟩
    · unfold ruleOp at h
      split at h
      · split at h
        · simp only [List.mem_singleton] at h
          subst h
          simp only [Op.edges] at hop
          split at hop
          · simp only [List.mem_singleton, Edge.mk.injEq] at hop
            obtain ⟨rfl, rfl, rfl⟩ := hop
            exact ⟨u, v, c, q, _, hx, hq, by assumption, by assumption, rfl, rfl⟩
          · cases hop
        · cases h
      · cases h
    · simp [Op.edges] at hop
  · rintro ⟨u, v, c, q, q', hx, hq, hq', hd, rfl, rfl⟩
    obtain ⟨h1, h2⟩ := hr _ hx
    refine ⟨.addEdge (u * k + q) (v * k + q') w, .inl ⟨_, hx, q, hq, by simp [ruleOp, hd, hq']⟩, ?_⟩
    have hne : u * k + q ≠ v * k + q' := fun h => h2 (code_inj hq hq' h).1
    simp only [Op.edges]
    rw [if_pos ⟨hne, by simp only at h1; omega⟩]
    simp

/-- Walks of the client's graph follow the rules. -/
theorem ruleWalk_of {roads : List (Edge × Nat)} {δ : Nat → Nat → Option Nat} {k : Nat}
    (hr : ∀ x ∈ roads, 0 < x.1.weight ∧ x.1.src ≠ x.1.dst) : ∀ (l : List Nat) (w s q : Nat), q < k →
      IsWalk (edgesOf (accepted (ruleOps roads δ k))) l w → l.head? = some (s * k + q) →
      ∃ t q', q' < k ∧ l.getLast? = some (t * k + q') ∧ RuleWalk roads δ k (l.map (· / k)) q q' w ∧
        (l.map (· / k)).head? = some s ∧ (l.map (· / k)).getLast? = some t
  | [], _, _, _, _, h, _ => h.elim
  | [i], w, s, q, hq, h, hh => by
    simp only [List.head?_cons, Option.some.injEq] at hh
    subst hh
    exact ⟨s, q, hq, rfl, ⟨hq, rfl, h⟩, by simp [code_div hq], by simp [code_div hq]⟩
  | i :: j :: rest, w, s, q, hq, h, hh => by
    simp only [List.head?_cons, Option.some.injEq] at hh
    subst hh
    obtain ⟨a, b, h1, h2, rfl⟩ := h
    obtain ⟨u, v, c, q0, q1, hx, hq0, hq1, hd, e1, rfl⟩ := (mem_ruleOps hr).1 h1
    obtain ⟨rfl, rfl⟩ := code_inj hq hq0 e1
    obtain ⟨t, q', k1, k2, k3, k4, k5⟩ := ruleWalk_of hr ((v * k + q1) :: rest) b v q1 hq1 h2 rfl
    refine ⟨t, q', k1, by rw [List.getLast?_cons_cons]; exact k2, ?_, by simp [code_div hq], ?_⟩
    · simp only [List.map_cons, code_div hq, code_div hq1] at k3 ⊢
      exact ⟨hq, a, c, q1, b, hx, hd, k3, rfl⟩
    · simp only [List.map_cons] at k5 ⊢
      rw [List.getLast?_cons_cons]
      exact k5

/-- Walks that follow the rules are walks of the client's graph. -/
theorem ruleWalk_to {roads : List (Edge × Nat)} {δ : Nat → Nat → Option Nat} {k : Nat}
    (hr : ∀ x ∈ roads, 0 < x.1.weight ∧ x.1.src ≠ x.1.dst) : ∀ (l : List Nat) (w s t q q' : Nat),
      RuleWalk roads δ k l q q' w → l.head? = some s → l.getLast? = some t →
      q' < k ∧ HasWalk (edgesOf (accepted (ruleOps roads δ k))) (s * k + q) (t * k + q') w
  | [], _, _, _, _, _, h, _, _ => h.elim
  | [i], w, s, t, q, q', h, hh, hl => by
    obtain ⟨hq, rfl, rfl⟩ := h
    injection hh with hh
    injection hl with hl
    subst hh hl
    exact ⟨hq, [i * k + q'], rfl, rfl, rfl⟩
  | u :: v :: rest, w, s, t, q, q', h, hh, hl => by
    obtain ⟨hq, a, c, q1, b, hx, hd, h2, rfl⟩ := h
    injection hh with hh
    subst hh
    rw [List.getLast?_cons_cons] at hl
    obtain ⟨k1, k2⟩ := ruleWalk_to hr (v :: rest) b v t q1 q' h2 rfl hl
    have hq1 : q1 < k := by
      cases rest with
      | nil => exact h2.1
      | cons => exact h2.1
    exact ⟨k1, hasWalk_iff.2 (.cons ((mem_ruleOps hr).2 ⟨u, v, c, q, q1, hx, hq, hq1, hd, rfl, rfl⟩) (hasWalk_iff.1 k2))⟩

/-- **C123** A query from the node for `s` in the initial state to the nodes for `t` in the final states gives the lightest route from
`s` to `t` that the automaton accepts: dividing the nodes by `k` gives the route. -/
theorem C123_rules {P : Plat} (hP : P.checked = true) {roads : List (Edge × Nat)} {δ : Nat → Nat → Option Nat} {k : Nat}
    (hr : ∀ x ∈ roads, 0 < x.1.weight ∧ x.1.src ≠ x.1.dst) {ig : InputGraph} {fg : FastGraph}
    (hc : Client P (ruleOps roads δ k) ig fg) (pq : PQ) {s t q₀ : Nat} (hq : q₀ < k) {final : List Nat} (hf : ∀ q ∈ final, q < k)
    {r : Option ShortestPath} (h : calcPathMulti P pq fg [(s * k + q₀, 0)] (final.map fun q => (t * k + q, 0)) = .ok r) :
    (r = none → ∀ l q w, RuleWalk roads δ k l q₀ q w → q ∈ final → l.head? = some s → l.getLast? = some t → P.umax ≤ w) ∧
    ∀ p, r = some p → (∃ q ∈ final, RuleWalk roads δ k (p.nodes.map (· / k)) q₀ q p.weight) ∧
      (p.nodes.map (· / k)).head? = some s ∧ (p.nodes.map (· / k)).getLast? = some t ∧
      ∀ l q w, RuleWalk roads δ k l q₀ q w → q ∈ final → l.head? = some s → l.getLast? = some t → p.weight ≤ w := by
  have ha := (query_answer hP hc h).2.2
  have route : ∀ l q w, RuleWalk roads δ k l q₀ q w → q ∈ final → l.head? = some s → l.getLast? = some t →
      HasRoute (edgesOf (accepted (ruleOps roads δ k))) [(s * k + q₀, 0)] (final.map fun q => (t * k + q, 0)) w := by
    intro l q w hw hqf h1 h2
    exact ⟨_, 0, _, 0, w, by simp, List.mem_map.2 ⟨q, hqf, rfl⟩, (ruleWalk_to hr l w s t q₀ q hw h1 h2).2, by omega⟩
  constructor
  · rintro rfl l q w hw hqf h1 h2
    exact ha w (route l q w hw hqf h1 h2)
  · rintro p rfl
    obtain ⟨_, ⟨ws, wt, w, k1, k2, k3, k4, k5, k6⟩, k7⟩ := ha
    simp only [List.mem_singleton, Prod.mk.injEq] at k1
    obtain ⟨q, hqf, e⟩ := List.mem_map.1 k2
    injection e with e1 e2
    rw [k1.1] at k4
    obtain ⟨t', q', j1, j2, j3, j4, j5⟩ := ruleWalk_of hr p.nodes w s q₀ hq k3 k4
    rw [k5, ← e1] at j2
    injection j2 with j2
    obtain ⟨rfl, rfl⟩ := code_inj (hf q hqf) j1 j2
    have hw : p.weight = w := by omega
    refine ⟨⟨q, hqf, by rw [hw]; exact j3⟩, j4, j5, ?_⟩
    intro l q w hw hqf h1 h2
    exact k7 w (route l q w hw hqf h1 h2)

/-- Roads with the number of tolls: from 0 to 1 and from 1 to 2 with and without toll. -/
def Ex.tollRoads : List (Edge × Nat) := [(⟨0, 1, 1⟩, 1), (⟨0, 1, 7⟩, 0), (⟨1, 2, 2⟩, 1), (⟨1, 2, 5⟩, 0)]
/-- At most one toll. -/
def Ex.oneToll (q c : Nat) : Option Nat := if q + c < 2 then some (q + c) else none
def Ex.ruleIg : InputGraph := ⟨[⟨0, 2, 7⟩, ⟨0, 3, 1⟩, ⟨1, 3, 7⟩, ⟨2, 4, 5⟩, ⟨2, 5, 2⟩, ⟨3, 5, 5⟩], 6, true⟩
def Ex.ruleFg : FastGraph := ⟨6, [5, 1, 4, 3, 0, 2], [⟨1, 3, 7, Ex.inv, Ex.inv⟩], [0, 0, 1, 1, 1, 1, 1],
  [⟨4, 2, 5, Ex.inv, Ex.inv⟩, ⟨5, 2, 2, Ex.inv, Ex.inv⟩, ⟨5, 3, 5, Ex.inv, Ex.inv⟩, ⟨3, 0, 1, Ex.inv, Ex.inv⟩,
    ⟨2, 0, 7, Ex.inv, Ex.inv⟩], [0, 1, 1, 3, 4, 5, 5]⟩

/-- a concrete case: the route with both tolls, of weight 3, is not allowed; the best of the others has weight 6 -/
example : (∃ q ∈ [0, 1], RuleWalk Ex.tollRoads Ex.oneToll 2 [0, 1, 2] 0 q 6) ∧
    ∀ l q w, RuleWalk Ex.tollRoads Ex.oneToll 2 l 0 q w → q ∈ [0, 1] → l.head? = some 0 → l.getLast? = some 2 → 6 ≤ w := by
  have hc : Client debug64 (ruleOps Ex.tollRoads Ex.oneToll 2) Ex.ruleIg Ex.ruleFg :=
    ⟨rfl, rfl, .default binaryHeap listQueue Ex.rel rfl⟩
  have h := (C123_rules (s := 0) (t := 2) (q₀ := 0) (final := [0, 1]) (r := some ⟨0, 5, 6, [0, 3, 5]⟩) rfl (by decide) hc binaryHeap
    (by decide) (by decide) rfl).2 _ rfl
  exact ⟨h.1, h.2.2.2⟩

end FP.Props
