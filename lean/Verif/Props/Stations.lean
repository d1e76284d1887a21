import Verif.Props.Query
set_option autoImplicit false
/-! # Stations within reach of each other

A vehicle can go a distance of at most `R` between two stations. The library has no such limit. A client asks for all pairs of stations,
makes the answers within `R` the edges of a second graph, prepares it and asks there. -/
namespace FP.Props
open Spec

/-- Going from station to station: every leg is a walk of weight at most `R`, and `w` is the sum. -/
def Hops (E : EdgeRel) (R : Nat) (stations : List Nat) : List Nat → Nat → Prop
  | [], _ => False
  | [x], w => x ∈ stations ∧ w = 0
  | x :: y :: rest, w => x ∈ stations ∧ ∃ a b, a ≤ R ∧ HasWalk E x y a ∧ Hops E R stations (y :: rest) b ∧ w = a + b

/-- The call for one pair of stations (input_graph.rs:113-115 `add_edge`), given the answer to the query between them. -/
def hopOp (R : Nat) (ans : Nat → Nat → Option ShortestPath) (i j : Nat) : List Op :=
  match ans i j with
  | some p => if p.weight ≤ R then [.addEdge i j p.weight] else []
  | none => []

/-- All calls for the second graph. -/
def hopOps (R : Nat) (ans : Nat → Nat → Option ShortestPath) (stations : List Nat) : List Op :=
  stations.flatMap (fun i => stations.flatMap (hopOp R ans i)) ++ [.freeze]

theorem mem_hopOps {R : Nat} {ans : Nat → Nat → Option ShortestPath} {stations : List Nat} {i j w : Nat} :
    edgesOf (accepted (hopOps R ans stations)) i j w ↔
      i ∈ stations ∧ j ∈ stations ∧ i ≠ j ∧ 1 ≤ w ∧ w ≤ R ∧ ∃ p, ans i j = some p ∧ p.weight = w := by
  unfold edgesOf accepted hopOps
  simp only [List.mem_flatMap, List.mem_append, List.mem_singleton]
  constructor
  · rintro ⟨op, ⟨k, hk, l, hl, h⟩ | rfl, hop⟩
    · unfold hopOp at h
      split at h
      · split at h
        · simp only [List.mem_singleton] at h
          subst h
          simp only [Op.edges] at hop
          split at hop
          · rename_i hne
            simp only [List.mem_singleton, Edge.mk.injEq] at hop
            obtain ⟨rfl, rfl, rfl⟩ := hop
            exact ⟨hk, hl, hne.1, by omega, by assumption, _, by assumption, rfl⟩
          · cases hop
        · cases h
      · cases h
    · simp [Op.edges] at hop
  · rintro ⟨hi, hj, hij, h1, hR, p, hp, rfl⟩
    refine ⟨.addEdge i j p.weight, .inl ⟨i, hi, j, hj, by simp [hopOp, hp, hR]⟩, ?_⟩
    simp only [Op.edges]
    rw [if_pos ⟨hij, by omega⟩]
    simp

/-- **C124** The answer in the second graph is the best way from `s` to `t` on which no leg between two stations is longer than `R`.
Between two stations the vehicle may take any road of the first graph. -/
theorem C124_stations {P : Plat} (hP : P.checked = true) {ops : List Op} {ig : InputGraph} {fg : FastGraph} (hc : Client P ops ig fg)
    (pq : PQ) {stations : List Nat} {ans : Nat → Nat → Option ShortestPath}
    (hans : ∀ i ∈ stations, ∀ j ∈ stations, calcPath P pq fg i j = .ok (ans i j)) {R : Nat} (hR : R < P.umax)
    {ig₂ : InputGraph} {fg₂ : FastGraph} (hc₂ : Client P (hopOps R ans stations) ig₂ fg₂) (pq₂ : PQ) {s t : Nat}
    (hs : s ∈ stations) {r : Option ShortestPath} (h : calcPath P pq₂ fg₂ s t = .ok r) :
    (r = none → ∀ l w, Hops (edgesOf (accepted ops)) R stations l w → l.head? = some s → l.getLast? = some t → P.umax ≤ w) ∧
    ∀ p, r = some p → Hops (edgesOf (accepted ops)) R stations p.nodes p.weight ∧ p.nodes.head? = some s ∧
      p.nodes.getLast? = some t ∧ ∀ l w, Hops (edgesOf (accepted ops)) R stations l w → l.head? = some s → l.getLast? = some t →
        p.weight ≤ w := by
  have hpos : ∀ {u v w : Nat}, Wk (edgesOf (accepted ops)) u v w → u ≠ v → 1 ≤ w := by
    intro u v w hw hne
    cases hw with
    | nil => exact absurd rfl hne
    | cons he _ =>
      obtain ⟨op, -, he⟩ := List.mem_flatMap.1 he
      cases op <;> simp only [Op.edges] at he <;> (try split at he) <;>
        simp only [List.mem_cons, List.not_mem_nil, or_false, Edge.mk.injEq] at he <;> omega
  have down : ∀ (l : List Nat) (w u : Nat), Hops (edgesOf (accepted ops)) R stations l w → l.head? = some u → l.getLast? = some t →
      ∃ w' ≤ w, Wk (edgesOf (accepted (hopOps R ans stations))) u t w' := by
    intro l
    induction l with
    | nil => intro w u hl; exact hl.elim
    | cons x l ih =>
      intro w u hl h1 h2
      injection h1 with h1
      subst h1
      cases l with
      | nil =>
        injection h2 with h2
        subst h2
        exact ⟨0, Nat.zero_le _, .nil _⟩
      | cons y l =>
        obtain ⟨hx, a, b, ha, hw, hb, rfl⟩ := hl
        rw [List.getLast?_cons_cons] at h2
        obtain ⟨w', k1, k2⟩ := ih b y hb rfl h2
        by_cases hxy : x = y
        · subst hxy
          exact ⟨w', by omega, k2⟩
        · have hy : y ∈ stations := by
            cases l with
            | nil => exact hb.1
            | cons => exact hb.1
          have hq := (query_answer hP hc (query_single (hans x hx y hy))).2.2
          cases e : ans x y with
          | none =>
            rw [e] at hq
            have := hq.single.1 rfl a hw
            omega
          | some p =>
            rw [e] at hq
            obtain ⟨_, _, _, _, _, _, m1, m2⟩ := hq.single.2 p rfl
            have hle := m2 a hw
            refine ⟨p.weight + w', by omega, .cons (mem_hopOps.2 ⟨hx, hy, hxy, ?_, by omega, p, e, rfl⟩) k2⟩
            exact hpos (hasWalk_iff.1 m1) hxy
  have up : ∀ (l : List Nat) (w u : Nat), IsWalk (edgesOf (accepted (hopOps R ans stations))) l w → l.head? = some u →
      u ∈ stations → Hops (edgesOf (accepted ops)) R stations l w := by
    intro l
    induction l with
    | nil => intro w u hl; exact hl.elim
    | cons x l ih =>
      intro w u hl h1 hu
      injection h1 with h1
      subst h1
      cases l with
      | nil => exact ⟨hu, hl⟩
      | cons y l =>
        obtain ⟨a, b, h1, h2, rfl⟩ := hl
        obtain ⟨hx, hy, _, _, hle, p, hp, rfl⟩ := mem_hopOps.1 h1
        have hq := (query_answer hP hc (query_single (hans x hx y hy))).2.2
        rw [hp] at hq
        exact ⟨hx, p.weight, b, hle, (hq.single.2 p rfl).2.2.2.2.2.2.1, ih b y h2 rfl hy, rfl⟩
  have ha := (query_answer hP hc₂ (query_single h)).2.2
  constructor
  · rintro rfl l w hl h1 h2
    obtain ⟨w', k1, k2⟩ := down l w s hl h1 h2
    have := ha.single.1 rfl w' (hasWalk_iff.2 k2)
    omega
  · rintro p rfl
    obtain ⟨_, _, _, k1, k2, k3, _, k5⟩ := ha.single.2 p rfl
    refine ⟨up _ _ s k1 k2 hs, k2, k3, ?_⟩
    intro l w hl h1 h2
    obtain ⟨w', j1, j2⟩ := down l w s hl h1 h2
    have := k5 w' (hasWalk_iff.2 j2)
    omega

def Ex.stOps : List Op := [.addEdge 0 1 4, .addEdge 1 2 4, .addEdge 2 3 4, .addEdge 0 3 10, .freeze]
def Ex.stIg : InputGraph := ⟨[⟨0, 1, 4⟩, ⟨0, 3, 10⟩, ⟨1, 2, 4⟩, ⟨2, 3, 4⟩], 4, true⟩
def Ex.stFg : FastGraph := ⟨4, [2, 3, 1, 0], [⟨0, 1, 4, Ex.inv, Ex.inv⟩], [0, 0, 0, 1, 1],
  [⟨3, 0, 10, Ex.inv, Ex.inv⟩, ⟨3, 2, 4, Ex.inv, Ex.inv⟩, ⟨2, 1, 4, Ex.inv, Ex.inv⟩], [0, 2, 3, 3, 3]⟩
/-- The answers between the stations 0, 2 and 3. -/
def Ex.stAns : Nat → Nat → Option ShortestPath
  | 0, 0 => some ⟨0, 0, 0, [0]⟩
  | 2, 2 => some ⟨2, 2, 0, [2]⟩
  | 3, 3 => some ⟨3, 3, 0, [3]⟩
  | 0, 2 => some ⟨0, 2, 8, [0, 1, 2]⟩
  | 0, 3 => some ⟨0, 3, 10, [0, 3]⟩
  | 2, 3 => some ⟨2, 3, 4, [2, 3]⟩
  | _, _ => none
def Ex.stIg₂ : InputGraph := ⟨[⟨0, 2, 8⟩, ⟨2, 3, 4⟩], 4, true⟩
def Ex.stFg₂ : FastGraph := ⟨4, [2, 0, 3, 1], [⟨0, 2, 8, Ex.inv, Ex.inv⟩], [0, 0, 0, 1, 1],
  [⟨3, 2, 4, Ex.inv, Ex.inv⟩], [0, 0, 1, 1, 1]⟩

/-- a concrete case: the road from 0 to 3 of weight 10 is too long without a stop; with a stop at 2 the way has weight 12 -/
example : Hops (edgesOf (accepted Ex.stOps)) 8 [0, 2, 3] [0, 2, 3] 12 ∧
    ∀ l w, Hops (edgesOf (accepted Ex.stOps)) 8 [0, 2, 3] l w → l.head? = some 0 → l.getLast? = some 3 → 12 ≤ w := by
  have hc : Client debug64 Ex.stOps Ex.stIg Ex.stFg := ⟨rfl, rfl, .default binaryHeap listQueue Ex.rel rfl⟩
  have hc₂ : Client debug64 (hopOps 8 Ex.stAns [0, 2, 3]) Ex.stIg₂ Ex.stFg₂ :=
    ⟨rfl, rfl, .default binaryHeap listQueue Ex.rel rfl⟩
  have h := (C124_stations (s := 0) (t := 3) (r := some ⟨0, 3, 12, [0, 2, 3]⟩) rfl hc binaryHeap (stations := [0, 2, 3])
    (ans := Ex.stAns) (by
      intro i hi j hj
      simp only [List.mem_cons, List.not_mem_nil, or_false] at hi hj
      rcases hi with rfl | rfl | rfl <;> rcases hj with rfl | rfl | rfl <;> rfl) (R := 8) (by decide) hc₂ binaryHeap
    (by decide) rfl).2 _ rfl
  exact ⟨h.1, h.2.2.2⟩

end FP.Props
