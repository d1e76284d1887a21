import Verif.Props.Query
import Verif.Proofs.Distance
set_option autoImplicit false
/-!
# Two criteria

A client who wants the best path for one criterion, and among those the best for a second one, multiplies the first by a number that is
larger than all sums of the second along simple paths.
-/
namespace FP.Props
open Spec

/-- A walk of edges with two criteria: `a` and `b` are the sums along `nodes`. -/
def BiWalk (L : List (Edge × Nat)) : List Nat → Nat → Nat → Prop
  | [], _, _ => False
  | [_], a, b => a = 0 ∧ b = 0
  | u :: v :: rest, a, b => ∃ w c a' b', ((⟨u, v, w⟩ : Edge), c) ∈ L ∧ BiWalk L (v :: rest) a' b' ∧ a = w + a' ∧ b = c + b'

/-- The edges with both criteria in one number. -/
def Merged (K : Nat) (L : List (Edge × Nat)) (es : List Edge) : Prop :=
  ∀ e, e ∈ es ↔ ∃ x ∈ L, e = ⟨x.1.src, x.1.dst, K * x.1.weight + x.2⟩

theorem merged_isWalk {K : Nat} {L : List (Edge × Nat)} {es : List Edge} (h : Merged K L es) :
    ∀ (l : List Nat) (w : Nat), IsWalk (edgesOf es) l w ↔ ∃ a b, BiWalk L l a b ∧ w = K * a + b
  | [], w => by simp [IsWalk, BiWalk]
  | [_], w => by
    constructor
    · intro k
      exact ⟨0, 0, ⟨rfl, rfl⟩, by rw [show w = 0 from k]; simp⟩
    · rintro ⟨a, b, ⟨rfl, rfl⟩, rfl⟩
      show K * 0 + 0 = 0
      simp
  | u :: v :: rest, w => by
    constructor
    · rintro ⟨x, y, h1, h2, rfl⟩
      obtain ⟨a, b, k1, k2⟩ := (merged_isWalk h (v :: rest) y).1 h2
      obtain ⟨⟨⟨u', v', w'⟩, c⟩, m, e⟩ := (h _).1 h1
      injection e with e1 e2 e3
      subst e1 e2
      refine ⟨w' + a, c + b, ⟨w', c, a, b, m, k1, rfl, rfl⟩, ?_⟩
      simp only at e3
      rw [Nat.mul_add]
      omega
    · rintro ⟨a, b, ⟨w', c, a', b', m, k, rfl, rfl⟩, rfl⟩
      refine ⟨K * w' + c, K * a' + b', (h _).2 ⟨_, m, rfl⟩, (merged_isWalk h (v :: rest) _).2 ⟨_, _, k, rfl⟩, ?_⟩
      rw [Nat.mul_add]
      omega

theorem BiWalk.le {L : List (Edge × Nat)} {C : Nat} (hC : ∀ x ∈ L, x.2 ≤ C) : ∀ {l : List Nat} {a b : Nat}, BiWalk L l a b →
    b ≤ (l.length - 1) * C
  | [], _, _, h => h.elim
  | [_], _, _, h => by rw [h.2]; exact Nat.zero_le _
  | u :: v :: rest, _, _, h => by
    obtain ⟨w, c, a', b', m, k, rfl, rfl⟩ := h
    have h1 := hC _ m
    have h2 := k.le hC
    simp only [List.length_cons, Nat.add_sub_cancel] at h2 ⊢
    rw [Nat.add_mul]
    simp only at h1
    omega

theorem BiWalk.suffix {L : List (Edge × Nat)} {s : Nat} : ∀ {l : List Nat} {a b : Nat}, BiWalk L l a b → s ∈ l → l.Nodup →
    ∃ l' a' b', BiWalk L l' a' b' ∧ l'.head? = some s ∧ l'.getLast? = l.getLast? ∧ l'.Nodup ∧ a' ≤ a ∧ b' ≤ b
  | [], _, _, h, _, _ => h.elim
  | [x], a, b, h, hm, hn => by
    rw [List.mem_singleton] at hm
    subst hm
    exact ⟨[s], a, b, h, rfl, rfl, hn, Nat.le_refl _, Nat.le_refl _⟩
  | u :: v :: rest, a, b, h, hm, hn => by
    by_cases hu : s = u
    · subst hu
      exact ⟨_, a, b, h, rfl, rfl, hn, Nat.le_refl _, Nat.le_refl _⟩
    · obtain ⟨w, c, a', b', m, k, rfl, rfl⟩ := h
      obtain ⟨l', x, y, k1, k2, k3, k4, k5, k6⟩ := k.suffix ((List.mem_cons.1 hm).resolve_left hu) (List.nodup_cons.1 hn).2
      exact ⟨l', x, y, k1, k2, by rw [k3, List.getLast?_cons_cons], k4, by omega, by omega⟩

/-- Leaving out loops makes neither sum larger. -/
theorem BiWalk.simple {L : List (Edge × Nat)} : ∀ {l : List Nat} {a b : Nat}, BiWalk L l a b →
    ∃ l' a' b', BiWalk L l' a' b' ∧ l'.head? = l.head? ∧ l'.getLast? = l.getLast? ∧ l'.Nodup ∧ a' ≤ a ∧ b' ≤ b
  | [], _, _, h => h.elim
  | [x], a, b, h => ⟨[x], a, b, h, rfl, rfl, by simp, Nat.le_refl _, Nat.le_refl _⟩
  | u :: v :: rest, _, _, h => by
    obtain ⟨w, c, a', b', m, k, rfl, rfl⟩ := h
    obtain ⟨l', x, y, k1, k2, k3, k4, k5, k6⟩ := k.simple
    by_cases hu : u ∈ l'
    · obtain ⟨l'', x', y', j1, j2, j3, j4, j5, j6⟩ := k1.suffix hu k4
      exact ⟨l'', x', y', j1, j2, by rw [j3, k3, List.getLast?_cons_cons], j4, by omega, by omega⟩
    · match l', k2 with
      | z :: l'', k2 =>
        simp only [List.head?_cons, Option.some.injEq] at k2
        subst k2
        exact ⟨u :: z :: l'', w + x, c + y, ⟨w, c, x, y, m, k1, rfl, rfl⟩, rfl,
          by rw [List.getLast?_cons_cons, List.getLast?_cons_cons, k3], List.nodup_cons.2 ⟨hu, k4⟩, by omega, by omega⟩

/-- **C121** With a factor `K` above all sums of the second criterion along simple paths, the answer is best for the first criterion
and, among the paths that are, best for the second. Both sums are read off the weight. `None` means that the merged weight of every walk
is `usize::MAX` or more. -/
theorem C121_two_criteria {P : Plat} (hP : P.checked = true) {ops : List Op} {ig : InputGraph} {fg : FastGraph}
    (hc : Client P ops ig fg) {K C : Nat} {L : List (Edge × Nat)} (hm : Merged K L (accepted ops)) (hC : ∀ x ∈ L, x.2 ≤ C)
    (hK : (ig.numNodes - 1) * C < K) (pq : PQ) {s t : Nat} {r : Option ShortestPath} (h : calcPath P pq fg s t = .ok r) :
    (r = none → ∀ l a b, BiWalk L l a b → l.head? = some s → l.getLast? = some t → P.umax ≤ K * a + b) ∧
    ∀ p, r = some p → BiWalk L p.nodes (p.weight / K) (p.weight % K) ∧ p.nodes.head? = some s ∧ p.nodes.getLast? = some t ∧
      ∀ l a b, BiWalk L l a b → l.head? = some s → l.getLast? = some t →
        p.weight / K < a ∨ p.weight / K = a ∧ p.weight % K ≤ b := by
  have hans := (query_answer hP hc (query_single h)).2.2
  constructor
  · intro e l a b hw h1 h2
    exact hans.single.1 e _ ⟨l, (merged_isWalk hm l _).2 ⟨a, b, hw, rfl⟩, h1, h2⟩
  · rintro p rfl
    obtain ⟨_, _, _, k1, k2, k3, k4, k5⟩ := hans.single.2 p rfl
    have hnum : ∀ u v w, edgesOf (accepted ops) u v w → u < ig.numNodes ∧ v < ig.numNodes := by
      have hi := buildGraph_inv (Or.inl hP) hc.built
      intro u v w he
      rw [hi.num]
      exact nodeCount_gt _ he
    have hs : s < ig.numNodes := (query_answer hP hc (query_single h)).1.sl (s, 0) (by simp)
    have small : ∀ {l : List Nat} {a b : Nat}, BiWalk L l a b → l.head? = some s → l.Nodup → b < K := by
      intro l a b hw h1 h2
      have hsub : l ⊆ List.range ig.numNodes := fun y hy =>
        List.mem_range.2 (isWalk_lt hnum ((merged_isWalk hm l _).2 ⟨a, b, hw, rfl⟩) h1 hs y hy)
      have hlen : l.length ≤ ig.numNodes := by simpa using (List.subperm_of_subset h2 hsub).length_le
      have := hw.le hC
      have : (l.length - 1) * C ≤ (ig.numNodes - 1) * C := Nat.mul_le_mul_right C (by omega)
      omega
    obtain ⟨a, b, hw, e⟩ := (merged_isWalk hm _ _).1 k1
    have hb : b < K := small hw k2 (C04_path_is_simple hP hc pq h)
    have hd : p.weight / K = a := by rw [e, Nat.mul_add_div (by omega), Nat.div_eq_of_lt hb]; rfl
    have hr : p.weight % K = b := by rw [e, Nat.mul_add_mod, Nat.mod_eq_of_lt hb]
    rw [hd, hr]
    refine ⟨hw, k2, k3, ?_⟩
    intro l x y hl h1 h2
    obtain ⟨l', x', y', j1, j2, j3, j4, j5, j6⟩ := hl.simple
    have hy := small j1 (j2.trans h1) j4
    have := k5 _ ⟨l', (merged_isWalk hm l' _).2 ⟨x', y', j1, rfl⟩, j2.trans h1, j3.trans h2⟩
    rcases Nat.lt_trichotomy a x' with k | k | k
    · left; omega
    · subst k
      omega
    · exfalso
      have : K * (x' + 1) ≤ K * a := Nat.mul_le_mul_left K k
      rw [Nat.mul_add] at this
      omega

theorem biWalk_ones {es : List Edge} : ∀ {l : List Nat} {a b : Nat}, BiWalk (es.map (·, 1)) l a b ↔
    IsWalk (edgesOf es) l a ∧ b + 1 = l.length
  | [], _, _ => by simp [BiWalk, IsWalk]
  | [_], _, _ => by simp [BiWalk, IsWalk]
  | u :: v :: rest, a, b => by
    constructor
    · rintro ⟨w, c, a', b', m, k, rfl, rfl⟩
      obtain ⟨e, he, heq⟩ := List.mem_map.1 m
      injection heq with h1 h2
      subst h1 h2
      obtain ⟨k1, k2⟩ := biWalk_ones.1 k
      exact ⟨⟨w, a', he, k1, rfl⟩, by simp only [List.length_cons] at k2 ⊢; omega⟩
    · rintro ⟨⟨w, a', he, k1, rfl⟩, h⟩
      simp only [List.length_cons] at h
      exact ⟨w, 1, a', rest.length, List.mem_map.2 ⟨_, he, rfl⟩, biWalk_ones.2 ⟨k1, by simp⟩, rfl, by omega⟩

/-- **C121** In particular, if every weight is multiplied by (at least) the number of nodes and increased by one, queries return a
lightest path with as few edges as possible. -/
theorem C121_fewest_edges {P : Plat} (hP : P.checked = true) {ops ops' : List Op} {ig : InputGraph} {fg : FastGraph}
    (hc : Client P ops' ig fg) {K : Nat}
    (hm : ∀ e, e ∈ accepted ops' ↔ ∃ x ∈ accepted ops, e = ⟨x.src, x.dst, K * x.weight + 1⟩) (hK : ig.numNodes ≤ K) (pq : PQ)
    {s t : Nat} {p : ShortestPath} (h : calcPath P pq fg s t = .ok (some p)) :
    IsWalk (edgesOf (accepted ops)) p.nodes (p.weight / K) ∧ p.nodes.head? = some s ∧ p.nodes.getLast? = some t ∧
      ∀ l w, IsWalk (edgesOf (accepted ops)) l w → l.head? = some s → l.getLast? = some t →
        p.weight / K < w ∨ p.weight / K = w ∧ p.nodes.length ≤ l.length := by
  have hs : s < ig.numNodes := (query_answer hP hc (query_single h)).1.sl (s, 0) (by simp)
  obtain ⟨h1, h2, h3, h4⟩ := (C121_two_criteria (K := K) (C := 1) (L := (accepted ops).map (·, 1)) hP hc
    (by
      intro e
      rw [hm]
      constructor
      · rintro ⟨x, hx, rfl⟩
        exact ⟨(x, 1), List.mem_map.2 ⟨x, hx, rfl⟩, rfl⟩
      · rintro ⟨y, hy, rfl⟩
        obtain ⟨x, hx, rfl⟩ := List.mem_map.1 hy
        exact ⟨x, hx, rfl⟩)
    (by
      intro x hx
      obtain ⟨y, _, rfl⟩ := List.mem_map.1 hx
      exact Nat.le_refl _) (by omega) pq h).2 p rfl
  obtain ⟨k1, k2⟩ := biWalk_ones.1 h1
  refine ⟨k1, h2, h3, ?_⟩
  intro l w hl j1 j2
  have hlen : l.length - 1 + 1 = l.length := by
    match l, hl with
    | _ :: _, _ => simp
  rcases h4 l w (l.length - 1) (biWalk_ones.2 ⟨hl, hlen⟩) j1 j2 with h | h
  · exact Or.inl h
  · exact Or.inr ⟨h.1, by omega⟩

/-- Two lightest paths from 0 to 3, of weight 4: over 1 and 2, and over 4. -/
def Ex.tieOps : List Op :=
  [.addEdge 0 1 1, .addEdge 1 2 1, .addEdge 2 3 2, .addEdge 0 4 3, .addEdge 4 3 1, .freeze]

/-- Its weights times ten, plus one. -/
def Ex.tieOps10 : List Op :=
  [.addEdge 0 1 11, .addEdge 1 2 11, .addEdge 2 3 21, .addEdge 0 4 31, .addEdge 4 3 11, .freeze]

def Ex.tieIg : InputGraph := ⟨[⟨0, 1, 11⟩, ⟨0, 4, 31⟩, ⟨1, 2, 11⟩, ⟨2, 3, 21⟩, ⟨4, 3, 11⟩], 5, true⟩
def Ex.tieFg : FastGraph := ⟨5, [4, 3, 2, 0, 1], [], [0, 0, 0, 0, 0, 0],
  [⟨3, 2, 21, Ex.inv, Ex.inv⟩, ⟨3, 4, 11, Ex.inv, Ex.inv⟩, ⟨4, 0, 31, Ex.inv, Ex.inv⟩, ⟨2, 1, 11, Ex.inv, Ex.inv⟩,
    ⟨1, 0, 11, Ex.inv, Ex.inv⟩], [0, 2, 3, 4, 5, 5]⟩

theorem example_tie : Client debug64 Ex.tieOps10 Ex.tieIg Ex.tieFg := ⟨rfl, rfl, .default binaryHeap listQueue Ex.rel rfl⟩

/-- a concrete case: the path with fewer edges is returned -/
example : calcPath debug64 binaryHeap Ex.tieFg 0 3 = .ok (some ⟨0, 3, 42, [0, 4, 3]⟩) ∧
    IsWalk (edgesOf (accepted Ex.tieOps)) [0, 4, 3] 4 ∧ ∀ l w, IsWalk (edgesOf (accepted Ex.tieOps)) l w → l.head? = some 0 →
      l.getLast? = some 3 → 4 < w ∨ 4 = w ∧ 3 ≤ l.length := by
  have h := C121_fewest_edges (ops := Ex.tieOps) (K := 10) (s := 0) (t := 3) (p := ⟨0, 3, 42, [0, 4, 3]⟩) rfl example_tie ?_
    (show 5 ≤ 10 by decide) binaryHeap rfl
  · exact ⟨rfl, h.1, h.2.2.2⟩
  have h1 : accepted Ex.tieOps10 = [⟨0, 1, 11⟩, ⟨1, 2, 11⟩, ⟨2, 3, 21⟩, ⟨0, 4, 31⟩, ⟨4, 3, 11⟩] := rfl
  have h2 : accepted Ex.tieOps = [⟨0, 1, 1⟩, ⟨1, 2, 1⟩, ⟨2, 3, 2⟩, ⟨0, 4, 3⟩, ⟨4, 3, 1⟩] := rfl
  intro e
  simp [h1, h2]

/-- Another case: tolls first, then lengths. The toll of 1 for the short edge from 0 to 1 is avoided, that of 2 for the only edge to 3
is not. -/
def Ex.tolls : List (Edge × Nat) := [(⟨0, 1, 1⟩, 7), (⟨0, 2, 0⟩, 20), (⟨2, 1, 0⟩, 15), (⟨1, 3, 2⟩, 30)]
def Ex.tollOps : List Op := [.addEdge 0 1 1007, .addEdge 0 2 20, .addEdge 2 1 15, .addEdge 1 3 2030, .freeze]
def Ex.tollIg : InputGraph := ⟨[⟨0, 1, 1007⟩, ⟨0, 2, 20⟩, ⟨1, 3, 2030⟩, ⟨2, 1, 15⟩], 4, true⟩
def Ex.tollFg : FastGraph := ⟨4, [1, 3, 2, 0], [⟨0, 1, 1007, Ex.inv, Ex.inv⟩, ⟨0, 2, 20, Ex.inv, Ex.inv⟩, ⟨2, 1, 15, Ex.inv, Ex.inv⟩],
  [0, 0, 2, 3, 3], [⟨3, 1, 2030, Ex.inv, Ex.inv⟩], [0, 1, 1, 1, 1]⟩

theorem example_toll : Client debug64 Ex.tollOps Ex.tollIg Ex.tollFg := ⟨rfl, rfl, .default binaryHeap listQueue Ex.rel rfl⟩

example : BiWalk Ex.tolls [0, 2, 1, 3] 2 65 ∧
    ∀ l a b, BiWalk Ex.tolls l a b → l.head? = some 0 → l.getLast? = some 3 → 2 < a ∨ 2 = a ∧ 65 ≤ b := by
  have h := (C121_two_criteria (K := 1000) (C := 30) (L := Ex.tolls) (s := 0) (t := 3) (r := some ⟨0, 3, 2065, [0, 2, 1, 3]⟩) rfl
    example_toll ?_ (by simp [Ex.tolls]) (by decide) binaryHeap rfl).2 _ rfl
  · exact ⟨h.1, h.2.2.2⟩
  have h1 : accepted Ex.tollOps = [⟨0, 1, 1007⟩, ⟨0, 2, 20⟩, ⟨2, 1, 15⟩, ⟨1, 3, 2030⟩] := rfl
  intro e
  simp [h1, Ex.tolls]

end FP.Props
