import Verif.Proofs.HeavyRun
import Verif.Props.Bounds
import Verif.Props.Preparation
/-! # C104: the weights of shortcuts can grow exponentially

C33 needs weights so small that `2 ^ (n + 2) * W` fits into a `usize`. This is not an artefact of its proof: with every budget of at
least two settled nodes there are graphs and orders for which the weights of the shortcuts double every third contraction, although
all edges are light. -/
set_option autoImplicit false
namespace FP.Props
open Spec

/-- **C104, the graphs** With `m` levels and a budget of `k` there are `3 * m + k + 2` nodes, the edges weigh at most
`8 * m + 20`, and the order is a permutation of the nodes. -/
theorem C104_graph {P : Plat} (hP : P.checked = true) {m k : Nat} (hm : 3 ≤ m) (hk : 2 ≤ k) (hn : 3 * m + k + 2 ≤ P.umax) :
    ∃ ig, buildGraph P (addAll (Heavy.edges m k)) = .ok ig ∧ ig.frozen = true ∧ ig.numNodes = 3 * m + k + 2 ∧
      (∀ e ∈ accepted (addAll (Heavy.edges m k)), e.weight ≤ 8 * m + 20) ∧
      (Heavy.order m k).Perm (List.range ig.numNodes) := by
  obtain ⟨ig, h1, h2⟩ := HeavyP.build (P := P) hk hn
  have h3 := HeavyP.built_num hP h1 hk hm
  refine ⟨ig, h1, h2, h3, ?_, ?_⟩
  · rw [accepted_addAll HeavyP.edges_valid]
    exact HeavyP.edges_le
  · rw [h3]
    exact HeavyP.order_perm (by omega) hk

/-- The smallest graph of the family: 13 nodes, 39 edges, weights of at most 44. -/
example : ∃ ig, buildGraph debug64 (addAll (Heavy.edges 3 2)) = .ok ig ∧ ig.frozen = true ∧ ig.numNodes = 13 ∧
    (∀ e ∈ accepted (addAll (Heavy.edges 3 2)), e.weight ≤ 44) ∧ (Heavy.order 3 2).Perm (List.range ig.numNodes) :=
  C104_graph rfl (by decide) (by decide) (by decide)

example : (Heavy.edges 3 2).length = 39 := by decide +kernel

/-- **C104, doubling** A preparation with this order that returns has stored an edge of weight `2 ^ (m - 1) * (8 * m + 20)`. -/
theorem C104_weights_double {P : Plat} (hP : P.checked = true) (hodd : P.umax % 2 = 1) {m k : Nat} (hm : 3 ≤ m) (hk : 2 ≤ k)
    (hn : 3 * m + k + 2 ≤ P.umax) {ig : InputGraph} (hb : buildGraph P (addAll (Heavy.edges m k)) = .ok ig) {pq : PQ}
    {fg : FastGraph} (hp : prepareWithOrderWithParams P pq ig (Heavy.order m k) k = .ok (.ok fg)) :
    ∃ e ∈ fg.edgesBwd, e.weight = 2 ^ (m - 1) * (8 * m + 20) :=
  (HeavyP.stored hP hodd hk hm hn hb hp).2

/-- The hypotheses are met: the smallest graph of the family can be prepared on a 64 bit platform, and an edge of weight 176 is stored. -/
example : ∃ ig fg, buildGraph debug64 (addAll (Heavy.edges 3 2)) = .ok ig ∧
    prepareWithOrderWithParams debug64 binaryHeap ig (Heavy.order 3 2) 2 = .ok (.ok fg) ∧ ∃ e ∈ fg.edgesBwd, e.weight = 176 := by
  obtain ⟨ig, h1, h2, h3, h4, h5⟩ := C104_graph (P := debug64) rfl (m := 3) (k := 2) (by decide) (by decide) (by decide)
  obtain ⟨fg, h6⟩ := C33_prepare_with_order_with_params (P := debug64) (W := 44) h1 h2 h4
    (by rw [h3]; decide) (by rw [h3]; decide) binaryHeap h5 2
  exact ⟨ig, fg, h1, h6, C104_weights_double (P := debug64) rfl (by decide) (by decide) (by decide) (by decide) h1 h6⟩

/-- **C104, overflow** When that number does not fit into a `usize`, the preparation panics. -/
theorem C104_overflow {P : Plat} (hP : P.checked = true) (hodd : P.umax % 2 = 1) {m k : Nat} (hm : 3 ≤ m) (hk : 2 ≤ k)
    (hn : 3 * m + k + 2 ≤ P.umax) {ig : InputGraph} (hb : buildGraph P (addAll (Heavy.edges m k)) = .ok ig) (pq : PQ)
    (hbig : P.umax < 2 ^ (m - 1) * (8 * m + 20)) :
    prepareWithOrderWithParams P pq ig (Heavy.order m k) k = .error .overflow ∨
      prepareWithOrderWithParams P pq ig (Heavy.order m k) k = .error .capacity := by
  rcases C10_any_permutation_accepted hP hb (HeavyP.addAll_frozen hb) pq (order := Heavy.order m k)
    (by rw [HeavyP.built_num hP hb hk hm]; exact HeavyP.order_perm (by omega) hk) k with ⟨fg, h⟩ | h
  · have := (HeavyP.stored hP hodd hk hm hn hb h).1
    unfold Heavy.top at this
    omega
  · exact h

/-- On a 32 bit platform a budget of two nodes and 85 nodes suffice. -/
example : ∃ ig, buildGraph debug32 (addAll (Heavy.edges 27 2)) = .ok ig ∧ ig.numNodes = 85 ∧
    (prepareWithOrderWithParams debug32 binaryHeap ig (Heavy.order 27 2) 2 = .error .overflow ∨
      prepareWithOrderWithParams debug32 binaryHeap ig (Heavy.order 27 2) 2 = .error .capacity) := by
  obtain ⟨ig, h1, _, h3, _⟩ := C104_graph (P := debug32) rfl (m := 27) (k := 2) (by decide) (by decide) (by decide)
  exact ⟨ig, h1, h3, C104_overflow (P := debug32) rfl (by decide) (by decide) (by decide) (by decide) h1 binaryHeap (by decide)⟩

/-- **C104, the default budget** `prepare_with_order` on a 64 bit platform panics for a graph with 273 nodes and weights of at most
476. -/
theorem C104_default_budget (pq : PQ) : ∃ ig, buildGraph debug64 (addAll (Heavy.edges 57 100)) = .ok ig ∧ ig.frozen = true ∧
    ig.numNodes = 273 ∧ (∀ e ∈ accepted (addAll (Heavy.edges 57 100)), e.weight ≤ 476) ∧
    (Heavy.order 57 100).Perm (List.range 273) ∧
    ∃ e, prepareWithOrder debug64 pq ig (Heavy.order 57 100) = .error e ∧ (e = .overflow ∨ e = .capacity) := by
  obtain ⟨ig, h1, h2, h3, h4, h5⟩ := C104_graph (P := debug64) rfl (m := 57) (k := 100) (by decide) (by decide) (by decide)
  refine ⟨ig, h1, h2, h3, h4, by rw [h3] at h5; exact h5, ?_⟩
  rcases C104_overflow (P := debug64) rfl (by decide) (m := 57) (k := 100) (by decide) (by decide) (by decide) h1 pq
    (by decide) with h | h
  · exact ⟨_, h, Or.inl rfl⟩
  · exact ⟨_, h, Or.inr rfl⟩

/-- Two to the `m` exceeds the powers of a quadratic function of `m`. -/
theorem two_pow_exceeds (k d : Nat) : ∃ m, 3 ≤ m ∧ ((3 * m + k + 2) * (8 * m + 20)) ^ d < 2 ^ (m - 1) * (8 * m + 20) := by
  have hlin : ∀ i, 4 * (i + 6) + 9 ≤ 2 ^ (i + 6) := by
    intro i
    induction i with
    | zero => decide
    | succ i ih =>
      rw [show i + 1 + 6 = (i + 6) + 1 by omega, Nat.pow_succ]
      omega
  obtain ⟨i, hi⟩ : ∃ i, i = d + k + 2 := ⟨_, rfl⟩
  have h1 := hlin i
  obtain ⟨j, hj⟩ : ∃ j, j = i + 6 := ⟨_, rfl⟩
  rw [← hj] at h1
  obtain ⟨m, hmj⟩ : ∃ m, m = 2 ^ (2 * j) := ⟨_, rfl⟩
  have hsq : m = 2 ^ j * 2 ^ j := by rw [hmj, Nat.two_mul, Nat.pow_add]
  have hexp : d * (4 * j + 8) + 1 ≤ m := by
    rw [hsq]
    calc d * (4 * j + 8) + 1 ≤ j * (4 * j + 8) + j :=
          Nat.add_le_add (Nat.mul_le_mul_right _ (by omega)) (by omega)
      _ = j * (4 * j + 9) := (Nat.mul_succ j (4 * j + 8)).symm
      _ ≤ 2 ^ j * 2 ^ j := Nat.mul_le_mul (by omega) h1
  have hkm : 2 ^ j ≤ m := by
    rw [hsq]
    exact Nat.le_mul_of_pos_left _ (Nat.two_pow_pos j)
  refine ⟨m, by omega, ?_⟩
  have h2 : 3 * m + k + 2 ≤ 2 ^ (2 * j + 3) := by
    rw [Nat.pow_add, ← hmj]
    omega
  have h3 : 8 * m + 20 ≤ 2 ^ (2 * j + 5) := by
    rw [Nat.pow_add, ← hmj]
    omega
  calc ((3 * m + k + 2) * (8 * m + 20)) ^ d ≤ (2 ^ (2 * j + 3) * 2 ^ (2 * j + 5)) ^ d :=
        Nat.pow_le_pow_left (Nat.mul_le_mul h2 h3) d
    _ = 2 ^ (d * (4 * j + 8)) := by
        rw [← Nat.pow_add, ← Nat.pow_mul, Nat.mul_comm, show 2 * j + 3 + (2 * j + 5) = 4 * j + 8 by omega]
    _ ≤ 2 ^ (m - 1) := Nat.pow_le_pow_right (by decide) (by omega)
    _ < 2 ^ (m - 1) * (8 * m + 20) := by
        have := Nat.two_pow_pos (m - 1)
        exact (Nat.lt_mul_iff_one_lt_right this).2 (by omega)

/-- **C104, no polynomial bound** Whatever the budget, no power of `n * W` bounds the stored weights, `n` being the number of nodes
and `W` the largest weight. -/
theorem C104_no_polynomial_bound (k : Nat) (hk : 2 ≤ k) (d : Nat) : ∃ (P : Plat) (ops : List Op) (ig : InputGraph) (fg : FastGraph)
    (order : List Nat) (W : Nat), P.checked = true ∧ buildGraph P ops = .ok ig ∧ order.Perm (List.range ig.numNodes) ∧
      prepareWithOrderWithParams P binaryHeap ig order k = .ok (.ok fg) ∧ (∀ e ∈ accepted ops, e.weight ≤ W) ∧
      ∃ e ∈ fg.edgesBwd, (ig.numNodes * W) ^ d < e.weight := by
  obtain ⟨m, hm, hbig⟩ := two_pow_exceeds k d
  obtain ⟨n, hn⟩ : ∃ n, n = 3 * m + k + 2 := ⟨_, rfl⟩
  obtain ⟨U, hU⟩ : ∃ U, U = 2 ^ (n + 2) * (8 * m + 20) + n * n := ⟨_, rfl⟩
  have hsmall : n ≤ n * n := Nat.le_mul_self n
  obtain ⟨ig, h1, h2, h3, h4, h5⟩ := C104_graph (P := ⟨2 * U + 1, true⟩) rfl hm hk (by show _ ≤ 2 * U + 1; omega)
  obtain ⟨fg, h6⟩ := C33_prepare_with_order_with_params (P := ⟨2 * U + 1, true⟩) (W := 8 * m + 20) h1 h2 h4
    (by rw [h3, ← hn]; show _ ≤ 2 * U + 1; omega) (by rw [h3, ← hn]; show _ < 2 * U + 1; omega) binaryHeap h5 k
  refine ⟨⟨2 * U + 1, true⟩, _, ig, fg, Heavy.order m k, 8 * m + 20, rfl, h1, h5, h6, h4, ?_⟩
  obtain ⟨e, he, hw⟩ := C104_weights_double (P := ⟨2 * U + 1, true⟩) rfl (by show (2 * U + 1) % 2 = 1; omega) hm hk
    (by show _ ≤ 2 * U + 1; omega) h1 h6
  exact ⟨e, he, by rw [hw, h3]; exact hbig⟩

end FP.Props
