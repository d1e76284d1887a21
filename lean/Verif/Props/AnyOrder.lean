import Verif.Proofs.AnyOrder
import Verif.Props.Preparation
import Verif.Props.EndToEnd
/-!
# Orders with repeated nodes (C31)

`C31_false` shows that an order with repetitions can be accepted. These theorems say what such an order does: it cannot be harmless on
a graph whose nodes can all be reached from each other.
-/
set_option autoImplicit false
namespace FP
namespace Props
open Spec

/-- **C31, what holds** If an order of the right length repeats the node `d` and leaves out the node `m`, and the preparation returns, no query
from `m` to `d` is answered correctly: it panics, finds nothing, or returns a path that begins at the first node of the order and not
at `m`. So whenever `d` can be reached from `m`, the acceptance of the order was an error. (Missing for C31: the preparation does not
report it, see `C31_false`.) -/
theorem C31_repeated_and_missing_partial {P : Plat} (hP : P.checked = true) {ops : List Op} {ig : InputGraph}
    (hb : buildGraph P ops = .ok ig) (hf : ig.frozen = true) {pq pq' : PQ} {order : List Nat} {maxSettled : Nat} {fg : FastGraph}
    (hp : prepareWithOrderWithParams P pq ig order maxSettled = .ok (.ok fg)) {m d : Nat} (hm : m < ig.numNodes) (hmo : m ∉ order)
    (hd : 2 ≤ order.count d) {r : Option ShortestPath} (hq : calcPath P pq' fg m d = .ok r) :
    r = none ∨ ∃ p, r = some p ∧ order.head? = some p.source ∧ p.source ≠ m := by
  have hlt := C31_no_unknown_nodes_partial hp
  have hfr := (buildGraph_inv (Or.inl hP) hb).frozenOk hf
  have hlen : order.length = ig.numNodes := by
    by_contra hc
    obtain ⟨msg, h⟩ := (C11_err_iff_wrong_length P pq hf order maxSettled).2 hc
    rw [h] at hp
    cases hp
  unfold prepareWithOrderWithParams buildWithOrderWithParams at hp
  rw [getNumNodes_frozen hf] at hp
  simp only [bind_okM] at hp
  rw [if_neg (by simp [hlen])] at hp
  obtain ⟨fg', hr, hp⟩ := bind_eq_ok.1 hp
  cases hp
  cases order with
  | nil => simp at hd
  | cons first rest =>
    obtain ⟨_, hmix⟩ := runContractionWithOrder_mixed hP hfr hlen hlt maxSettled hr (first := first) rfl hm hmo hd
    cases r with
    | none => exact Or.inl rfl
    | some p =>
      unfold calcPath at hq
      obtain ⟨⟨c', r'⟩, h1, h2⟩ := bind_eq_ok.1 hq
      injection h2 with h2
      subst h2
      have := calcPath_mixed hmix (CalcOk.new P pq' fg.getNumNodes) h1
      exact Or.inr ⟨p, rfl, by rw [this]; rfl, by rw [this]; exact fun e => hmo (by rw [← e]; exact List.mem_cons_self)⟩

theorem missing_and_repeated {n : Nat} {order : List Nat} (hl : order.length = n) (hlt : ∀ v ∈ order, v < n)
    (hne : ¬ order.Perm (List.range n)) : (∃ m < n, m ∉ order) ∧ ∃ d < n, 2 ≤ order.count d := by
  have h1 : ¬ order.Nodup := fun h => hne (by
    refine (List.subperm_of_subset h (fun v hv => List.mem_range.2 (hlt v hv))).perm_of_length_le ?_
    rw [List.length_range]; omega)
  constructor
  · by_contra hc
    have hsub : ∀ m ∈ List.range n, m ∈ order := by
      intro m hm
      by_contra h
      exact hc ⟨m, List.mem_range.1 hm, h⟩
    exact hne ((List.subperm_of_subset List.nodup_range hsub).perm_of_length_le (by rw [List.length_range]; omega)).symm
  · by_contra hc
    refine h1 (List.nodup_iff_count_le_one.2 (fun d => ?_))
    by_contra h
    have hmem : d ∈ order := List.count_pos_iff.1 (by omega)
    exact hc ⟨d, hlt d hmem, by omega⟩

/-- **C31, what holds** On a graph in which every node can be reached from every other one, every accepted order that is not a
permutation makes some query go wrong. (Missing for C31: see `C31_false`; graphs with unreachable nodes.) -/
theorem C31_not_permutation_wrong_partial {P : Plat} (hP : P.checked = true) {ops : List Op} {ig : InputGraph}
    (hb : buildGraph P ops = .ok ig) (hf : ig.frozen = true) {pq : PQ} (pq' : PQ) {order : List Nat} {maxSettled : Nat} {fg : FastGraph}
    (hconn : ∀ s t, s < ig.numNodes → t < ig.numNodes → ∃ w, HasWalk (edgesOf (accepted ops)) s t w)
    (hp : prepareWithOrderWithParams P pq ig order maxSettled = .ok (.ok fg)) (hne : ¬ order.Perm (List.range ig.numNodes)) :
    ∃ s t, s < ig.numNodes ∧ t < ig.numNodes ∧ ¬ ∃ r, calcPath P pq' fg s t = .ok r ∧ Correct (edgesOf (accepted ops)) s t r := by
  have hlen : order.length = ig.numNodes := by
    by_contra hc
    obtain ⟨msg, h⟩ := (C11_err_iff_wrong_length P pq hf order maxSettled).2 hc
    rw [h] at hp
    cases hp
  obtain ⟨⟨m, hm, hmo⟩, d, hd, hd2⟩ := missing_and_repeated hlen (C31_no_unknown_nodes_partial hp) hne
  refine ⟨m, d, hm, hd, ?_⟩
  rintro ⟨r, hq, hr⟩
  rcases C31_repeated_and_missing_partial hP hb hf hp hm hmo hd2 hq with rfl | ⟨p, rfl, _, h⟩
  · obtain ⟨w, hw⟩ := hconn m d hm hd
    exact hr.1.1 rfl ⟨w, hw⟩
  · exact h (hr.2 p rfl).1

/-- **C31, exactly** On such a graph with weights that cannot overflow, the answers after preparing with an order are right exactly if
the order is a permutation. -/
theorem C31_right_iff_permutation_partial {P : Plat} (hP : P.checked = true) {ops : List Op} {ig : InputGraph}
    (hb : buildGraph P ops = .ok ig) (hf : ig.frozen = true) {W : Nat} (hW : ∀ e ∈ accepted ops, e.weight ≤ W)
    (hfit : 2 ^ (ig.numNodes + 2) * W ≤ P.umax) (hcap : ig.numNodes * ig.numNodes < P.umax) {pq : PQ} (pq' : PQ) {order : List Nat}
    {maxSettled : Nat} {fg : FastGraph}
    (hconn : ∀ s t, s < ig.numNodes → t < ig.numNodes → ∃ w, HasWalk (edgesOf (accepted ops)) s t w)
    (hp : prepareWithOrderWithParams P pq ig order maxSettled = .ok (.ok fg)) :
    (∀ s t, s < ig.numNodes → t < ig.numNodes → ∃ r, calcPath P pq' fg s t = .ok r ∧ Correct (edgesOf (accepted ops)) s t r) ↔
      order.Perm (List.range ig.numNodes) := by
  constructor
  · intro h
    by_contra hne
    obtain ⟨s, t, hs, ht, hn⟩ := C31_not_permutation_wrong_partial hP hb hf pq' hconn hp hne
    exact hn (h s t hs ht)
  · intro ho s t hs ht
    have hPd : P.debug = P := by
      cases P
      simp only at hP
      subst hP
      rfl
    obtain ⟨fg', h1, h2⟩ := C54_prepare_with_order_and_query (P := P) (by rw [hPd]; exact hb) hf hW hfit hcap pq ho maxSettled
    rw [hp] at h1
    cases h1
    exact h2 pq' s t hs ht

/-- A cycle of three nodes. -/
def cycle3 : List Op := [.addEdge 0 1 1, .addEdge 1 2 2, .addEdge 2 0 3, .freeze]

theorem cycle3_connected : ∀ s t, s < 3 → t < 3 → ∃ w, HasWalk (edgesOf (accepted cycle3)) s t w := by
  have e : ∀ u v w, (⟨u, v, w⟩ : Edge) ∈ accepted cycle3 → edgesOf (accepted cycle3) u v w := fun _ _ _ h => h
  have h01 := e 0 1 1 (by decide)
  have h12 := e 1 2 2 (by decide)
  have h20 := e 2 0 3 (by decide)
  intro s t hs ht
  have hs' : s = 0 ∨ s = 1 ∨ s = 2 := by omega
  have ht' : t = 0 ∨ t = 1 ∨ t = 2 := by omega
  rcases hs' with rfl | rfl | rfl <;> rcases ht' with rfl | rfl | rfl
  · exact ⟨0, [0], rfl, rfl, rfl⟩
  · exact ⟨1, [0, 1], ⟨1, 0, h01, rfl, rfl⟩, rfl, rfl⟩
  · exact ⟨3, [0, 1, 2], ⟨1, 2, h01, ⟨2, 0, h12, rfl, rfl⟩, rfl⟩, rfl, rfl⟩
  · exact ⟨5, [1, 2, 0], ⟨2, 3, h12, ⟨3, 0, h20, rfl, rfl⟩, rfl⟩, rfl, rfl⟩
  · exact ⟨0, [1], rfl, rfl, rfl⟩
  · exact ⟨2, [1, 2], ⟨2, 0, h12, rfl, rfl⟩, rfl, rfl⟩
  · exact ⟨3, [2, 0], ⟨3, 0, h20, rfl, rfl⟩, rfl, rfl⟩
  · exact ⟨4, [2, 0, 1], ⟨3, 1, h20, ⟨1, 0, h01, rfl, rfl⟩, rfl⟩, rfl, rfl⟩
  · exact ⟨0, [2], rfl, rfl, rfl⟩

/-- `[0, 1, 1]` is accepted for the cycle, so some answer is wrong; `[2, 0, 1]` gives right answers only. -/
example : ∃ ig fg, buildGraph debug64 cycle3 = .ok ig ∧ prepareWithOrderWithParams debug64 binaryHeap ig [0, 1, 1] 100 = .ok (.ok fg) ∧
    ∃ s t, s < 3 ∧ t < 3 ∧ ¬ ∃ r, calcPath debug64 binaryHeap fg s t = .ok r ∧ Correct (edgesOf (accepted cycle3)) s t r :=
  ⟨_, _, rfl, rfl, C31_not_permutation_wrong_partial rfl (pq := binaryHeap) (ops := cycle3) (ig := ⟨accepted cycle3, 3, true⟩) rfl rfl
    binaryHeap (order := [0, 1, 1]) (maxSettled := 100) cycle3_connected rfl (by decide)⟩
example : ∃ fg, prepareWithOrderWithParams debug64 binaryHeap ⟨accepted cycle3, 3, true⟩ [2, 0, 1] 100 = .ok (.ok fg) ∧
    ∀ s t, s < 3 → t < 3 → ∃ r, calcPath debug64 binaryHeap fg s t = .ok r ∧ Correct (edgesOf (accepted cycle3)) s t r :=
  ⟨_, rfl, (C31_right_iff_permutation_partial rfl (pq := binaryHeap) (ops := cycle3) (ig := ⟨accepted cycle3, 3, true⟩) rfl rfl (W := 3)
    (by decide) (by decide) (by decide) binaryHeap (order := [2, 0, 1]) (maxSettled := 100) cycle3_connected rfl).2 (by decide)⟩

/-- Without the assumption that all nodes are connected an order with a repetition can be harmless: here the nodes 1 and 2 have no edges,
1 is repeated and 2 is missing, and all queries return what they return for a permutation. -/
example : ∃ fg fg', prepareWithOrderWithParams debug64 binaryHeap ⟨[⟨0, 3, 5⟩], 4, true⟩ [1, 1, 0, 3] 100 = .ok (.ok fg) ∧
    prepareWithOrderWithParams debug64 binaryHeap ⟨[⟨0, 3, 5⟩], 4, true⟩ [1, 2, 0, 3] 100 = .ok (.ok fg') ∧
    ∀ s < 4, ∀ t < 4, calcPath debug64 binaryHeap fg s t = calcPath debug64 binaryHeap fg' s t := by
  refine ⟨_, _, rfl, rfl, ?_⟩
  decide +kernel

end Props
end FP
