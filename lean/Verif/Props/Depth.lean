import Verif.Proofs.Depth
import Verif.Props.Simple
import Verif.Props.Input
import Verif.Props.Order
/-!
# Depth of the recursion of a query

`unpack_fwd` and `unpack_bwd` (path_calculator.rs:269-335) call themselves and each other. C17 says that the number of nodes bounds the
depth. Here: the bound is attained. For a line of `m + 1` nodes and the order that takes the inner nodes one after the other the
recursion is exactly `m` calls deep, so the stack a query needs grows with the graph.
-/
set_option autoImplicit false
namespace FP
namespace Props
open Spec

/-- The line 0 → 1 → … → m. -/
def lineOps (m : Nat) : List Op := (List.range m).map (fun i => .addEdge i (i + 1) 1) ++ [.freeze]

/-- The inner nodes in ascending order, then the two ends. -/
def lineOrder (m : Nat) : List Nat := List.range' 1 (m - 1) ++ [0, m]

example : lineOrder 5 = [1, 2, 3, 4, 0, 5] := rfl

private theorem line_accepted (m : Nat) (e : Edge) : e ∈ accepted (lineOps m) ↔ e.src < m ∧ e.dst = e.src + 1 ∧ e.weight = 1 := by
  unfold accepted lineOps
  simp only [List.flatMap_append, List.mem_append, List.mem_flatMap, List.mem_map, List.mem_range]
  constructor
  · rintro (⟨op, ⟨i, hi, rfl⟩, he⟩ | h)
    · simp [Op.edges] at he
      subst he
      exact ⟨hi, rfl, rfl⟩
    · simp [Op.edges] at h
  · obtain ⟨u, v, w⟩ := e
    rintro ⟨h1, h2, h3⟩
    simp only at h1 h2 h3
    subst h2; subst h3
    exact Or.inl ⟨_, ⟨u, h1, rfl⟩, by simp [Op.edges]⟩

private theorem line_adds {P : Plat} : ∀ m, 1 ≤ m → m < P.umax → ∃ g, forM (fun g op => Op.run P g op) InputGraph.new
    ((List.range m).map (fun i => Op.addEdge i (i + 1) 1)) = .ok g ∧ g.frozen = false ∧ g.numNodes = m + 1 := by
  intro m
  induction m with
  | zero => intro h; omega
  | succ m ih =>
    intro _ hlt
    have hlast : ∀ g : InputGraph, g.frozen = false → ∃ g', Op.run P g (.addEdge m (m + 1) 1) = .ok g' ∧ g'.frozen = false ∧
        g'.numNodes = max g.numNodes (m + 1 + 1) := by
      intro g hg
      have := ((C22_add_edge_effect (P := P) hg (s := m) (d := m + 1) (w := 1) (by omega) hlt).1 ⟨by omega, by omega⟩).1
      refine ⟨⟨g.edges ++ [⟨m, m + 1, 1⟩], max g.numNodes (max m (m + 1) + 1), false⟩, ?_, rfl, ?_⟩
      · unfold Op.run
        simp only
        rw [this]
        rfl
      · show max g.numNodes (max m (m + 1) + 1) = _
        rw [Nat.max_eq_right (by omega : m ≤ m + 1)]
    rw [List.range_succ, List.map_append, forM_append]
    rcases Nat.eq_zero_or_pos m with rfl | hpos
    · obtain ⟨g', h1, h2, h3⟩ := hlast InputGraph.new rfl
      refine ⟨g', ?_, h2, by rw [h3]; rfl⟩
      show forM _ InputGraph.new [Op.addEdge 0 1 1] = _
      rw [forM_cons, h1]
      rfl
    · obtain ⟨g, e, hg, hn⟩ := ih hpos (by omega)
      obtain ⟨g', h1, h2, h3⟩ := hlast g hg
      rw [e]
      refine ⟨g', ?_, h2, by rw [h3, hn]; omega⟩
      simp only [bind_okM, List.map_cons, List.map_nil]
      rw [forM_cons, h1]
      rfl

/-- The line can be built. -/
theorem line_built {P : Plat} {m : Nat} (hm : 1 ≤ m) (hlt : m < P.umax) :
    ∃ ig, buildGraph P (lineOps m) = .ok ig ∧ ig.frozen = true ∧ ig.numNodes = m + 1 := by
  obtain ⟨g, e, hg, hn⟩ := line_adds (P := P) m hm hlt
  refine ⟨{ g with edges := InputGraph.removeDuplicateEdges (InputGraph.sortEdges g.edges), frozen := true }, ?_, rfl, hn⟩
  unfold buildGraph lineOps
  rw [forM_append, e]
  simp only [bind_okM]
  rw [forM_cons]
  unfold Op.run InputGraph.freeze
  rw [hg]
  rfl

theorem lineOrder_perm {m : Nat} (hm : 1 ≤ m) : (lineOrder m).Perm (List.range (m + 1)) := by
  unfold lineOrder
  have h1 : List.range (m + 1) = 0 :: (List.range' 1 (m - 1) ++ [m]) := by
    obtain ⟨k, rfl⟩ : ∃ k, m = k + 1 := ⟨m - 1, by omega⟩
    rw [List.range_succ, List.range_eq_range', List.range'_succ]
    rfl
  rw [h1]
  exact List.perm_middle

private theorem line_ranks {m : Nat} (hm : 1 ≤ m) {fg : FastGraph}
    (hr : ∀ (j : Nat) v, (lineOrder m)[j]? = some v → fg.ranks[v]? = some j) : LineRanks m fg := by
  have key : ∀ (j : Nat) v, (lineOrder m)[j]? = some v → fg.rk v = j := by
    intro j v h
    unfold FastGraph.rk
    rw [hr j v h]
    rfl
  unfold lineOrder at key
  refine ⟨fun i h1 h2 => key (i - 1) i ?_, key (m - 1) 0 ?_, key m m ?_⟩
  · rw [List.getElem?_append_left (by simp; omega), List.getElem?_range' (by omega)]
    congr 1
    omega
  · rw [List.getElem?_append_right (by simp)]
    simp
  · rw [List.getElem?_append_right (by simp)]
    have : m - (List.range' 1 (m - 1)).length = 1 := by simp; omega
    rw [this]
    rfl

/-- **C84** However large the budget, the only edge a query from `0` to `m` can use (the one stored for node `0`; none is stored for
`m`) is unpacked with `m` nested calls, not fewer. -/
theorem C84_depth_is_needed {P : Plat} (hP : P.checked = true) {m : Nat} (hm : 1 ≤ m) (hlt : m < P.umax) {ig : InputGraph}
    (hb : buildGraph P (lineOps m) = .ok ig) {pq : PQ} {maxSettled : Nat} {fg : FastGraph}
    (hp : prepareWithOrderWithParams P pq ig (lineOrder m) maxSettled = .ok (.ok fg)) :
    (∃ i, fg.beginInEdges m = .ok i ∧ fg.endInEdges m = .ok i) ∧
    ∃ id, fg.beginOutEdges 0 = .ok id ∧ fg.endOutEdges 0 = .ok (id + 1) ∧ ∀ nodes reverse depth,
      (depth < m → PathCalculator.unpackFwd P fg depth nodes id reverse = .error .outOfFuel) ∧
      (m ≤ depth → ∃ l, PathCalculator.unpackFwd P fg depth nodes id reverse = .ok l) := by
  obtain ⟨ig', hb', hf, hn⟩ := line_built (P := P) hm hlt
  rw [hb] at hb'
  cases hb'
  have hi := buildGraph_inv (Or.inl hP) hb
  have hperm : (lineOrder m).Perm (List.range ig.numNodes) := by rw [hn]; exact lineOrder_perm hm
  obtain ⟨fg', e, hgood, _, hr⟩ := (buildWithOrder_built hP (hi.frozenOk hf) hperm _ (stepsOk_fresh pq P _ _)).of_ok hp
  cases e
  rw [hn] at hgood
  have hE : ∀ u v w, edgesOf ig.edges u v w → v = u + 1 := fun u v w he =>
    ((line_accepted m ⟨u, v, w⟩).1 (hi.sub _ he)).2.1
  have hw : ∀ k, k ≤ m → Wk (edgesOf (accepted (lineOps m))) 0 k k := by
    intro k
    induction k with
    | zero => intro _; exact .nil 0
    | succ k ih => intro hk; exact (ih (by omega)).append (Wk.single ((line_accepted m ⟨k, k + 1, 1⟩).2 ⟨hk, rfl, rfl⟩))
  obtain ⟨w, hle, hw⟩ := hi.walk_le (hw m (Nat.le_refl m))
  have hk := line_ranks hm hr
  obtain ⟨h1, h2, id, ed, h3, h4⟩ := line_top hgood hk hm hw (by omega)
  have hb0 := hgood.bo_le (by omega : 0 < m + 1)
  have hbm := hgood.bi_le (by omega : m < m + 1)
  refine ⟨⟨fg.bi m, hgood.beginIn (by omega), ?_⟩, id, ?_, ?_, ?_⟩
  · rw [hgood.endIn (by omega)]
    congr 1
    by_contra hne
    obtain ⟨ed, hat⟩ := hgood.inAt (by omega : m < m + 1) (Nat.le_refl _) (by omega : fg.bi m < fg.ei m)
    exact h1 _ _ hat
  · rw [hgood.beginOut (by omega)]
    obtain ⟨ed', hat⟩ := hgood.outAt (by omega : 0 < m + 1) (Nat.le_refl _) (by have := h3.1; have := h3.2.1; omega : fg.bo 0 < fg.eo 0)
    rw [hgood.onceF 0 (by omega) _ _ _ _ hat h3 (by rw [h2 _ _ hat, h4])]
  · rw [hgood.endOut (by omega)]
    have := h3.1
    have := h3.2.1
    obtain ⟨ed', hat⟩ := hgood.outAt (u := 0) (id := fg.eo 0 - 1) (by omega) (by omega) (by omega)
    have := hgood.onceF 0 (by omega) _ _ _ _ hat h3 (by rw [h2 _ _ hat, h4])
    congr 1
    omega
  · intro nodes reverse depth
    refine ⟨fun hd => line_deep_fwd hgood hE hk hd h3 h4 nodes reverse, fun hd => ?_⟩
    obtain ⟨L, _, h⟩ := (unpack_ok hgood.toFSound depth).1 0 (by omega) (by rw [hk.first]; omega) _ _ h3
    cases reverse
    · exact ⟨_, (h nodes).1⟩
    · exact ⟨_, (h nodes).2⟩

/-- **C84** Such graphs exist for every `m`, and the query is answered if the stack is large enough: the model has no limit. -/
theorem C84_line_is_prepared {P : Plat} (hP : P.checked = true) {m : Nat} (hm : 1 ≤ m) (hfit : 4 * m ≤ P.umax)
    (hcap : (m + 1) * (m + 1) < P.umax) (pq : PQ) :
    ∃ ig fg, buildGraph P (lineOps m) = .ok ig ∧ prepareWithOrderWithParams P pq ig (lineOrder m) (m + 2) = .ok (.ok fg) := by
  obtain ⟨umax, checked⟩ := P
  simp only at hP hfit hcap
  subst hP
  obtain ⟨ig, hb, hf, hn⟩ := line_built (P := ⟨umax, true⟩) hm (by simp only; omega)
  obtain ⟨fg, e⟩ := C64_prepare_with_order_with_params (P := ⟨umax, true⟩) hb hf (W := 1)
    (fun e he => by rw [((line_accepted m e).1 he).2.2]) (by rw [hn]; simp only; omega) (by rw [hn]; exact hcap) pq
    (order := lineOrder m) (by rw [hn]; exact lineOrder_perm hm) (maxSettled := m + 2) (by omega)
  exact ⟨ig, fg, hb, e⟩

/-- A million nodes: a query needs a million nested calls. -/
example : ∃ fg id, ∀ nodes reverse, PathCalculator.unpackFwd debug64 fg 999998 nodes id reverse = .error .outOfFuel ∧
    ∃ l, PathCalculator.unpackFwd debug64 fg 999999 nodes id reverse = .ok l := by
  obtain ⟨ig, fg, hb, hp⟩ := C84_line_is_prepared (P := debug64) (m := 999999) rfl (by decide) (by decide) (by decide) binaryHeap
  obtain ⟨_, id, _, _, h⟩ := C84_depth_is_needed (P := debug64) rfl (by decide) (by decide) hb hp
  exact ⟨fg, id, fun nodes reverse => ⟨(h nodes reverse 999998).1 (by decide), (h nodes reverse 999999).2 (by decide)⟩⟩

end Props
end FP
