import Verif.Proofs.SearchSpace
import Verif.Props.Unwind
/-!
# Which nodes a query visits

What the two label tables of a `PathCalculator` contain when a query returns. The calculator may have been used before, for any
graphs and arguments, and earlier queries may have panicked.
-/
set_option autoImplicit false
namespace FP
namespace Props
open Spec

/-- The weight of an answer, `usize::MAX` if there is none. -/
def answerWeight (P : Plat) : Option ShortestPath → Nat
  | some p => p.weight
  | none => P.umax

theorem space_of_query {P : Plat} (hP : P.checked = true) {ops : List Op} {ig : InputGraph} {fg : FastGraph}
    (hc : Client P ops ig fg) {pq : PQ} {history : List Request} {S T : List (Nat × Nat)} {c : PathCalculator pq}
    {r : Option ShortestPath}
    (hq : (runRequestsU P (PathCalculator.new P pq fg.getNumNodes) history).calcPathMulti P fg S T = .ok (c, r)) :
    SearchSpace P.umax (upEdges fg) (downEdges fg) S (answerWeight P r) (Labelled c.fwd) (Expanded c.fwd) ∧
      SearchSpace P.umax (downEdges fg) (upEdges fg) T (answerWeight P r) (Labelled c.bwd) (Expanded c.bwd) := by
  have hg := hc.good hP
  have hn : fg.getNumNodes = ig.numNodes := hg.num
  rw [hn] at hq
  obtain ⟨best, b1, b2, k1, k2, k3, k4⟩ := calcPathMulti_linv hP hg (runRequestsU_ok history _ (CalcOk.new P pq _)) hq
  have hb : best = answerWeight P r := by
    cases r with
    | none => exact b2 rfl
    | some p => exact b1 p rfl
  rw [hb] at k1 k2
  exact ⟨k1.space k3 (upEdges_iff hg) (downEdges_iff hg), k2.space k4 (downEdges_iff hg) (upEdges_iff hg)⟩

/-- **C71** The forward search: weights are initial weights, or weights of expanded nodes plus a stored edge from there, and the
smallest such ones. Expanded are exactly the nodes for which no stored in-edge offers less (stall-on-demand), except for nodes the
weight of which is above the weight of the answer. -/
theorem C71_forward_search {P : Plat} (hP : P.checked = true) {ops : List Op} {ig : InputGraph} {fg : FastGraph}
    (hc : Client P ops ig fg) (pq : PQ) (history : List Request) {S T : List (Nat × Nat)} {c : PathCalculator pq}
    {r : Option ShortestPath}
    (hq : (runRequestsU P (PathCalculator.new P pq fg.getNumNodes) history).calcPathMulti P fg S T = .ok (c, r)) :
    SearchSpace P.umax (upEdges fg) (downEdges fg) S (answerWeight P r) (Labelled c.fwd) (Expanded c.fwd) :=
  (space_of_query hP hc hq).1

/-- **C71** The backward search: the same with the directions exchanged. -/
theorem C71_backward_search {P : Plat} (hP : P.checked = true) {ops : List Op} {ig : InputGraph} {fg : FastGraph}
    (hc : Client P ops ig fg) (pq : PQ) (history : List Request) {S T : List (Nat × Nat)} {c : PathCalculator pq}
    {r : Option ShortestPath}
    (hq : (runRequestsU P (PathCalculator.new P pq fg.getNumNodes) history).calcPathMulti P fg S T = .ok (c, r)) :
    SearchSpace P.umax (downEdges fg) (upEdges fg) T (answerWeight P r) (Labelled c.bwd) (Expanded c.bwd) :=
  (space_of_query hP hc hq).2

/-- **C71** Only nodes are visited to which a path of stored edges leads up from a source or target, and their weights belong to
such paths and to walks of the input graph. -/
theorem C71_only_upwards {P : Plat} (hP : P.checked = true) {ops : List Op} {ig : InputGraph} {fg : FastGraph}
    (hc : Client P ops ig fg) (pq : PQ) (history : List Request) {S T : List (Nat × Nat)} {c : PathCalculator pq}
    {r : Option ShortestPath}
    (hq : (runRequestsU P (PathCalculator.new P pq fg.getNumNodes) history).calcPathMulti P fg S T = .ok (c, r)) :
    (∀ x w, Labelled c.fwd x w → ∃ s w₀ a, (s, w₀) ∈ S ∧ HasWalk (upEdges fg) s x a ∧
      HasWalk (edgesOf (accepted ops)) s x a ∧ w = w₀ + a) ∧
    ∀ x w, Labelled c.bwd x w → ∃ t w₀ a, (t, w₀) ∈ T ∧ HasWalk (downEdges fg) t x a ∧
      HasWalk (edgesOf (accepted ops)) x t a ∧ w = w₀ + a := by
  have hg := hc.good hP
  have hs := hg.toSGood
  have hi := hc.inv hP
  have hE : ∀ {u v w}, Wk (edgesOf ig.edges) u v w → Wk (edgesOf (accepted ops)) u v w := by
    intro u v w k
    exact k.mono (fun _ _ _ he => hi.sub _ he)
  obtain ⟨h1, h2⟩ := space_of_query hP hc hq
  constructor
  · intro x w hx
    obtain ⟨s, w₀, a, k1, k2, k3⟩ := h1.walk fg.rk (by
      intro x y e h
      obtain ⟨id, ed, q1, q2, rfl, rfl⟩ := (upEdges_iff hg).1 h
      exact (hs.up x q1 id ed q2).2.1) _ x w (Nat.lt_succ_self _) hx
    refine ⟨s, w₀, a, k1, hasWalk_iff.2 k2, hasWalk_iff.2 (hE ?_), k3⟩
    clear k1 k3 hx
    induction k2 with
    | nil s => exact .nil s
    | cons e _ ih =>
      obtain ⟨id, ed, q1, q2, rfl, rfl⟩ := (upEdges_iff hg).1 e
      exact (hs.up _ q1 id ed q2).2.2.append ih
  · intro x w hx
    obtain ⟨s, w₀, a, k1, k2, k3⟩ := h2.walk fg.rk (by
      intro x y e h
      obtain ⟨id, ed, q1, q2, rfl, rfl⟩ := (downEdges_iff hg).1 h
      exact (hs.dn x q1 id ed q2).2.1) _ x w (Nat.lt_succ_self _) hx
    refine ⟨s, w₀, a, k1, hasWalk_iff.2 k2, hasWalk_iff.2 (hE ?_), k3⟩
    clear k1 k3 hx
    induction k2 with
    | nil s => exact .nil s
    | @cons u v t a b e _ ih =>
      obtain ⟨id, ed, q1, q2, rfl, rfl⟩ := (downEdges_iff hg).1 e
      rw [Nat.add_comm]
      exact ih.append (hs.dn _ q1 id ed q2).2.2

/-! ### An example with a stalled node and a node above the answer -/

namespace Space

/-- the calls of the client -/
def ops : List Op :=
  [.addEdge 0 1 4, .addEdge 0 2 1, .addEdge 2 1 1, .addEdge 1 3 5, .addEdge 0 4 50, .addEdge 4 3 50, .freeze]

/-- the resulting graph -/
def ig : InputGraph where
  edges := [⟨0, 1, 4⟩, ⟨0, 2, 1⟩, ⟨0, 4, 50⟩, ⟨1, 3, 5⟩, ⟨2, 1, 1⟩, ⟨4, 3, 50⟩]
  numNodes := 5
  frozen := true

/-- result of `prepare_with_order` for the order 0, 1, 4, 2, 3 -/
def fg : FastGraph where
  numNodes := 5
  ranks := [0, 1, 3, 4, 2]
  edgesFwd := [⟨0, 1, 4, Ex.inv, Ex.inv⟩, ⟨0, 2, 1, Ex.inv, Ex.inv⟩, ⟨0, 4, 50, Ex.inv, Ex.inv⟩, ⟨1, 3, 5, Ex.inv, Ex.inv⟩,
    ⟨4, 3, 50, Ex.inv, Ex.inv⟩, ⟨2, 3, 6, 0, 3⟩]
  firstEdgeIdsFwd := [0, 3, 4, 5, 6, 6]
  edgesBwd := [⟨1, 2, 1, Ex.inv, Ex.inv⟩]
  firstEdgeIdsBwd := [0, 0, 1, 1, 1, 1]

/-- the label table of the forward search from node 0 to node 3: node 1 is stalled because of node 2, node 4 is above the answer -/
def fwd : Side binaryHeap where
  data := [⟨true, 0, 0, Ex.inv⟩, ⟨false, 4, 0, 0⟩, ⟨true, 1, 0, 1⟩, ⟨true, 7, 2, 5⟩, ⟨false, 50, 0, 2⟩]
  flags := ⟨[2, 2, 2, 2, 2], 2⟩
  heap := binaryHeap.empty

/-- the label table of the backward search -/
def bwd : Side binaryHeap where
  data := [⟨false, Ex.inv, Ex.inv, Ex.inv⟩, ⟨false, Ex.inv, Ex.inv, Ex.inv⟩, ⟨false, Ex.inv, Ex.inv, Ex.inv⟩,
    ⟨true, 0, 3, Ex.inv⟩, ⟨false, Ex.inv, Ex.inv, Ex.inv⟩]
  flags := ⟨[0, 0, 0, 2, 0], 2⟩
  heap := binaryHeap.empty

theorem client : Client debug64 ops ig fg :=
  ⟨rfl, rfl, .order binaryHeap [0, 1, 4, 2, 3] (by decide) rfl⟩

theorem query : (runRequestsU debug64 (PathCalculator.new debug64 binaryHeap 5) []).calcPathMulti debug64 fg [(0, 0)] [(3, 0)] =
    .ok (⟨5, fwd, bwd⟩, some ⟨0, 3, 7, [0, 2, 1, 3]⟩) := rfl

end Space

example : SearchSpace debug64.umax (upEdges Space.fg) (downEdges Space.fg) [(0, 0)] 7 (Labelled Space.fwd) (Expanded Space.fwd) :=
  C71_forward_search rfl Space.client binaryHeap [] Space.query
example : SearchSpace debug64.umax (downEdges Space.fg) (upEdges Space.fg) [(3, 0)] 7 (Labelled Space.bwd) (Expanded Space.bwd) :=
  C71_backward_search rfl Space.client binaryHeap [] Space.query
/-- node 1: weight 4, below the answer, not expanded, because node 2 has the weight 1 and an edge of weight 1 to node 1 -/
example : Labelled Space.fwd 1 4 ∧ ¬ Expanded Space.fwd 1 ∧ Labelled Space.fwd 2 1 ∧ downEdges Space.fg 1 2 1 ∧
    Expanded Space.fwd 2 :=
  ⟨⟨rfl, _, rfl, rfl⟩, nofun, ⟨rfl, _, rfl, rfl⟩, ⟨_, rfl, by decide⟩, rfl⟩
/-- node 4: not expanded because 50 is above the answer 7; no in-edge is stored for it -/
example : Labelled Space.fwd 4 50 ∧ ¬ Expanded Space.fwd 4 ∧ storedIn Space.fg 4 = .ok [] := ⟨⟨rfl, _, rfl, rfl⟩, nofun, rfl⟩
example : ∃ s w₀ a, (s, w₀) ∈ [(0, 0)] ∧ HasWalk (upEdges Space.fg) s 3 a ∧
    HasWalk (edgesOf (accepted Space.ops)) s 3 a ∧ 7 = w₀ + a :=
  (C71_only_upwards rfl Space.client binaryHeap [] Space.query).1 3 7 ⟨rfl, _, rfl, rfl⟩

end Props
end FP
