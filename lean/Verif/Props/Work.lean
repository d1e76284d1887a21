import Verif.Proofs.SearchLog
import Verif.Props.SearchSpace
/-!
# The work of a query

Pushes and pops of the two heaps of a query. `Spec.logged` is a heap that writes them down.
-/
set_option autoImplicit false
namespace FP
namespace Props
open Spec

/-- **C72** A query with logs does the same as the query: same answer or panic, same calculator afterwards. -/
theorem C72_logs_change_nothing (P : Plat) {pq : PQ} (c : PathCalculator pq) (fg : FastGraph) (S T : List (Nat × Nat)) :
    c.calcPathMulti P fg S T = ((withLogs c).calcPathMulti P fg S T >>= fun r => .ok (unlog r.1, r.2)) :=
  unlog_calcPathMulti (withLogs c) S T

theorem work_of_query {P : Plat} (hP : P.checked = true) {ops : List Op} {ig : InputGraph} {fg : FastGraph}
    (hc : Client P ops ig fg) {pq : PQ} {history : List Request} {S T : List (Nat × Nat)} {c : PathCalculator (logged pq)}
    {r : Option ShortestPath}
    (hq : (withLogs (runRequestsU P (PathCalculator.new P pq fg.getNumNodes) history)).calcPathMulti P fg S T = .ok (c, r)) :
    HeapWork S (fun x => numStored (storedOut fg x)) (Labelled c.fwd) (Expanded c.fwd) (pushes c.fwd) (pops c.fwd) ∧
      HeapWork T (fun x => numStored (storedIn fg x)) (Labelled c.bwd) (Expanded c.bwd) (pushes c.bwd) (pops c.bwd) ∧
      (∀ x, Expanded c.fwd x → x < ig.numNodes) ∧ ∀ x, Expanded c.bwd x → x < ig.numNodes := by
  have hg := hc.good hP
  have hn : fg.getNumNodes = ig.numNodes := hg.num
  rw [hn] at hq
  have hco := (runRequestsU_ok (P := P) history _ (CalcOk.new P pq ig.numNodes)).withLogs
  obtain ⟨best, _, _, k1, k2, k3, k4⟩ := calcPathMulti_linv hP hg hco hq
  obtain ⟨⟨l1, l2⟩, l3, l4⟩ := calcPathMulti_log hP hg hco hq
  refine ⟨heapWork l1 l2 k3 (fun x hx => numStored_out hg hx), heapWork l3 l4 k4 (fun x hx => numStored_in hg hx), ?_, ?_⟩
  · intro x hx
    obtain ⟨d, q, _⟩ := (expanded_iff k1.tab).1 hx
    exact k1.tab.look_lt q
  · intro x hx
    obtain ⟨d, q, _⟩ := (expanded_iff k2.tab).1 hx
    exact k2.tab.look_lt q

/-- **C72** The forward search. -/
theorem C72_forward_work {P : Plat} (hP : P.checked = true) {ops : List Op} {ig : InputGraph} {fg : FastGraph}
    (hc : Client P ops ig fg) (pq : PQ) (history : List Request) {S T : List (Nat × Nat)} {c : PathCalculator (logged pq)}
    {r : Option ShortestPath}
    (hq : (withLogs (runRequestsU P (PathCalculator.new P pq fg.getNumNodes) history)).calcPathMulti P fg S T = .ok (c, r)) :
    HeapWork S (fun x => numStored (storedOut fg x)) (Labelled c.fwd) (Expanded c.fwd) (pushes c.fwd) (pops c.fwd) :=
  (work_of_query hP hc hq).1

/-- **C72** The backward search. -/
theorem C72_backward_work {P : Plat} (hP : P.checked = true) {ops : List Op} {ig : InputGraph} {fg : FastGraph}
    (hc : Client P ops ig fg) (pq : PQ) (history : List Request) {S T : List (Nat × Nat)} {c : PathCalculator (logged pq)}
    {r : Option ShortestPath}
    (hq : (withLogs (runRequestsU P (PathCalculator.new P pq fg.getNumNodes) history)).calcPathMulti P fg S T = .ok (c, r)) :
    HeapWork T (fun x => numStored (storedIn fg x)) (Labelled c.bwd) (Expanded c.bwd) (pushes c.bwd) (pops c.bwd) :=
  (work_of_query hP hc hq).2.1

/-- **C72** No query pushes more than its sources and targets and the edges of the prepared graph. -/
theorem C72_total {P : Plat} (hP : P.checked = true) {ops : List Op} {ig : InputGraph} {fg : FastGraph}
    (hc : Client P ops ig fg) (pq : PQ) (history : List Request) {S T : List (Nat × Nat)} {c : PathCalculator (logged pq)}
    {r : Option ShortestPath}
    (hq : (withLogs (runRequestsU P (PathCalculator.new P pq fg.getNumNodes) history)).calcPathMulti P fg S T = .ok (c, r)) :
    (pushes c.fwd).length ≤ S.length + fg.getNumOutEdges ∧ (pushes c.bwd).length ≤ T.length + fg.getNumInEdges := by
  have hg := hc.good hP
  obtain ⟨h1, h2, h3, h4⟩ := work_of_query hP hc hq
  have e1 : (List.range ig.numNodes).map (fun x => numStored (storedOut fg x)) =
      (List.range ig.numNodes).map (fun x => fg.eo x - fg.bo x) :=
    List.map_congr_left (fun x hx => numStored_out hg (List.mem_range.1 hx))
  have e2 : (List.range ig.numNodes).map (fun x => numStored (storedIn fg x)) =
      (List.range ig.numNodes).map (fun x => fg.flip.eo x - fg.flip.bo x) :=
    List.map_congr_left (fun x hx => numStored_in hg (List.mem_range.1 hx))
  have q1 := h1.few (List.range ig.numNodes) (fun x hx => List.mem_range.2 (h3 x hx))
  have q2 := h2.few (List.range ig.numNodes) (fun x hx => List.mem_range.2 (h4 x hx))
  rw [e1, hg.toShape.sum_out] at q1
  rw [e2, hg.toShape.flip.sum_out] at q2
  exact ⟨q1, q2⟩

/-- **C72** A node that is both a source and a target bounds the search: no node above the sum of its two initial weights is expanded,
in neither direction. -/
theorem C72_common_node_bounds {P : Plat} (hP : P.checked = true) {ops : List Op} {ig : InputGraph} {fg : FastGraph}
    (hc : Client P ops ig fg) (pq : PQ) (history : List Request) {S T : List (Nat × Nat)} {c : PathCalculator pq}
    {r : Option ShortestPath}
    (hq : (runRequestsU P (PathCalculator.new P pq fg.getNumNodes) history).calcPathMulti P fg S T = .ok (c, r))
    {v a b : Nat} (hS : (v, a) ∈ S) (hT : (v, b) ∈ T) (ha : a < P.umax) (hb : b < P.umax) {x w : Nat}
    (hx : Labelled c.fwd x w ∧ Expanded c.fwd x ∨ Labelled c.bwd x w ∧ Expanded c.bwd x) : w ≤ a + b := by
  have hg := hc.good hP
  have hn : fg.getNumNodes = ig.numNodes := hg.num
  rw [hn] at hq
  have hco := runRequestsU_ok (P := P) history _ (CalcOk.new P pq ig.numNodes)
  obtain ⟨best, _, _, k1, k2, k3, k4⟩ := calcPathMulti_linv hP hg hco hq
  obtain ⟨m, em, b1, b2⟩ := calcPathMulti_below hP hg hco hq
  have hm := initialMeeting_le hP em hS hT ha hb
  rcases hx with ⟨h1, h2⟩ | ⟨h1, h2⟩
  · obtain ⟨d, q1, rfl⟩ := (labelled_iff k1.tab).1 h1
    obtain ⟨d', q2, q3⟩ := (expanded_iff k1.tab).1 h2
    rw [q1] at q2; cases q2
    exact Nat.le_trans (b1 x d q1 q3) hm
  · obtain ⟨d, q1, rfl⟩ := (labelled_iff k2.tab).1 h1
    obtain ⟨d', q2, q3⟩ := (expanded_iff k2.tab).1 h2
    rw [q1] at q2; cases q2
    exact Nat.le_trans (b2 x d q1 q3) hm

/-! ### The example of C71, once more -/

namespace Space

/-- the calculator after the query from node 0 to node 3, with logs -/
def logs : PathCalculator (logged binaryHeap) where
  numNodes := 5
  fwd := ⟨fwd.data, fwd.flags, (binaryHeap.empty, [⟨7, 3⟩, ⟨50, 4⟩, ⟨1, 2⟩, ⟨4, 1⟩, ⟨0, 0⟩], [⟨50, 4⟩, ⟨7, 3⟩, ⟨4, 1⟩, ⟨1, 2⟩, ⟨0, 0⟩])⟩
  bwd := ⟨bwd.data, bwd.flags, (binaryHeap.empty, [⟨0, 3⟩], [⟨0, 3⟩])⟩

theorem loggedQuery : (withLogs (runRequestsU debug64 (PathCalculator.new debug64 binaryHeap 5) [])).calcPathMulti debug64 fg
    [(0, 0)] [(3, 0)] = .ok (logs, some ⟨0, 3, 7, [0, 2, 1, 3]⟩) := rfl

end Space

example : HeapWork [(0, 0)] (fun x => numStored (storedOut Space.fg x)) (Labelled Space.logs.fwd) (Expanded Space.logs.fwd)
    [⟨0, 0⟩, ⟨4, 1⟩, ⟨1, 2⟩, ⟨50, 4⟩, ⟨7, 3⟩] [⟨0, 0⟩, ⟨1, 2⟩, ⟨4, 1⟩, ⟨7, 3⟩, ⟨50, 4⟩] :=
  C72_forward_work rfl Space.client binaryHeap [] Space.loggedQuery
example : HeapWork [(3, 0)] (fun x => numStored (storedIn Space.fg x)) (Labelled Space.logs.bwd) (Expanded Space.logs.bwd)
    [⟨0, 3⟩] [⟨0, 3⟩] :=
  C72_backward_work rfl Space.client binaryHeap [] Space.loggedQuery
/-- The bound by the expanded nodes is attained: node 0 has three edges, node 2 one, node 3 none, and there is one source. -/
example : (pushes Space.logs.fwd).length = 1 + ([0, 2, 3].map (fun x => numStored (storedOut Space.fg x))).sum ∧
    Expanded Space.logs.fwd 0 ∧ Expanded Space.logs.fwd 2 ∧ Expanded Space.logs.fwd 3 := ⟨rfl, rfl, rfl, rfl⟩
example : 5 ≤ 1 + 6 ∧ 1 ≤ 1 + 1 := C72_total rfl Space.client binaryHeap [] Space.loggedQuery
example : (PathCalculator.new debug64 binaryHeap 5).calcPathMulti debug64 Space.fg [(0, 0)] [(3, 0)] =
    .ok (unlog Space.logs, some ⟨0, 3, 7, [0, 2, 1, 3]⟩) := by
  rw [C72_logs_change_nothing, show withLogs (PathCalculator.new debug64 binaryHeap 5) =
    withLogs (runRequestsU debug64 (PathCalculator.new debug64 binaryHeap 5) []) from rfl, Space.loggedQuery]
  rfl

/-- From node 0 (or node 2 at weight 3) to node 0 at weight 2: only nodes up to weight 2 are expanded, so node 2 at weight 1 but not
node 3, node 4 and node 1 (weights 7, 50 and 4). -/
def Space.own : PathCalculator binaryHeap where
  numNodes := 5
  fwd := ⟨[⟨true, 0, 0, Ex.inv⟩, ⟨false, 4, 0, 0⟩, ⟨true, 1, 0, 1⟩, ⟨false, 7, 2, 5⟩, ⟨false, 50, 0, 2⟩], ⟨[2, 2, 2, 2, 2], 2⟩,
    binaryHeap.empty⟩
  bwd := ⟨[⟨true, 2, 0, Ex.inv⟩, ⟨false, Ex.inv, Ex.inv, Ex.inv⟩, ⟨false, Ex.inv, Ex.inv, Ex.inv⟩,
    ⟨false, Ex.inv, Ex.inv, Ex.inv⟩, ⟨false, Ex.inv, Ex.inv, Ex.inv⟩], ⟨[2, 0, 0, 0, 0], 2⟩, binaryHeap.empty⟩

theorem Space.ownQuery : (runRequestsU debug64 (PathCalculator.new debug64 binaryHeap 5) []).calcPathMulti debug64 Space.fg
    [(0, 0), (2, 3)] [(0, 2)] = .ok (Space.own, some ⟨0, 0, 2, [0]⟩) := rfl

example : 1 ≤ 0 + 2 :=
  C72_common_node_bounds rfl Space.client binaryHeap [] Space.ownQuery (v := 0) (by decide) (by decide) (by decide) (by decide)
    (x := 2) (Or.inl ⟨⟨rfl, _, rfl, rfl⟩, rfl⟩)
example : ¬ Expanded Space.own.fwd 3 ∧ ¬ Expanded Space.own.fwd 4 ∧ ¬ Expanded Space.own.fwd 1 := ⟨nofun, nofun, nofun⟩

end Props
end FP
