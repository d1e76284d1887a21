import Verif.Proofs.RefineTests
import Verif.Props.TestSuite
import Verif.Props.Release
/-! # C108: the references and the tests in builds without overflow checks -/
set_option autoImplicit false
namespace FP
namespace Props
open Spec TestSuite

theorem Ref.ok {α : Type} {m₁ m₂ : M α} (h : Ref m₁ m₂) {a : α} (e : m₁ = .ok a) : m₂ = .ok a := by
  rcases h with h | h | h <;> rw [e] at h
  · cases h
  · cases h
  · exact h.symm

/-- **C108, references** What Dijkstra and Floyd-Warshall return with overflow checks they return without. -/
theorem C108_references {P : Plat} :
    (∀ (pq : PQ) (d d' : Dijkstra pq) (g : PreparationGraph) (s t : Nat) (r : Option ShortestPath),
      d.calcPath P.debug g s t = .ok (d', r) → d.calcPath P g s t = .ok (d', r)) ∧
    (∀ (n : Nat) (ig : InputGraph) (fw : FloydWarshall), (do (← FloydWarshall.new P.debug n).prepare P.debug ig) = .ok fw →
      (do (← FloydWarshall.new P n).prepare P ig) = .ok fw) ∧
    ∀ (fw : FloydWarshall) (s t w : Nat), fw.calcWeight P.debug s t = .ok w → fw.calcWeight P s t = .ok w :=
  ⟨fun _ d _ g s t _ h => Ref.ok (Dijkstra.ref_calcPath P d g s t) h,
    fun n ig _ h => Ref.ok (Ref.bind (FloydWarshall.ref_new P n) (fun fw => FloydWarshall.ref_prepare P fw ig)) h,
    fun fw s t _ h => Ref.ok (FloydWarshall.ref_calcWeight P fw s t) h⟩

example : (do (← FloydWarshall.new release64 5).prepare release64 Ex.ig) = .ok exFw :=
  (C108_references (P := release64)).2.1 5 Ex.ig exFw exFw_eq
example : exFw.calcWeight release64 4 3 = .ok 7 := (C108_references (P := release64)).2.2 exFw 4 3 7 rfl
example : ∃ d' : Dijkstra binaryHeap, (Dijkstra.new release64 binaryHeap 5).calcPath release64 exPrep 0 4 = .ok (d', some Ex.path) :=
  ⟨_, (C108_references (P := release64)).1 binaryHeap (Dijkstra.new release64 binaryHeap 5) _ exPrep 0 4 (some Ex.path) rfl⟩

theorem heavy_walk {es : List Edge} {a b : Nat} (h : ∀ e ∈ es, e = ⟨0, 1, a⟩ ∨ e = ⟨1, 2, b⟩) {s t w : Nat}
    (hw : Wk (edgesOf es) s t w) : (s = 1 → t = 2 → b ≤ w) ∧ (s = 0 → t = 2 → a + b ≤ w) := by
  induction hw with
  | nil => omega
  | cons e _ ih =>
    rcases h _ e with k | k <;> cases k
    · have := ih.1 rfl; omega
    · omega

/-- **C108** Why "with overflow checks": without them sums go round. Here the edges from 0 to 1 and from 1 to 2 weigh `2 ^ 63` each and there
is no walk below `usize::MAX` from 0 to 2. Floyd-Warshall says 0, and so do the other two: the comparison does not notice. -/
theorem C108_wrapped : ∃ ops ig fw, buildGraph release64 ops = .ok ig ∧ ig.frozen = true ∧
    (do (← FloydWarshall.new release64 ig.numNodes).prepare release64 ig) = .ok fw ∧ fw.calcWeight release64 0 2 = .ok 0 ∧
    singleTest release64 binaryHeap listQueue ig [(0, 2)] = .ok 0 ∧ singleTest debug64 binaryHeap listQueue ig [(0, 2)] = .error .overflow ∧
    ∀ w, HasWalk (edgesOf (accepted ops)) 0 2 w → release64.umax < w := by
  refine ⟨[.addEdge 0 1 (2 ^ 63), .addEdge 1 2 (2 ^ 63), .freeze], ⟨[⟨0, 1, 2 ^ 63⟩, ⟨1, 2, 2 ^ 63⟩], 3, true⟩, _, rfl, rfl, rfl, rfl,
    by decide +kernel, by decide +kernel, ?_⟩
  intro w hw
  have := (heavy_walk (a := 2 ^ 63) (b := 2 ^ 63) (by decide) (hasWalk_iff.1 hw)).2 rfl rfl
  show 2 ^ 64 - 1 < _
  omega

/-- **C108, one source and one target** With small enough weights the comparison with Dijkstra and Floyd-Warshall cannot fail in release
builds either, and it counts the same paths. -/
theorem C108_single_test {P : Plat} {ops : List Op} {ig : InputGraph} (hb : buildGraph P.debug ops = .ok ig)
    (hf : ig.frozen = true) {W : Nat} (hW : ∀ e ∈ accepted ops, e.weight ≤ W) (hfit : 2 ^ (ig.numNodes + 2) * W ≤ P.umax)
    (hcap : ig.numNodes * ig.numNodes < P.umax) (hcnt : ig.numNodes * ig.numNodes ≤ I32_MAX) (pq : PQ) (nq : NodeQueue)
    {queries : List (Nat × Nat)} (hlen : queries.length ≤ I32_MAX)
    (hq : ∀ q ∈ queries, q.1 < ig.numNodes ∧ q.2 < ig.numNodes) :
    ∃ num, singleTest P pq nq ig queries = .ok num ∧ singleTest P.debug pq nq ig queries = .ok num ∧ 0 ≤ num ∧ num ≤ queries.length := by
  obtain ⟨num, e, h1, h2⟩ := C80_single_test_returns (P := P.debug) rfl hb hf hW hfit hcap hcnt pq nq hlen hq
  exact ⟨num, Ref.ok (ref_singleTest P ig queries) e, e, h1, h2⟩

/-- **C108, several sources and targets** -/
theorem C108_multi_test {P : Plat} {ops : List Op} {ig : InputGraph} (hb : buildGraph P.debug ops = .ok ig)
    (hf : ig.frozen = true) {W ws wt : Nat} (hW : ∀ e ∈ accepted ops, e.weight ≤ W) (hfit : 2 ^ (ig.numNodes + 2) * W ≤ P.umax)
    (hfit' : ws + wt + 2 ^ ig.numNodes * W ≤ P.umax)
    (hcap : ig.numNodes * ig.numNodes < P.umax) (hcnt : ig.numNodes * ig.numNodes ≤ I32_MAX) (pq : PQ) (nq : NodeQueue)
    {queries : List (List (Nat × Nat) × List (Nat × Nat))} (hlen : queries.length ≤ I32_MAX)
    (hq : ∀ q ∈ queries, q.1 ≠ [] ∧ q.2 ≠ [] ∧ (∀ x ∈ q.1, x.1 < ig.numNodes ∧ (x.2 < P.umax → x.2 ≤ ws)) ∧
      ∀ x ∈ q.2, x.1 < ig.numNodes ∧ (x.2 < P.umax → x.2 ≤ wt)) :
    ∃ num nf, multiTest P pq nq ig queries = .ok (num, nf) ∧ multiTest P.debug pq nq ig queries = .ok (num, nf) ∧
      0 ≤ num ∧ 0 ≤ nf ∧ num + nf ≤ queries.length := by
  obtain ⟨num, nf, e, h⟩ := C80_multi_test_returns (P := P.debug) rfl hb hf hW hfit hfit' hcap hcnt pq nq hlen hq
  exact ⟨num, nf, Ref.ok (ref_multiTest P ig queries) e, e, h⟩

theorem randomLoop_same {P : Plat} {k : Nat} (hk : k ≤ P.umax) : ∀ (draws : List (Nat × Nat × Nat)) (g : InputGraph) (c : Nat),
    (∀ d ∈ draws, d.1 < P.umax ∧ d.2.1 < P.umax) → c < k →
      InputGraph.randomLoop P.debug k draws g c = InputGraph.randomLoop P k draws g c := by
  intro draws
  induction draws with
  | nil => intros; rfl
  | cons d draws ih =>
    obtain ⟨head, tail, weight⟩ := d
    intro g c hd hc
    obtain ⟨l1, l2⟩ := hd _ (List.mem_cons_self ..)
    simp only at l1 l2
    have hadd : g.addEdge P.debug tail head weight = g.addEdge P tail head weight := by
      unfold InputGraph.addEdge InputGraph.doAddEdge
      rw [addW_ok (P := P) (by omega), addW_ok (P := P.debug) (by show _ ≤ P.umax; omega)]
    unfold InputGraph.randomLoop
    rw [hadd]
    cases e : g.addEdge P tail head weight with
    | error p => rfl
    | ok r =>
      obtain ⟨g1, j⟩ := r
      have hj : j ≤ 1 := by
        unfold InputGraph.addEdge InputGraph.doAddEdge at e
        rw [addW_ok (P := P) (by omega)] at e
        split at e
        · cases e
        · split at e
          · cases e; omega
          · split at e
            · cases e; omega
            · cases e; simp
      simp only [bind_okM]
      rw [addW_ok (P := P) (by omega), addW_ok (P := P.debug) (by show _ ≤ P.umax; omega)]
      simp only [bind_okM]
      by_cases hck : c + j = k
      · rw [if_pos (by simp [hck]), if_pos (by simp [hck])]
      · rw [if_neg (by simp [hck]), if_neg (by simp [hck])]
        exact ih g1 (c + j) (fun d hm => hd d (List.mem_cons_of_mem _ hm)) (by omega)

/-- **C108, random graphs** Overflow checks make no difference if edges are wanted and node ids are below `usize::MAX`. -/
theorem C108_random_graph {P : Plat} {draws : List (Nat × Nat × Nat)} {numNodes : Nat} {meanDegree : F32}
    (h0 : wanted P numNodes meanDegree ≠ 0) (hd : ∀ d ∈ draws, d.1 < P.umax ∧ d.2.1 < P.umax) :
    InputGraph.buildRandomGraph P draws numNodes meanDegree = InputGraph.buildRandomGraph P.debug draws numNodes meanDegree := by
  have hle : wanted P numNodes meanDegree ≤ P.umax := by
    unfold wanted F32.toUsize
    split
    · exact Nat.zero_le _
    · split <;> omega
    · exact Nat.min_le_right _ _
  have := randomLoop_same hle draws InputGraph.new 0 hd (by omega)
  unfold InputGraph.buildRandomGraph
  change _ = (do
    let g ← InputGraph.randomLoop P.debug (wanted P numNodes meanDegree) draws InputGraph.new 0
    g.freeze)
  rw [this]
  rfl

/-- **C108, `routing_on_random_graph` in a release build** fails only if more than 100 of the paths differ. -/
theorem C108_routing_on_random_graph (pq : PQ) (nq : NodeQueue) {draws : List (Nat × Nat × Nat)}
    (hd : ∀ d ∈ draws, d.1 < 50 ∧ d.2.1 < 50 ∧ d.2.2 < 100) {ig : InputGraph}
    (hig : InputGraph.buildRandomGraph release64 draws 50 (F32.ofInt 2) = .ok ig) {queries : List (Nat × Nat)}
    (hlen : queries.length = 1000) (hq : ∀ q ∈ queries, q.1 < ig.numNodes ∧ q.2 < ig.numNodes) :
    ∃ num, singleTest release64 pq nq ig queries = .ok num ∧ 0 ≤ num ∧ num ≤ 1000 ∧
      runTestOnRandomGraph release64 pq nq draws queries = if 100 < num then .error .assertion else .ok () := by
  have hu : release64.umax = 2 ^ 64 - 1 := rfl
  have hig' : InputGraph.buildRandomGraph debug64 draws 50 (F32.ofInt 2) = .ok ig :=
    (C108_random_graph (P := release64) (by decide +kernel) (fun d hm => by have := hd d hm; omega)).symm.trans hig
  obtain ⟨num, e, h1, h2, h3⟩ := C80_routing_on_random_graph pq nq hd hig' hlen hq
  refine ⟨num, Ref.ok (ref_singleTest release64 ig queries) e, h1, h2, ?_⟩
  rcases ref_runTestOnRandomGraph (pq := pq) (nq := nq) release64 draws queries with h | h | h
  · change runTestOnRandomGraph debug64 _ _ _ _ = _ at h
    rw [h3] at h
    split at h <;> cases h
  · change runTestOnRandomGraph debug64 _ _ _ _ = _ at h
    rw [h3] at h
    split at h <;> cases h
  · exact h.symm.trans h3

/-- **C108, `routing_with_multiple_sources_and_targets_on_random_graph` in a release build** -/
theorem C108_routing_with_multiple_sources_and_targets (pq : PQ) (nq : NodeQueue) {draws : List (Nat × Nat × Nat)}
    (hd : ∀ d ∈ draws, d.1 < 50 ∧ d.2.1 < 50 ∧ d.2.2 < 100) {ig : InputGraph}
    (hig : InputGraph.buildRandomGraph release64 draws 50 (F32.ofInt 2) = .ok ig)
    {queries : List (List (Nat × Nat) × List (Nat × Nat))} (hlen : queries.length = 1000)
    (hq : ∀ q ∈ queries, q.1.length = 3 ∧ q.2.length = 3 ∧
      ∀ x ∈ q.1 ++ q.2, x.1 < ig.numNodes ∧ (x.2 < 100 ∨ x.2 = release64.WEIGHT_MAX)) :
    ∃ num nf, multiTest release64 pq nq ig queries = .ok (num, nf) ∧ 0 ≤ num ∧ 0 ≤ nf ∧ num + nf ≤ 1000 ∧
      runMultiTestOnRandomGraph release64 pq nq draws queries = if 500 < nf ∨ 100 < num then .error .assertion else .ok () := by
  have hu : release64.umax = 2 ^ 64 - 1 := rfl
  have hig' : InputGraph.buildRandomGraph debug64 draws 50 (F32.ofInt 2) = .ok ig :=
    (C108_random_graph (P := release64) (by decide +kernel) (fun d hm => by have := hd d hm; omega)).symm.trans hig
  obtain ⟨num, nf, e, h1, h2, h3, h4⟩ := C80_routing_with_multiple_sources_and_targets pq nq hd hig' hlen hq
  refine ⟨num, nf, Ref.ok (ref_multiTest release64 ig queries) e, h1, h2, h3, ?_⟩
  rcases ref_runMultiTestOnRandomGraph (pq := pq) (nq := nq) release64 draws queries with h | h | h
  · change runMultiTestOnRandomGraph debug64 _ _ _ _ = _ at h
    rw [h4] at h
    split at h <;> cases h
  · change runMultiTestOnRandomGraph debug64 _ _ _ _ = _ at h
    rw [h4] at h
    split at h <;> cases h
  · exact h.symm.trans h4

/-- **C108, performance test** A checksum test that passes with overflow checks passes without. -/
theorem C108_performance_test {P : Plat} {pq : PQ} {fg : FastGraph} {queries : List (Nat × Nat)} {sum nf : Nat}
    (h : runPerformanceTest P.debug pq fg queries sum nf = .ok ()) : runPerformanceTest P pq fg queries sum nf = .ok () :=
  Ref.ok (ref_runPerformanceTest P fg queries sum nf) h

example : ∃ num, singleTest release64 binaryHeap listQueue Ex.ig [(0, 4), (4, 0), (2, 2), (1, 3)] = .ok num ∧
    singleTest release64.debug binaryHeap listQueue Ex.ig [(0, 4), (4, 0), (2, 2), (1, 3)] = .ok num ∧ 0 ≤ num ∧ num ≤ 4 :=
  C108_single_test (P := release64) Ex.built Ex.frozen (W := 9) (by decide) (by decide) (by decide) (by decide) _ _
    (by decide) (by decide)
example : ∃ num nf, multiTest release64 binaryHeap listQueue Ex.ig [([(0, 2), (3, 9)], [(4, 1), (1, 20)])] = .ok (num, nf) ∧
    multiTest release64.debug binaryHeap listQueue Ex.ig [([(0, 2), (3, 9)], [(4, 1), (1, 20)])] = .ok (num, nf) ∧
    0 ≤ num ∧ 0 ≤ nf ∧ num + nf ≤ 1 :=
  C108_multi_test (P := release64) Ex.built Ex.frozen (W := 9) (ws := 9) (wt := 20) (by decide) (by decide) (by decide) (by decide)
    (by decide) _ _ (by decide) (by decide)
example : InputGraph.buildRandomGraph release64 [(1, 2, 5), (1, 1, 7), (0, 2, 3), (1, 2, 4), (0, 1, 8)] 3 (F32.ofInt 1) =
    .ok ⟨[⟨2, 0, 3⟩, ⟨2, 1, 4⟩], 3, true⟩ :=
  (C108_random_graph (P := release64) (by decide +kernel) (by decide)).trans (by decide +kernel)
example : runPerformanceTest release64 binaryHeap Ex.fg [(0, 4), (4, 0), (1, 3)] 18 1 = .ok () :=
  C108_performance_test (P := release64) (by decide +kernel)

end Props
end FP
