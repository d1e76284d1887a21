import Verif.Proofs.TestSuite
import Verif.Props.Bounds
import Verif.Props.Oracles
/-!
# The randomised tests of the repository

`singleTest` and `multiTest` are what the two randomised tests of src/lib.rs do with a graph; here the graph is any graph built through the
API and the queries are any queries, so the theorems say that the tests cannot fail whatever the generator gives.
-/
set_option autoImplicit false
namespace FP
namespace Props
open Spec TestSuite

/-- The calculator made for a graph. -/
theorem calculator_ok {P : Plat} {ig : InputGraph} {E : EdgeRel} {fg : FastGraph} (hg : FGood P E ig.numNodes fg) (pq : PQ) :
    CalcOk ig.numNodes (createCalculator P pq fg) := by
  show CalcOk _ (PathCalculator.new P pq fg.getNumNodes)
  rw [show fg.getNumNodes = ig.numNodes from hg.num]
  exact CalcOk.new P pq _

/-- **C80, one source and one target** On every frozen graph and for every list of queries the comparison with Dijkstra and Floyd-Warshall
succeeds; `num` counts the paths that differ from Dijkstra's. The only panics are arithmetic overflow and exceeding the capacity of a `Vec`. -/
theorem C80_single_test {P : Plat} (hP : P.checked = true) {ops : List Op} {ig : InputGraph} (hb : buildGraph P ops = .ok ig)
    (hf : ig.frozen = true) (hW : ∀ e ∈ accepted ops, e.weight ≤ P.umax) (pq : PQ) (nq : NodeQueue) {queries : List (Nat × Nat)}
    (hq : ∀ q ∈ queries, q.1 < ig.numNodes ∧ q.2 < ig.numNodes) :
    (∃ num, singleTest P pq nq ig queries = .ok num ∧ 0 ≤ num ∧ num ≤ queries.length) ∨
      singleTest P pq nq ig queries = .error .overflow ∨ singleTest P pq nq ig queries = .error .capacity := by
  have hF := (buildGraph_inv (Or.inl hP) hb).frozenOk hf
  have h : Tri (singleTest P pq nq ig queries) (fun num => 0 ≤ num ∧ num ≤ queries.length) := by
    unfold singleTest
    refine Tri.bind (buildWithParams_ok hP hF _) (fun fg hg => ?_)
    obtain ⟨dg, e, hd⟩ := DGraph.of_client hP hb hf
    rw [e, getNumNodes_frozen hf]
    simp only [bind_okM]
    rw [← bind_assoc]
    refine Tri.bind (FloydWarshall.prepare_ok hP hF) (fun fw hw => ?_)
    have hw' : FwOk P (edgesOf ig.edges) ig.numNodes fw := by
      intro s t hs ht
      obtain ⟨w, e, h1, h2, h3⟩ := hw s t hs ht
      exact ⟨w, e, h1, h2, h3 (weights_le hP hb hW)⟩
    refine Tri.bind (Tri_forM (fun pre (st : PathCalculator pq × Dijkstra pq × Int) => TestSuite.SInv ig.numNodes pre.length st) ?_ ?_) ?_
    · exact ⟨calculator_ok hg pq, Dijkstra.Base.new P pq _, Int.le_refl _, by simp⟩
    · intro pre q post st hl hI
      have := singleStep_ok hP hg hd hw' hI (hq q (by rw [hl]; simp))
      simpa using this
    · intro st hI
      exact ⟨hI.lo, hI.hi⟩
  revert h
  cases singleTest P pq nq ig queries with
  | ok num => exact fun h => Or.inl ⟨num, rfl, h⟩
  | error e =>
    cases e <;> intro h <;> first | exact Or.inr (Or.inl rfl) | exact Or.inr (Or.inr rfl) | exact h.elim

/-- **C80, one source and one target** Under the bounds of C33, and with no more queries than an `i32` can count, the test returns. -/
theorem C80_single_test_returns {P : Plat} (hP : P.checked = true) {ops : List Op} {ig : InputGraph} (hb : buildGraph P ops = .ok ig)
    (hf : ig.frozen = true) {W : Nat} (hW : ∀ e ∈ accepted ops, e.weight ≤ W) (hfit : 2 ^ (ig.numNodes + 2) * W ≤ P.umax)
    (hcap : ig.numNodes * ig.numNodes < P.umax) (hcnt : ig.numNodes * ig.numNodes ≤ I32_MAX) (pq : PQ) (nq : NodeQueue)
    {queries : List (Nat × Nat)} (hlen : queries.length ≤ I32_MAX)
    (hq : ∀ q ∈ queries, q.1 < ig.numNodes ∧ q.2 < ig.numNodes) :
    ∃ num, singleTest P pq nq ig queries = .ok num ∧ 0 ≤ num ∧ num ≤ queries.length := by
  have hF := (buildGraph_inv (Or.inl hP) hb).frozenOk hf
  have hW' := weights_le hP hb hW
  have hWE : ∀ u x w, edgesOf ig.edges u x w → w ≤ W := fun u x w he => hW' _ he
  have hp : 2 ^ (ig.numNodes + 2) * W = 4 * (2 ^ ig.numNodes * W) := by
    rw [Nat.pow_add, Nat.mul_right_comm, Nat.mul_comm]
  have hnW : ig.numNodes * W ≤ 2 ^ ig.numNodes * W := Nat.mul_le_mul_right _ (Nat.le_of_lt Nat.lt_two_pow_self)
  have hPd : P.debug = P := by cases P; simp only [Plat.debug] at *; simp_all
  obtain ⟨fg, e1⟩ := C33_prepare (P := P) (by rw [hPd]; exact hb) hf hW hfit hcap hcnt pq nq (defaultRelevance P)
  have hg : FGood P (edgesOf ig.edges) ig.numNodes fg := (buildWithParams_ok hP hF _).of_ok e1
  obtain ⟨dg, e2, hd⟩ := DGraph.of_client hP hb hf
  obtain ⟨fw, e3, hw⟩ := (FloydWarshall.prepare_ok hP hF).total (FloydWarshall.noRes_prepare hF hW' (by omega) (by omega))
  have hw' : FwOk P (edgesOf ig.edges) ig.numNodes fw := by
    intro s t hs ht
    obtain ⟨w, e, h1, h2, h3⟩ := hw s t hs ht
    exact ⟨w, e, h1, h2, h3 (fun e he => le_trans (hW' e he) (le_trans (Nat.le_mul_of_pos_left W (Nat.two_pow_pos _)) hfit))⟩
  obtain ⟨st, e4, hI⟩ := forM_total (f := singleStep (pq := pq) P fg dg fw) (l := queries) (TestSuite.SInv ig.numNodes)
    (s := (createCalculator P pq fg, Dijkstra.new P pq ig.numNodes, 0)) (k := 0)
    ⟨calculator_ok hg pq, Dijkstra.Base.new P pq _, Int.le_refl _, Int.le_refl _⟩
    (fun j st q hmem h => singleStep_ok hP hg hd hw' h (hq q hmem))
    (fun j st q hmem hj h => singleStep_noRes (W := W) hP hd hw' h hWE (by omega) (by omega) (hq q hmem) (fun c hc => by
      obtain ⟨r, e, _⟩ := calcPathMulti_total (P := P) (starts := [(q.1, 0)]) (ends := [(q.2, 0)]) (ws := 0) (wt := 0) hP hg hWE hc
        (by simp) (by simp) (by simpa using (hq q hmem).1) (by simpa using (hq q hmem).2) (by omega)
      rw [e]
      exact NoRes.ok _))
  refine ⟨st.2.2, ?_, hI.lo, by simpa using hI.hi⟩
  unfold singleTest
  rw [e1]
  simp only [bind_okM]
  rw [e2, getNumNodes_frozen hf]
  simp only [bind_okM]
  rw [← bind_assoc, e3]
  simp only [bind_okM]
  rw [e4]
  rfl

example : ∃ num, singleTest debug64 binaryHeap listQueue Ex.ig [(0, 4), (4, 0), (2, 2), (1, 3)] = .ok num ∧ 0 ≤ num ∧ num ≤ 4 :=
  C80_single_test_returns (P := debug64) rfl Ex.built Ex.frozen (W := 9) (by decide) (by decide) (by decide) (by decide) _ _
    (by decide) (by decide)
example : singleTest debug64 binaryHeap listQueue Ex.ig [(0, 4), (4, 0), (2, 2), (1, 3)] = .ok 0 := by decide +kernel

/-- Five nodes, all weights 1: several pairs have more than one lightest path. -/
def tieOps : List Op :=
  [.addEdge 0 4 1, .addEdge 1 2 1, .addEdge 1 4 1, .addEdge 2 3 1, .addEdge 3 0 1, .addEdge 3 1 1, .addEdge 4 0 1, .addEdge 4 2 1,
    .freeze]

-- for two of the pairs the algorithms return different paths, which the test only counts
example : (do let ig ← buildGraph debug64 tieOps
              singleTest debug64 binaryHeap listQueue ig [(0, 1), (0, 4), (1, 0), (2, 0), (2, 4), (3, 2), (3, 4), (4, 3)]) = .ok 2 := by
  decide +kernel

/-- No lightest route between usable entries weighs exactly `usize::MAX`. -/
def NoMaximalRoute (P : Plat) (E : EdgeRel) (S T : List (Nat × Nat)) : Prop :=
  ∀ s ws t wt w, (s, ws) ∈ S → (t, wt) ∈ T → ws < P.umax → wt < P.umax → IsDist E s t w → ws + w + wt ≠ P.umax

theorem notMax_of {P : Plat} (hP : P.checked = true) {ops : List Op} {ig : InputGraph} (hb : buildGraph P ops = .ok ig)
    {S T : List (Nat × Nat)} (h : NoMaximalRoute P (edgesOf (accepted ops)) S T) : NotMax P (edgesOf ig.edges) S T := by
  have hi := buildGraph_inv (Or.inl hP) hb
  intro s ws t wt w h1 h2 h3 h4 h5 h6
  refine h s ws t wt w h1 h2 h3 h4 ⟨hasWalk_iff.2 (hi.walk_sub h5), fun w' hw' => ?_⟩
  obtain ⟨w1, hle, hw1⟩ := hi.walk_le (hasWalk_iff.1 hw')
  exact le_trans (h6 _ hw1) hle

/-- **C80, several sources and targets** The same for the second test: the answers are found exactly when Dijkstra finds a pair, they weigh
as much as the best pair and start and end at a pair of that weight. Routes that weigh exactly `usize::MAX` must be excluded. -/
theorem C80_multi_test {P : Plat} (hP : P.checked = true) {ops : List Op} {ig : InputGraph} (hb : buildGraph P ops = .ok ig)
    (hf : ig.frozen = true) (pq : PQ) (nq : NodeQueue) {queries : List (List (Nat × Nat) × List (Nat × Nat))}
    (hq : ∀ q ∈ queries, q.1 ≠ [] ∧ q.2 ≠ [] ∧ (∀ x ∈ q.1, x.1 < ig.numNodes) ∧ (∀ x ∈ q.2, x.1 < ig.numNodes) ∧
      NoMaximalRoute P (edgesOf (accepted ops)) q.1 q.2) :
    (∃ num nf, multiTest P pq nq ig queries = .ok (num, nf) ∧ 0 ≤ num ∧ 0 ≤ nf ∧ num + nf ≤ queries.length) ∨
      multiTest P pq nq ig queries = .error .overflow ∨ multiTest P pq nq ig queries = .error .capacity := by
  have hF := (buildGraph_inv (Or.inl hP) hb).frozenOk hf
  have h : Tri (multiTest P pq nq ig queries) (fun r => 0 ≤ r.1 ∧ 0 ≤ r.2 ∧ r.1 + r.2 ≤ queries.length) := by
    unfold multiTest
    refine Tri.bind (buildWithParams_ok hP hF _) (fun fg hg => ?_)
    obtain ⟨dg, e, hd⟩ := DGraph.of_client hP hb hf
    rw [e, getNumNodes_frozen hf]
    simp only [bind_okM]
    refine Tri.bind (Tri_forM (fun pre (st : PathCalculator pq × Dijkstra pq × Int × Int) => MInv ig.numNodes pre.length st) ?_ ?_) ?_
    · exact ⟨calculator_ok hg pq, Dijkstra.Base.new P pq _, Int.le_refl _, Int.le_refl _, by simp⟩
    · intro pre q post st hl hI
      obtain ⟨q1, q2, q3, q4, q5⟩ := hq q (by rw [hl]; simp)
      have := multiStep_ok hP hg hd hI q1 q2 q3 q4 (notMax_of hP hb q5)
      simpa using this
    · intro st hI
      exact ⟨hI.lo1, hI.lo2, hI.hi⟩
  revert h
  cases multiTest P pq nq ig queries with
  | ok r => exact fun h => Or.inl ⟨r.1, r.2, rfl, h⟩
  | error e =>
    cases e <;> intro h <;> first | exact Or.inr (Or.inl rfl) | exact Or.inr (Or.inr rfl) | exact h.elim

/-- The lightest routes are below the bound of C33. -/
theorem noMaximalRoute_of {P : Plat} (hP : P.checked = true) {ops : List Op} {ig : InputGraph} (hb : buildGraph P ops = .ok ig)
    {W : Nat} (hW : ∀ e ∈ accepted ops, e.weight ≤ W) {S T : List (Nat × Nat)} {ws wt : Nat}
    (hS : ∀ x ∈ S, x.1 < ig.numNodes ∧ (x.2 < P.umax → x.2 ≤ ws)) (hT : ∀ x ∈ T, x.1 < ig.numNodes ∧ (x.2 < P.umax → x.2 ≤ wt))
    (hfit : ws + wt + 2 ^ ig.numNodes * W ≤ P.umax) : NoMaximalRoute P (edgesOf (accepted ops)) S T := by
  intro s a t b w h1 h2 h3 h4 h5
  have hi := buildGraph_inv (Or.inl hP) hb
  obtain ⟨hs, k1⟩ := hS _ h1
  have k2 := (hT _ h2).2
  simp only at hs k1 k2
  have hn := hi.num
  have hlt : ∀ u v c, edgesOf (accepted ops) u v c → u < ig.numNodes ∧ v < ig.numNodes := by
    intro u v c he
    rw [hn]
    exact nodeCount_gt _ he
  obtain ⟨w', hle, hw'⟩ := hasWalk_bound (fun u v c he => (hi.valid _ he).2) hlt (fun u v c he => hW _ he) hs h5.1
  have := h5.2 _ hw'
  have hWpos : 1 ≤ W := by
    cases hacc : accepted ops with
    | nil => rw [hn, hacc] at hs; simp [nodeCount] at hs
    | cons e es =>
      have hm : e ∈ accepted ops := by rw [hacc]; simp
      obtain ⟨e', he', _, hle'⟩ := hi.cov e hm
      exact le_trans (hi.pos _ he') (le_trans hle' (hW _ hm))
  have hlt2 : (ig.numNodes - 1) * W < 2 ^ ig.numNodes * W :=
    Nat.mul_lt_mul_of_pos_right (lt_of_le_of_lt (Nat.sub_le _ _) Nat.lt_two_pow_self) hWpos
  have := k1 h3
  have := k2 h4
  omega

/-- **C80, several sources and targets** Under the bounds of C33, and with no more queries than an `i32` can count, the test returns. -/
theorem C80_multi_test_returns {P : Plat} (hP : P.checked = true) {ops : List Op} {ig : InputGraph} (hb : buildGraph P ops = .ok ig)
    (hf : ig.frozen = true) {W ws wt : Nat} (hW : ∀ e ∈ accepted ops, e.weight ≤ W) (hfit : 2 ^ (ig.numNodes + 2) * W ≤ P.umax)
    (hfit' : ws + wt + 2 ^ ig.numNodes * W ≤ P.umax)
    (hcap : ig.numNodes * ig.numNodes < P.umax) (hcnt : ig.numNodes * ig.numNodes ≤ I32_MAX) (pq : PQ) (nq : NodeQueue)
    {queries : List (List (Nat × Nat) × List (Nat × Nat))} (hlen : queries.length ≤ I32_MAX)
    (hq : ∀ q ∈ queries, q.1 ≠ [] ∧ q.2 ≠ [] ∧ (∀ x ∈ q.1, x.1 < ig.numNodes ∧ (x.2 < P.umax → x.2 ≤ ws)) ∧
      ∀ x ∈ q.2, x.1 < ig.numNodes ∧ (x.2 < P.umax → x.2 ≤ wt)) :
    ∃ num nf, multiTest P pq nq ig queries = .ok (num, nf) ∧ 0 ≤ num ∧ 0 ≤ nf ∧ num + nf ≤ queries.length := by
  have hF := (buildGraph_inv (Or.inl hP) hb).frozenOk hf
  have hW' := weights_le hP hb hW
  have hWE : ∀ u x w, edgesOf ig.edges u x w → w ≤ W := fun u x w he => hW' _ he
  have hnW : ig.numNodes * W ≤ 2 ^ ig.numNodes * W := Nat.mul_le_mul_right _ (Nat.le_of_lt Nat.lt_two_pow_self)
  have hPd : P.debug = P := by cases P; simp only [Plat.debug] at *; simp_all
  obtain ⟨fg, e1⟩ := C33_prepare (P := P) (by rw [hPd]; exact hb) hf hW hfit hcap hcnt pq nq (defaultRelevance P)
  have hg : FGood P (edgesOf ig.edges) ig.numNodes fg := (buildWithParams_ok hP hF _).of_ok e1
  obtain ⟨dg, e2, hd⟩ := DGraph.of_client hP hb hf
  obtain ⟨st, e4, hI⟩ := forM_total (f := multiStep (pq := pq) P fg dg) (l := queries) (MInv ig.numNodes)
    (s := (createCalculator P pq fg, Dijkstra.new P pq ig.numNodes, 0, 0)) (k := 0)
    ⟨calculator_ok hg pq, Dijkstra.Base.new P pq _, Int.le_refl _, Int.le_refl _, Int.le_refl _⟩
    (fun j st q hmem h => by
      obtain ⟨q1, q2, q3, q4⟩ := hq q hmem
      exact multiStep_ok hP hg hd h q1 q2 (fun x hx => (q3 x hx).1) (fun x hx => (q4 x hx).1)
        (notMax_of hP hb (noMaximalRoute_of hP hb hW q3 q4 hfit')))
    (fun j st q hmem hj h => by
      obtain ⟨q1, q2, q3, q4⟩ := hq q hmem
      refine multiStep_noRes (W := W) (ws := ws) (wt := wt) hP hd h (fun x hx => (q3 x hx).1) (fun x hx => (q4 x hx).1) hWE
        (fun x hx => (q3 x hx).2) (fun x hx => (q4 x hx).2) (by omega) (by omega) (fun c hc => ?_)
      obtain ⟨r, e, _⟩ := calcPathMulti_total (P := P) (ws := ws) (wt := wt) hP hg hWE hc q1 q2 q3 q4 hfit'
      rw [e]
      exact NoRes.ok _)
  refine ⟨st.2.2.1, st.2.2.2, ?_, hI.lo1, hI.lo2, by simpa using hI.hi⟩
  unfold multiTest
  rw [e1]
  simp only [bind_okM]
  rw [e2, getNumNodes_frozen hf]
  simp only [bind_okM]
  rw [e4]
  rfl

example : ∃ num nf, multiTest debug64 binaryHeap listQueue Ex.ig [(Ex.sources, Ex.targets), ([(4, 0)], [(0, 7)])] = .ok (num, nf) ∧
    0 ≤ num ∧ 0 ≤ nf ∧ num + nf ≤ 2 :=
  C80_multi_test_returns (P := debug64) rfl Ex.built Ex.frozen (W := 9) (ws := 9) (wt := 20) (by decide) (by decide) (by decide)
    (by decide) (by decide) _ _ (by decide) (by decide)
example : multiTest debug64 binaryHeap listQueue Ex.ig [(Ex.sources, Ex.targets), ([(4, 0)], [(0, 7)])] = .ok (0, 1) := by
  decide +kernel

/-- **C80** Without `NoMaximalRoute` the claim is false: a route of weight exactly `usize::MAX` is found by Dijkstra and the sum, but not by
the path calculator, for which this weight means that there is no path. -/
theorem C80_maximal_route_fails : ∃ ops ig, buildGraph debug64 ops = .ok ig ∧ ig.frozen = true ∧
    (∃ q : List (Nat × Nat) × List (Nat × Nat), q.1 ≠ [] ∧ q.2 ≠ [] ∧ (∀ x ∈ q.1, x.1 < ig.numNodes) ∧ (∀ x ∈ q.2, x.1 < ig.numNodes) ∧
      multiTest debug64 binaryHeap listQueue ig [q] = .error .assertion) :=
  ⟨[.addEdge 0 1 5, .freeze], ⟨[⟨0, 1, 5⟩], 2, true⟩, rfl, rfl, ([(0, debug64.umax - 5)], [(1, 0)]), by decide, by decide, by decide,
    by decide, by decide +kernel⟩

-- one less is fine
example : multiTest debug64 binaryHeap listQueue ⟨[⟨0, 1, 5⟩], 2, true⟩ [([(0, debug64.umax - 6)], [(1, 0)])] = .ok (0, 0) := by
  decide +kernel

/-! ### Random graphs -/

/-- The calls made for a list of draws: `add_edge(tail, head, weight)` for `(head, tail, weight)`. -/
def calls (draws : List (Nat × Nat × Nat)) : List Op := draws.map (fun d => .addEdge d.2.1 d.1 d.2.2)

/-- **C80, random graphs** The number of accepted edges that is asked for. -/
def wanted (P : Plat) (numNodes : Nat) (meanDegree : F32) : Nat := F32.toUsize P (F32.mul meanDegree (F32.ofInt numNodes))

/-- **C80, random graphs** A random graph is the graph built by the calls for the shortest non-empty beginning of the draws that contributes
exactly the wanted number of edges. (A client built it, so everything proved about clients holds for it.) -/
theorem C80_random_graph {P : Plat} (hP : P.checked = true) {draws : List (Nat × Nat × Nat)} {numNodes : Nat} {meanDegree : F32}
    {ig : InputGraph} (h : InputGraph.buildRandomGraph P draws numNodes meanDegree = .ok ig) :
    ∃ pre, pre <+: draws ∧ pre ≠ [] ∧ (accepted (calls pre)).length = wanted P numNodes meanDegree ∧
      (∀ pre', pre' <+: pre → pre' ≠ [] → pre' ≠ pre → (accepted (calls pre')).length ≠ wanted P numNodes meanDegree) ∧
      buildGraph P (calls pre ++ [.freeze]) = .ok ig ∧ ig.frozen = true := by
  unfold InputGraph.buildRandomGraph at h
  obtain ⟨g, e1, h⟩ := bind_eq_ok.1 h
  obtain ⟨pre, h1, h2, h3, h4, h5⟩ := randomLoop_ok hP e1
  refine ⟨pre, h1, h2, (Nat.zero_add _).symm.trans h4, fun pre' k1 k2 k3 hh => h5 pre' k1 k2 k3 ((Nat.zero_add _).trans hh), ?_, ?_⟩
  · unfold buildGraph calls
    rw [forM_append]
    have : forM (fun g (op : Op) => op.run P g) InputGraph.new (pre.map (fun d => .addEdge d.2.1 d.1 d.2.2)) = .ok g := h3
    rw [this]
    simp only [bind_okM, FP.forM, Op.run]
    rw [h]
    rfl
  · unfold InputGraph.freeze at h
    split at h
    · cases h
    · cases h; rfl

/-- **C80, random graphs** If there is such a beginning, the loop ends. -/
theorem C80_random_graph_returns {P : Plat} {draws pre : List (Nat × Nat × Nat)} (hpre : pre <+: draws) (hne : pre ≠ [])
    (hlt : ∀ d ∈ pre, d.1 < P.umax ∧ d.2.1 < P.umax) {numNodes : Nat} {meanDegree : F32}
    (hk : (accepted (calls pre)).length = wanted P numNodes meanDegree) :
    ∃ ig, InputGraph.buildRandomGraph P draws numNodes meanDegree = .ok ig := by
  have hle : wanted P numNodes meanDegree ≤ P.umax := by
    unfold wanted F32.toUsize
    split
    · exact Nat.zero_le _
    · split <;> omega
    · exact Nat.min_le_right _ _
  obtain ⟨g, e, hf⟩ := randomLoop_total hle hpre hlt (g := InputGraph.new) rfl (c := 0) hne ((Nat.zero_add _).trans hk)
  unfold InputGraph.buildRandomGraph
  unfold wanted at e
  simp only
  rw [e]
  simp only [bind_okM, InputGraph.freeze, hf]
  exact ⟨_, rfl⟩

/-- **C80, random graphs** With one node the loop never ends (unless no edge is wanted): every draw is a loop. -/
theorem C80_random_graph_one_node {P : Plat} (hP : P.checked = true) {meanDegree : F32} (h0 : wanted P 1 meanDegree ≠ 0)
    {draws : List (Nat × Nat × Nat)} (hd : ∀ d ∈ draws, d.1 < 1 ∧ d.2.1 < 1) (ig : InputGraph) :
    InputGraph.buildRandomGraph P draws 1 meanDegree ≠ .ok ig := by
  intro h
  obtain ⟨pre, ⟨t, ht⟩, _, h2, _⟩ := C80_random_graph hP h
  refine h0 (h2.symm.trans ?_)
  suffices ∀ pre : List (Nat × Nat × Nat), (∀ d ∈ pre, d.1 < 1 ∧ d.2.1 < 1) → (accepted (calls pre)).length = 0 from
    this pre (fun d hm => hd d (by rw [← ht]; simp [hm]))
  intro pre
  induction pre with
  | nil => intro _; rfl
  | cons d pre ih =>
    intro hd
    obtain ⟨h1, h2⟩ := hd d (by simp)
    have := ih (fun d hm => hd d (by simp [hm]))
    have he : d.2.1 = d.1 := by omega
    simp only [calls, List.map_cons, accepted, List.flatMap_cons, Op.edges, he] at this ⊢
    simpa using this

/-- **C80, random graphs** If no edge is wanted and the first draw is an edge, the loop never ends: it compares after adding. -/
theorem C80_random_graph_no_edges {P : Plat} (hP : P.checked = true) {numNodes : Nat} {meanDegree : F32}
    (h0 : wanted P numNodes meanDegree = 0) {head tail weight : Nat} (hne : tail ≠ head) (hw : 1 ≤ weight)
    (draws : List (Nat × Nat × Nat)) (ig : InputGraph) :
    InputGraph.buildRandomGraph P ((head, tail, weight) :: draws) numNodes meanDegree ≠ .ok ig := by
  intro h
  obtain ⟨pre, ⟨t, ht⟩, h1, h2, _⟩ := C80_random_graph hP h
  cases pre with
  | nil => exact h1 rfl
  | cons d pre =>
    simp only [List.cons_append, List.cons.injEq] at ht
    obtain ⟨rfl, _⟩ := ht
    rw [h0] at h2
    simp [calls, accepted, Op.edges, hne, hw] at h2

example : InputGraph.buildRandomGraph debug64 [(1, 2, 5), (1, 1, 7), (0, 2, 3), (1, 2, 4), (0, 1, 8)] 3 (F32.ofInt 1) =
    .ok ⟨[⟨2, 0, 3⟩, ⟨2, 1, 4⟩], 3, true⟩ := by decide +kernel
example (draws : List (Nat × Nat × Nat)) (hd : ∀ d ∈ draws, d.1 < 1 ∧ d.2.1 < 1) (ig : InputGraph) :
    InputGraph.buildRandomGraph debug64 draws 1 (F32.ofInt 2) ≠ .ok ig :=
  C80_random_graph_one_node (P := debug64) rfl (by decide +kernel) hd ig
-- four nodes of mean degree 0.1
example (draws : List (Nat × Nat × Nat)) (ig : InputGraph) : InputGraph.buildRandomGraph debug64 ((1, 2, 5) :: draws) 4 F32.tenth ≠ .ok ig :=
  C80_random_graph_no_edges (P := debug64) rfl (by decide +kernel) (by decide) (by decide) draws ig

theorem random_bounds {draws pre : List (Nat × Nat × Nat)} (hpre : pre <+: draws) {n W : Nat}
    (hd : ∀ d ∈ draws, d.1 < n ∧ d.2.1 < n ∧ d.2.2 ≤ W) :
    ∀ e ∈ accepted (calls pre ++ [.freeze]), e.src < n ∧ e.dst < n ∧ e.weight ≤ W := by
  obtain ⟨t, rfl⟩ := hpre
  intro e he
  simp only [accepted, calls, List.flatMap_append, List.mem_append, List.mem_flatMap, List.mem_map] at he
  rcases he with ⟨op, ⟨d, hm, rfl⟩, he⟩ | ⟨op, hm, he⟩
  · obtain ⟨h1, h2, h3⟩ := hd d (by simp [hm])
    simp only [Op.edges] at he
    split at he
    · simp at he; subst he; exact ⟨h2, h1, h3⟩
    · cases he
  · simp at hm; subst hm; cases he

/-- **C80, `routing_on_random_graph`** For all random numbers in the ranges of the test: the test fails only if more than 100 of the paths
differ from Dijkstra's, none of its assertions does. -/
theorem C80_routing_on_random_graph (pq : PQ) (nq : NodeQueue) {draws : List (Nat × Nat × Nat)}
    (hd : ∀ d ∈ draws, d.1 < 50 ∧ d.2.1 < 50 ∧ d.2.2 < 100) {ig : InputGraph}
    (hig : InputGraph.buildRandomGraph debug64 draws 50 (F32.ofInt 2) = .ok ig) {queries : List (Nat × Nat)}
    (hlen : queries.length = 1000) (hq : ∀ q ∈ queries, q.1 < ig.numNodes ∧ q.2 < ig.numNodes) :
    ∃ num, singleTest debug64 pq nq ig queries = .ok num ∧ 0 ≤ num ∧ num ≤ 1000 ∧
      runTestOnRandomGraph debug64 pq nq draws queries = if 100 < num then .error .assertion else .ok () := by
  obtain ⟨pre, h1, _, _, _, hb, hf⟩ := C80_random_graph (P := debug64) rfl hig
  have hbd := random_bounds (n := 50) (W := 99) h1 (fun d hm => by have := hd d hm; omega)
  have hn : ig.numNodes ≤ 50 := by
    rw [(buildGraph_inv (P := debug64) (Or.inl rfl) hb).num]
    exact nodeCount_le (fun e he => ⟨(hbd e he).1, (hbd e he).2.1⟩)
  have hsq : ig.numNodes * ig.numNodes ≤ 2500 := le_trans (Nat.mul_le_mul hn hn) (by decide)
  have hp : 2 ^ (ig.numNodes + 2) ≤ 2 ^ 52 := Nat.pow_le_pow_right (by decide) (by omega)
  obtain ⟨num, e, g1, g2⟩ := C80_single_test_returns (P := debug64) rfl hb hf (W := 99) (fun e he => (hbd e he).2.2)
    (le_trans (Nat.mul_le_mul_right _ hp) (by decide)) (lt_of_le_of_lt hsq (by decide)) (le_trans hsq (by decide)) pq nq
    (queries := queries) (by rw [hlen]; decide) hq
  refine ⟨num, e, g1, by rw [hlen] at g2; exact g2, ?_⟩
  unfold runTestOnRandomGraph
  rw [hig]
  simp only [bind_okM]
  rw [e]
  simp only [bind_okM]
  have := tooMany_iff (factor := F32.tenth) (q := 1000) (b := 100) (by decide +kernel) (by decide +kernel) num
  by_cases hc : 100 < num
  · rw [if_pos hc, if_pos (this.2 hc)]
  · rw [if_neg hc, if_neg (fun h => hc (this.1 h))]

/-- **C80, `routing_with_multiple_sources_and_targets_on_random_graph`** For all random numbers in the ranges of the test: it fails only if
more than 500 of the queries have no answer or more than 100 of the paths differ from Dijkstra's. -/
theorem C80_routing_with_multiple_sources_and_targets (pq : PQ) (nq : NodeQueue) {draws : List (Nat × Nat × Nat)}
    (hd : ∀ d ∈ draws, d.1 < 50 ∧ d.2.1 < 50 ∧ d.2.2 < 100) {ig : InputGraph}
    (hig : InputGraph.buildRandomGraph debug64 draws 50 (F32.ofInt 2) = .ok ig)
    {queries : List (List (Nat × Nat) × List (Nat × Nat))} (hlen : queries.length = 1000)
    (hq : ∀ q ∈ queries, q.1.length = 3 ∧ q.2.length = 3 ∧
      ∀ x ∈ q.1 ++ q.2, x.1 < ig.numNodes ∧ (x.2 < 100 ∨ x.2 = debug64.WEIGHT_MAX)) :
    ∃ num nf, multiTest debug64 pq nq ig queries = .ok (num, nf) ∧ 0 ≤ num ∧ 0 ≤ nf ∧ num + nf ≤ 1000 ∧
      runMultiTestOnRandomGraph debug64 pq nq draws queries = if 500 < nf ∨ 100 < num then .error .assertion else .ok () := by
  obtain ⟨pre, h1, _, _, _, hb, hf⟩ := C80_random_graph (P := debug64) rfl hig
  have hbd := random_bounds (n := 50) (W := 99) h1 (fun d hm => by have := hd d hm; omega)
  have hn : ig.numNodes ≤ 50 := by
    rw [(buildGraph_inv (P := debug64) (Or.inl rfl) hb).num]
    exact nodeCount_le (fun e he => ⟨(hbd e he).1, (hbd e he).2.1⟩)
  have hsq : ig.numNodes * ig.numNodes ≤ 2500 := le_trans (Nat.mul_le_mul hn hn) (by decide)
  have hp : 2 ^ (ig.numNodes + 2) ≤ 2 ^ 52 := Nat.pow_le_pow_right (by decide) (by omega)
  have hp' : 2 ^ ig.numNodes * 99 ≤ 2 ^ 50 * 99 := Nat.mul_le_mul_right _ (Nat.pow_le_pow_right (by decide) hn)
  have hu : debug64.umax = 2 ^ 64 - 1 := rfl
  have hw : debug64.WEIGHT_MAX = 2 ^ 64 - 1 := rfl
  obtain ⟨num, nf, e, g1, g2, g3⟩ := C80_multi_test_returns (P := debug64) rfl hb hf (W := 99) (ws := 99) (wt := 99)
    (fun e he => (hbd e he).2.2)
    (le_trans (Nat.mul_le_mul_right _ hp) (by decide)) (by omega) (lt_of_le_of_lt hsq (by decide))
    (le_trans hsq (by decide)) pq nq (queries := queries) (by rw [hlen]; decide) (fun q hm => by
      obtain ⟨q1, q2, q3⟩ := hq q hm
      refine ⟨by intro h; simp [h] at q1, by intro h; simp [h] at q2, fun x hx => ?_, fun x hx => ?_⟩
      · obtain ⟨k1, k2⟩ := q3 x (List.mem_append_left _ hx)
        exact ⟨k1, fun _ => by omega⟩
      · obtain ⟨k1, k2⟩ := q3 x (List.mem_append_right _ hx)
        exact ⟨k1, fun _ => by omega⟩)
  refine ⟨num, nf, e, g1, g2, by rw [hlen] at g3; exact g3, ?_⟩
  unfold runMultiTestOnRandomGraph
  rw [hig]
  simp only [bind_okM]
  rw [e]
  simp only [bind_okM]
  have t1 := tooMany_iff (factor := F32.ofRat F32.one 2) (q := 1000) (b := 500) (by decide +kernel) (by decide +kernel) nf
  have t2 := tooMany_iff (factor := F32.tenth) (q := 1000) (b := 100) (by decide +kernel) (by decide +kernel) num
  by_cases hc : 500 < nf
  · rw [if_pos (Or.inl hc), if_pos (t1.2 hc)]
  · rw [if_neg (fun h => hc (t1.1 h))]
    by_cases hc' : 100 < num
    · rw [if_pos (Or.inr hc'), if_pos (t2.2 hc')]
    · rw [if_neg (fun h => hc' (t2.1 h)), if_neg (fun h => h.elim hc hc')]

/-- Draws for a graph of the size the tests use. -/
def exDraws : List (Nat × Nat × Nat) := (List.range 120).map (fun i => (i % 50, (i * 7 + i / 50 + 1) % 50, i % 99 + 1))

theorem exDraws_graph : ∃ ig, InputGraph.buildRandomGraph debug64 exDraws 50 (F32.ofInt 2) = .ok ig :=
  C80_random_graph_returns (P := debug64) (pre := exDraws.take 102) (List.take_prefix _ _) (by decide) (by decide +kernel)
    (by decide +kernel)

example : ∃ ig num, InputGraph.buildRandomGraph debug64 exDraws 50 (F32.ofInt 2) = .ok ig ∧
    singleTest debug64 binaryHeap listQueue ig (List.replicate 1000 (0, 0)) = .ok num ∧ 0 ≤ num ∧ num ≤ 1000 := by
  obtain ⟨ig, e⟩ := exDraws_graph
  have hn : 0 < ig.numNodes := by
    obtain ⟨pre, _, _, h3, _, hb, _⟩ := C80_random_graph (P := debug64) rfl e
    rw [(buildGraph_inv (P := debug64) (Or.inl rfl) hb).num]
    have h100 : wanted debug64 50 (F32.ofInt 2) = 100 := by decide +kernel
    rw [accepted_append]
    cases hacc : accepted (calls pre) with
    | nil => rw [hacc, h100] at h3; simp at h3
    | cons x xs => exact lt_of_le_of_lt (Nat.zero_le _) (nodeCount_gt x (by simp)).1
  obtain ⟨num, h1, h2, h3, _⟩ := C80_routing_on_random_graph binaryHeap listQueue (draws := exDraws) (by decide +kernel) e
    (queries := List.replicate 1000 (0, 0)) List.length_replicate (fun q hq => by
      rw [List.eq_of_mem_replicate hq]; exact ⟨hn, hn⟩)
  exact ⟨ig, num, e, h1, h2, h3⟩

/-! ### The checksums of the performance tests -/

/-- `sum` is the sum of the distances of the pairs that are joined by a walk lighter than `usize::MAX`, `nf` the number of the others. -/
inductive Checksum (umax : Nat) (E : EdgeRel) : List (Nat × Nat) → Nat → Nat → Prop where
  | nil : Checksum umax E [] 0 0
  | found {qs : List (Nat × Nat)} {sum nf s t d : Nat} (h : Checksum umax E qs sum nf) (hd : d < umax) (hdist : IsDist E s t d) :
      Checksum umax E (qs ++ [(s, t)]) (sum + d) nf
  | none {qs : List (Nat × Nat)} {sum nf s t : Nat} (h : Checksum umax E qs sum nf) (hd : ∀ w, HasWalk E s t w → umax ≤ w) :
      Checksum umax E (qs ++ [(s, t)]) sum (nf + 1)

/-- There is only one checksum. -/
theorem Checksum.unique {umax : Nat} {E : EdgeRel} {qs : List (Nat × Nat)} {sum nf sum' nf' : Nat} (h : Checksum umax E qs sum nf)
    (h' : Checksum umax E qs sum' nf') : sum = sum' ∧ nf = nf' := by
  induction h generalizing sum' nf' with
  | nil =>
    generalize hq : ([] : List (Nat × Nat)) = l at h'
    cases h' with
    | nil => exact ⟨rfl, rfl⟩
    | found _ _ _ => simp at hq
    | none _ _ => simp at hq
  | @found qs sum nf s t d h hd hdist ih =>
    generalize hq : qs ++ [(s, t)] = l at h'
    cases h' with
    | nil => simp at hq
    | @found qs' sum1 nf1 s' t' d' k1 k2 k3 =>
      obtain ⟨rfl, k⟩ := List.append_inj' hq rfl
      simp only [List.cons.injEq, Prod.mk.injEq, and_true] at k
      obtain ⟨rfl, rfl⟩ := k
      obtain ⟨rfl, rfl⟩ := ih k1
      have := hdist.2 _ k3.1
      have := k3.2 _ hdist.1
      exact ⟨by omega, rfl⟩
    | @none qs' sum1 nf1 s' t' k1 k2 =>
      obtain ⟨rfl, k⟩ := List.append_inj' hq rfl
      simp only [List.cons.injEq, Prod.mk.injEq, and_true] at k
      obtain ⟨rfl, rfl⟩ := k
      have := k2 _ hdist.1
      omega
  | @none qs sum nf s t h hd ih =>
    generalize hq : qs ++ [(s, t)] = l at h'
    cases h' with
    | nil => simp at hq
    | @found qs' sum1 nf1 s' t' d' k1 k2 k3 =>
      obtain ⟨rfl, k⟩ := List.append_inj' hq rfl
      simp only [List.cons.injEq, Prod.mk.injEq, and_true] at k
      obtain ⟨rfl, rfl⟩ := k
      have := hd _ k3.1
      omega
    | @none qs' sum1 nf1 s' t' k1 k2 =>
      obtain ⟨rfl, k⟩ := List.append_inj' hq rfl
      simp only [List.cons.injEq, Prod.mk.injEq, and_true] at k
      obtain ⟨rfl, rfl⟩ := k
      obtain ⟨rfl, rfl⟩ := ih k1
      exact ⟨rfl, rfl⟩

/-- **C80, `run_performance_test`** For every client, heap and list of queries: the loop computes the sum of the distances in the graph the
client built and the number of pairs without a path. -/
theorem C80_checksum {P : Plat} (hP : P.checked = true) {ops : List Op} {ig : InputGraph} {fg : FastGraph} (hc : Client P ops ig fg)
    (pq : PQ) {queries : List (Nat × Nat)} (hq : ∀ q ∈ queries, q.1 < ig.numNodes ∧ q.2 < ig.numNodes)
    {r : PathCalculator pq × Nat × Nat} (h : performanceLoop P fg (PathCalculator.new P pq fg.getNumNodes) queries = .ok r) :
    Checksum P.umax (edgesOf (accepted ops)) queries r.2.1 r.2.2 := by
  have hi := buildGraph_inv (Or.inl hP) hc.built
  refine ((performanceLoop_ok hP (hc.good hP) (Checksum P.umax (edgesOf (accepted ops))) .nil ?_ ?_
    (calculator_ok (ig := ig) (hc.good hP) pq) hq).of_ok h).2
  · intro qs sum nf s t d h1 h2 h3 h4
    refine h1.found h2 ⟨hasWalk_iff.2 (hi.walk_sub h3), fun w hw => ?_⟩
    obtain ⟨w', hle, hw'⟩ := hi.walk_le (hasWalk_iff.1 hw)
    exact le_trans (h4 _ hw') hle
  · intro qs sum nf s t h1 h2
    refine h1.none (fun w hw => ?_)
    obtain ⟨w', hle, hw'⟩ := hi.walk_le (hasWalk_iff.1 hw)
    exact le_trans (h2 _ hw') hle

/-- **C80, `run_performance_test`** The test accepts exactly the true values, whichever way the graph was prepared; in particular the test
with the default preparation, the one with a given order and the one for 32-bit files can expect the same numbers. -/
theorem C80_performance_test {P : Plat} (hP : P.checked = true) {ops : List Op} {ig : InputGraph} {fg : FastGraph} (hc : Client P ops ig fg)
    (pq : PQ) {queries : List (Nat × Nat)} (hq : ∀ q ∈ queries, q.1 < ig.numNodes ∧ q.2 < ig.numNodes) (expSum expNotFound : Nat) :
    (runPerformanceTest P pq fg queries expSum expNotFound = .ok () ∧ Checksum P.umax (edgesOf (accepted ops)) queries expSum expNotFound) ∨
    (runPerformanceTest P pq fg queries expSum expNotFound = .error .assertion ∧
      ¬ Checksum P.umax (edgesOf (accepted ops)) queries expSum expNotFound) ∨
    runPerformanceTest P pq fg queries expSum expNotFound = .error .overflow ∨
    runPerformanceTest P pq fg queries expSum expNotFound = .error .capacity := by
  have hT := performanceLoop_ok hP (hc.good hP) (fun _ _ _ => True) trivial (fun _ _ _ _ _ _ _ _ _ _ => trivial)
    (fun _ _ _ _ _ _ _ => trivial) (calculator_ok (ig := ig) (hc.good hP) pq) hq
  unfold runPerformanceTest
  cases hr : performanceLoop P fg (PathCalculator.new P pq fg.getNumNodes) queries with
  | error e =>
    have hr' : performanceLoop P fg (createCalculator P pq fg) queries = .error e := hr
    rw [hr'] at hT
    cases e <;> first | exact hT.elim | exact Or.inr (Or.inr (Or.inl rfl)) | exact Or.inr (Or.inr (Or.inr rfl))
  | ok r =>
    have hk := C80_checksum hP hc pq hq hr
    obtain ⟨c, sum, nf⟩ := r
    simp only [bind_okM] at hk ⊢
    by_cases h1 : expSum = sum
    · by_cases h2 : expNotFound = nf
      · subst h1 h2
        simp only [beq_self_eq_true, assertM_true, bind_okM]
        exact Or.inl ⟨trivial, hk⟩
      · refine Or.inr (Or.inl ⟨?_, fun h => h2 (h.unique hk).2⟩)
        simp [h1, h2, bind_okM, assertM]
    · refine Or.inr (Or.inl ⟨?_, fun h => h1 (h.unique hk).1⟩)
      simp [assertM, h1]

/-- **C80, `run_performance_test`** With and without overflow checks: the loop returns if `2 * n * A` fits for the largest stored weight `A`
and the number of queries times `n * W` does for the largest weight `W` of the graph. -/
theorem C80_checksum_returns {P : Plat} {ops : List Op} {ig : InputGraph} {fg : FastGraph} (hc : Client P.debug ops ig fg)
    (pq : PQ) {queries : List (Nat × Nat)} (hq : ∀ q ∈ queries, q.1 < ig.numNodes ∧ q.2 < ig.numNodes)
    {A W : Nat} (hA : ∀ e ∈ fg.edgesFwd ++ fg.edgesBwd, e.weight ≤ A) (hW : ∀ e ∈ accepted ops, e.weight ≤ W)
    (hfit : 2 * (ig.numNodes * A) ≤ P.umax) (hsum : queries.length * (ig.numNodes * W) ≤ P.umax) (hlen : queries.length ≤ P.umax) :
    ∃ r, performanceLoop P fg (PathCalculator.new P pq fg.getNumNodes) queries = .ok r ∧
      Checksum P.umax (edgesOf (accepted ops)) queries r.2.1 r.2.2 := by
  have hg := hc.good rfl
  have hi := buildGraph_inv (P := P.debug) (Or.inl rfl) hc.built
  have hbound : ∀ s t d, s < ig.numNodes → Wk (edgesOf ig.edges) s t d → (∀ w, Wk (edgesOf ig.edges) s t w → d ≤ w) →
      d ≤ ig.numNodes * W := by
    intro s t d hs h1 h2
    obtain ⟨w, hle, hw⟩ := hasWalk_bound (E := edgesOf ig.edges) (fun u v c he => hi.pos _ he)
      (fun u v c he => (hi.frozenOk hc.frozen).lt _ he) (fun u v c he => weights_le (P := P.debug) rfl hc.built hW _ he) hs
      (hasWalk_iff.2 h1)
    exact le_trans (h2 _ (hasWalk_iff.1 hw)) (le_trans hle (Nat.mul_le_mul_right _ (Nat.sub_le _ _)))
  obtain ⟨r, e, _⟩ := forM_total (f := performanceStep (pq := pq) P.debug fg) (l := queries) (k := 0)
    (s := (PathCalculator.new P pq fg.getNumNodes, 0, 0))
    (fun k st => CalcOk ig.numNodes st.1 ∧ st.2.1 ≤ k * (ig.numNodes * W) ∧ st.2.2 ≤ k)
    ⟨calculator_ok (ig := ig) (P := P.debug) (fg := fg) hg pq, by simp, by simp⟩
    (fun j st q hm h => (performanceStep_ok (P := P.debug) rfl hg h.1 (hq q hm)).mono (by
      obtain ⟨h1, h2, h3⟩ := h
      rintro st' ⟨k1, ⟨d, b1, b2, b3, e⟩ | ⟨b1, e⟩⟩
      · refine ⟨k1, ?_⟩
        rw [e, Nat.add_mul, Nat.one_mul]
        exact ⟨Nat.add_le_add h2 (hbound _ _ _ (hq q hm).1 b2 b3), by simp only; omega⟩
      · refine ⟨k1, ?_⟩
        rw [e, Nat.add_mul, Nat.one_mul]
        exact ⟨Nat.le_add_right_of_le h2, by simp only; omega⟩))
    (fun j st q hm hj h => by
      obtain ⟨h1, h2, h3⟩ := h
      obtain ⟨r, e, _, hr⟩ := calcPathMulti_total_stored (P := P.debug) (starts := [(q.1, 0)]) (ends := [(q.2, 0)]) (ws := 0) (wt := 0)
        rfl hg (fun ed hh => hA ed (List.mem_append_left _ hh)) (fun ed hh => hA ed (List.mem_append_right _ hh)) h1 (by simp) (by simp)
        (by simpa using (hq q hm).1) (by simpa using (hq q hm).2) (by simpa [Plat.debug] using hfit)
      have e' : st.1.calcPath P.debug fg q.1 q.2 = .ok r := e
      refine performanceStep_noRes (by rw [e']; exact NoRes.ok _) ?_ ?_
      · intro c p hp
        rw [e'] at hp
        injection hp with hp
        subst hp
        obtain ⟨_, _, _, b4, b5⟩ := (answer_single hr).2 p rfl
        have b := hbound _ _ _ (hq q hm).1 b4 b5
        have : (j + 1) * (ig.numNodes * W) ≤ queries.length * (ig.numNodes * W) := Nat.mul_le_mul_right _ (by omega)
        rw [Nat.add_mul, Nat.one_mul] at this
        show _ ≤ P.umax
        omega
      · show _ ≤ P.umax
        omega)
  have hd : performanceLoop P.debug fg (PathCalculator.new P.debug pq fg.getNumNodes) queries = .ok r := e
  refine ⟨r, ?_, C80_checksum (P := P.debug) rfl hc pq hq hd⟩
  rcases ref_performanceLoop (P := P) fg (PathCalculator.new P.debug pq fg.getNumNodes) queries with h | h | h
  · rw [hd] at h; cases h
  · rw [hd] at h; cases h
  · exact h.symm.trans hd

example : ∃ r, performanceLoop release64 Ex.fgo (PathCalculator.new release64 binaryHeap 5)
      [(0, 4), (4, 0), (2, 2), (1, 3), (4, 3)] = .ok r ∧
    Checksum release64.umax (edgesOf (accepted Ex.ops)) [(0, 4), (4, 0), (2, 2), (1, 3), (4, 3)] r.2.1 r.2.2 :=
  C80_checksum_returns (P := release64) exampleClient' binaryHeap (by decide) (A := 13) (W := 9) (by decide) (by decide) (by decide)
    (by decide) (by decide)
example : Checksum debug64.umax (edgesOf (accepted Ex.ops)) [(0, 4), (4, 0), (2, 2), (1, 3), (4, 3)] 25 1 := by
  obtain ⟨r, e, h1, h2⟩ : ∃ r, performanceLoop debug64 Ex.fgo (PathCalculator.new debug64 binaryHeap 5)
      [(0, 4), (4, 0), (2, 2), (1, 3), (4, 3)] = .ok r ∧ r.2.1 = 25 ∧ r.2.2 = 1 := ⟨_, rfl, rfl, rfl⟩
  have := C80_checksum (P := debug64) rfl exampleClient' binaryHeap (by decide) e
  rwa [h1, h2] at this
example : runPerformanceTest debug64 binaryHeap Ex.fg [(0, 4), (4, 0), (2, 2), (1, 3), (4, 3)] 25 1 = .ok () := rfl
example : runPerformanceTest debug64 binaryHeap Ex.fg [(0, 4), (4, 0), (2, 2), (1, 3), (4, 3)] 26 1 = .error .assertion := rfl

/-- **C80** The counters are `i32`: with overflow checks a count beyond `i32::MAX` panics, without them it is taken modulo 2^32. -/
theorem C80_counter {P : Plat} {n : Int} (h1 : -(2 : Int) ^ 31 ≤ n) (h2 : n < (2 : Int) ^ 31) :
    incI32 P n = if P.checked = true ∧ n + 1 = (2 : Int) ^ 31 then .error .overflow else .ok (Int.bmod (n + 1) (2 ^ 32)) := by
  have hm : (I32_MAX : Int) = 2 ^ 31 - 1 := rfl
  unfold incI32
  rw [hm]
  by_cases hlt : n < 2 ^ 31 - 1
  · rw [if_pos hlt, if_neg (by omega), Int.bmod_eq_of_le (by omega) (by omega)]
  · have hn : n = 2 ^ 31 - 1 := by omega
    subst hn
    rw [if_neg (by omega)]
    cases P.checked <;> simp

example : incI32 debug64 41 = .ok 42 ∧ incI32 release64 (2 ^ 31 - 1) = .ok (-2 ^ 31) := by
  constructor
  · rw [C80_counter (by decide) (by decide)]; rfl
  · rw [C80_counter (by decide) (by decide)]; rfl

end Props
end FP
