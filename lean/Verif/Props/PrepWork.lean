import Verif.Proofs.Sessions
import Verif.Proofs.Api
import Verif.Props.Witness
/-!
# The work of a preparation

Pushes and pops of the heap of the witness searches, and which witness searches a preparation does. `Spec.logged` is a heap that
writes down what is pushed and popped after the last `init`.
-/
set_option autoImplicit false
namespace FP
namespace Props
open Spec

/-- **C95** A witness search with a log does the same as the one without: same panic or same state afterwards. -/
theorem C95_logs_change_nothing (P : Plat) {pq : PQ} (ws : WitnessSearch (logged pq)) (calls : List WitnessCall) :
    runWitness P (unlogWitness ws) calls = (runWitness P ws calls >>= fun ws' => .ok (unlogWitness ws')) :=
  unlogW_run calls ws

/-- two sessions, with a log and without -/
example : ∃ ws, runWitness debug64 (WitnessSearch.new debug64 (logged binaryHeap) 5)
      [.init 0 1, .find exPrep 4 100 100, .init 0 4, .find exPrep 3 20 3] = .ok ws ∧ searchPushes ws = [⟨0, 0⟩, ⟨3, 1⟩, ⟨9, 2⟩, ⟨7, 2⟩, ⟨8, 3⟩] ∧
    runWitness debug64 (WitnessSearch.new debug64 binaryHeap 5)
      [.init 0 1, .find exPrep 4 100 100, .init 0 4, .find exPrep 3 20 3] = .ok (unlogWitness ws) :=
  ⟨_, rfl, rfl, C95_logs_change_nothing debug64 (pq := binaryHeap) (WitnessSearch.new debug64 (logged binaryHeap) 5) _⟩

/-- **C95** The heap operations of one session, after any earlier use and on any graphs. Everything popped was pushed and the rest is
still there; items are popped in ascending order; a node is pushed again only with a smaller weight. The settled nodes are at most `K`,
and the pushes are at most one more than the arcs of the settled nodes. -/
theorem C95_session_work {P : Plat} (hP : P.checked = true) {pq : PQ} {n K : Nat} {before : List WitnessCall}
    {ws₀ ws : WitnessSearch (logged pq)} {s : Session} {deg : Nat → Nat}
    (h₀ : runWitness P (WitnessSearch.new P (logged pq) n) before = .ok ws₀) (h : runWitness P ws₀ (s.calls K) = .ok ws)
    (hdeg : ∀ q ∈ s.searches, ∀ (x : Nat) l, q.1.outEdges[x]? = some l → l.length ≤ deg x) :
    (searchPops ws ++ searchItems ws).Perm (searchPushes ws) ∧
      (searchPops ws).Pairwise (fun a b => a.weight ≤ b.weight) ∧
      (searchPushes ws).Pairwise (fun a b => a.nodeId = b.nodeId → b.weight < a.weight) ∧
      ∃ L : List Nat, L.Nodup ∧ (∀ x, x ∈ L ↔ ws.isSettled x = .ok true) ∧ L.length ≤ K ∧
        (searchPushes ws).length ≤ 1 + (L.map deg).sum := by
  have hb := (runWitness_self (WRel.new P (logged pq) n) h₀).b₁
  obtain ⟨k1, k2⟩ := session_log hP hb h hdeg
  refine ⟨?_, ?_, ?_, ?_⟩
  · unfold searchPops searchItems searchPushes
    refine List.Perm.trans ?_ (k1.all.symm.trans (List.reverse_perm _).symm)
    exact (List.reverse_perm _).append_right _
  · unfold searchPops
    rw [List.pairwise_reverse]
    exact k1.sorted
  · unfold searchPushes
    rw [List.pairwise_reverse]
    exact k1.decr.imp (fun h e => h e.symm)
  · obtain ⟨L, l1, l2, l3, _, l5⟩ := k1.settled_list k2
    exact ⟨L, l1, l2, l3, l5⟩

/-- Two searches from node 0 avoiding node 4, at most 3 settled nodes: nodes 0, 1, 2 with 2, 1, 1 arcs are settled, and the 5 pushes are
as many as the bound allows. -/
example : ∃ ws₀ ws, runWitness debug64 (WitnessSearch.new debug64 (logged binaryHeap) 5) [.init 0 1, .find exPrep 4 100 100] = .ok ws₀ ∧
    runWitness debug64 ws₀ (Session.calls 3 ⟨4, 0, [(exPrep, 1, 20), (exPrep, 3, 20)]⟩) = .ok ws ∧
    searchPushes ws = [⟨0, 0⟩, ⟨3, 1⟩, ⟨9, 2⟩, ⟨7, 2⟩, ⟨8, 3⟩] ∧ searchPops ws = [⟨0, 0⟩, ⟨3, 1⟩, ⟨7, 2⟩] ∧
    searchItems ws = [⟨8, 3⟩, ⟨9, 2⟩] ∧
    ∃ L : List Nat, L.Nodup ∧ (∀ x, x ∈ L ↔ ws.isSettled x = .ok true) ∧ L.length ≤ 3 ∧
      (searchPushes ws).length ≤ 1 + (L.map (fun x => [2, 1, 1, 2, 1].getD x 0)).sum :=
  ⟨_, _, rfl, rfl, rfl, rfl, rfl, (C95_session_work (P := debug64) (pq := binaryHeap) (n := 5) (K := 3)
    (before := [.init 0 1, .find exPrep 4 100 100]) (s := ⟨4, 0, [(exPrep, 1, 20), (exPrep, 3, 20)]⟩) rfl rfl rfl (by
      intro q hq x l hl
      have hq : q.1 = exPrep := by
        simp only [List.mem_cons, List.not_mem_nil, or_false] at hq
        rcases hq with rfl | rfl <;> rfl
      rw [hq] at hl
      match x, hl with
      | 0, hl => cases hl; decide
      | 1, hl => cases hl; decide
      | 2, hl => cases hl; decide
      | 3, hl => cases hl; decide
      | 4, hl => cases hl; decide
      | _ + 5, hl => simp [exPrep] at hl)).2.2.2⟩

/-- **C95** The witness searches of a contraction: the sessions of `SessionsOf`, one after the other. The graphs that are searched are
consistent, they have all edges of `g` away from `v` (perhaps with smaller weights), and no node has more additional arcs than `v` has. -/
theorem C95_contraction_sessions {P : Plat} (hP : P.checked = true) {pq : PQ} {n K : Nat} (hn : n ≤ P.umax) {before : List WitnessCall}
    {ws ws' : WitnessSearch pq} {g g' : PreparationGraph} {v : Nat} (h₀ : runWitness P (WitnessSearch.new P pq n) before = .ok ws)
    (hg : PrepOk n g) (hv : v < n) (h : contractNode P g ws v K = .ok (g', ws')) :
    ∃ ins outs ss, g.inEdges[v]? = some ins ∧ g.outEdges[v]? = some outs ∧
      runWitness P ws (ss.flatMap (Session.calls K)) = .ok ws' ∧
      SessionsOf v ins outs (fun gc => PrepOk n gc ∧ Improves v g gc ∧ ∀ (x : Nat) l l', g.outEdges[x]? = some l →
        gc.outEdges[x]? = some l' → l'.length ≤ l.length + outs.length) ss := by
  have hb := (runWitness_self (WRel.new P pq n) h₀).b₁
  have hw := prepOk_iff.1 hg
  obtain ⟨_, _, ss, h1, h2⟩ := (contractNode_sessions hP hn hw hv hb).of_ok h
  refine ⟨_, _, ss, PreparationGraph.getElem?_inEdges (by rw [hw.lenIn]; exact hv),
    PreparationGraph.getElem?_outEdges (by rw [hw.lenOut]; exact hv), h1, ?_⟩
  unfold SessionsOf at h2 ⊢
  refine h2.imp ?_
  rintro a s ⟨k1, k2, k3, k4⟩
  refine ⟨k1, k2, k3, fun q hq => ?_⟩
  have he := k4 q hq
  refine ⟨prepOk_iff.2 he.wf, ?_, ?_⟩
  · intro a b w hab
    obtain ⟨w', q1, q2⟩ := he.grow a b w (avoiding_iff.1 hab)
    exact ⟨w', q1, avoiding_iff.2 q2⟩
  · intro x l l' hl hl'
    have := he.deg x
    unfold PreparationGraph.outs at this
    rw [hl, hl'] at this
    exact this

/-- Contracting node 1: two sessions, from nodes 0 and 4, with one search each, for node 2 -/
example : ∃ g' ws' ss, contractNode debug64 exPrep (WitnessSearch.new debug64 binaryHeap 5) 1 100 = .ok (g', ws') ∧
    runWitness debug64 (WitnessSearch.new debug64 binaryHeap 5) (ss.flatMap (Session.calls 100)) = .ok ws' ∧
    SessionsOf 1 [⟨0, 3, Ex.inv⟩, ⟨4, 2, Ex.inv⟩] [⟨2, 4, Ex.inv⟩] (fun gc => PrepOk 5 gc ∧ Improves 1 exPrep gc ∧
      ∀ (x : Nat) l l', exPrep.outEdges[x]? = some l → gc.outEdges[x]? = some l' → l'.length ≤ l.length + 1) ss := by
  obtain ⟨⟨g', ws'⟩, e⟩ : ∃ r, contractNode debug64 exPrep (WitnessSearch.new debug64 binaryHeap 5) 1 100 = .ok r := ⟨_, rfl⟩
  obtain ⟨ins, outs, ss, h1, h2, h3, h4⟩ := C95_contraction_sessions (P := debug64) (pq := binaryHeap) (n := 5) (K := 100) rfl (by decide)
    (before := []) rfl exPrep_ok (v := 1) (by decide) e
  cases h1
  cases h2
  exact ⟨g', ws', ss, e, h3, h4⟩

/-- **C95** The witness searches of `calc_relevance`: the same, with the graph unchanged. -/
theorem C95_relevance_sessions {P : Plat} (hP : P.checked = true) {pq : PQ} {n K : Nat} (hn : n ≤ P.umax) {before : List WitnessCall}
    {ws ws' : WitnessSearch pq} {g g' : PreparationGraph} {v level p : Nat} {relevance : Nat → Int → Nat → Nat}
    (h₀ : runWitness P (WitnessSearch.new P pq n) before = .ok ws)
    (hg : PrepOk n g) (hv : v < n) (h : calcRelevance P relevance g ws v level K = .ok (g', ws', p)) :
    ∃ ins outs ss, g.inEdges[v]? = some ins ∧ g.outEdges[v]? = some outs ∧
      runWitness P ws (ss.flatMap (Session.calls K)) = .ok ws' ∧ SessionsOf v ins outs (fun gc => gc = g) ss := by
  have hb := (runWitness_self (WRel.new P pq n) h₀).b₁
  have hw := prepOk_iff.1 hg
  obtain ⟨_, _, ss, h1, h2⟩ := (calcRelevance_sessions hP hn hw hv hb).of_ok h
  exact ⟨_, _, ss, PreparationGraph.getElem?_inEdges (by rw [hw.lenIn]; exact hv),
    PreparationGraph.getElem?_outEdges (by rw [hw.lenOut]; exact hv), h1, h2⟩

/-- the priority of node 2: three sessions, from nodes 0, 1 and 3, with one search each, for node 3 -/
example : ∃ ws' p ss, calcRelevance debug64 Ex.rel exPrep (WitnessSearch.new debug64 binaryHeap 5) 2 0 100 = .ok (exPrep, ws', p) ∧
    runWitness debug64 (WitnessSearch.new debug64 binaryHeap 5) (ss.flatMap (Session.calls 100)) = .ok ws' ∧
    SessionsOf 2 [⟨0, 9, Ex.inv⟩, ⟨1, 4, Ex.inv⟩, ⟨3, 1, Ex.inv⟩] [⟨3, 1, Ex.inv⟩] (fun gc => gc = exPrep) ss := by
  obtain ⟨ws', p, e⟩ : ∃ ws' p, calcRelevance debug64 Ex.rel exPrep (WitnessSearch.new debug64 binaryHeap 5) 2 0 100
      = .ok (exPrep, ws', p) := ⟨_, _, rfl⟩
  obtain ⟨ins, outs, ss, h1, h2, h3, h4⟩ := C95_relevance_sessions (P := debug64) (pq := binaryHeap) (n := 5) (K := 100) rfl (by decide)
    (before := []) rfl exPrep_ok (v := 2) (level := 0) (relevance := Ex.rel) (by decide) e
  cases h1
  cases h2
  exact ⟨ws', p, ss, e, h3, h4⟩

/-- **C95** All witness searches of `prepare_with_order`: one session for every stored incoming edge, in the order in which they are
stored, and altogether at most `1 + K (n - 1)` pushes for each. -/
theorem C95_order_total {P : Plat} (hP : P.checked = true) {ops : List Op} {ig : InputGraph} {fg : FastGraph}
    (hb : buildGraph P ops = .ok ig) (hf : ig.frozen = true) {pq : PQ} {order : List Nat} {K : Nat}
    (hp : prepareWithOrderWithParams P (logged pq) ig order K = .ok (.ok fg)) :
    ∃ (g : PreparationGraph) (st : BState (logged pq)) (ss : List Session) (total : Nat),
      PreparationGraph.fromInputGraph P ig = .ok g ∧
      forM (orderStep P ig.numNodes K) ⟨g, WitnessSearch.new P (logged pq) ig.numNodes, FastGraph.empty ig.numNodes⟩ order.zipIdx = .ok st ∧
      forM (runSession P K) (WitnessSearch.new P (logged pq) ig.numNodes, 0) ss = .ok (st.ws, total) ∧
      ss.map (fun s => (s.node, s.start)) = fg.edgesBwd.map (fun e => (e.baseNode, e.adjNode)) ∧
      total ≤ fg.getNumInEdges * (1 + K * (ig.numNodes - 1)) := by
  have hF := (buildGraph_inv (Or.inl hP) hb).frozenOk hf
  obtain ⟨g, eg, hg⟩ := fromInputGraph_ok (P := P) hF
  unfold prepareWithOrderWithParams buildWithOrderWithParams at hp
  obtain ⟨n, en, hp⟩ := bind_eq_ok.1 hp
  have hnn : n = ig.numNodes := by
    unfold InputGraph.getNumNodes at en
    obtain ⟨_, _, en⟩ := bind_eq_ok.1 en
    cases en
    rfl
  subst hnn
  by_cases hlen : (ig.numNodes != order.length) = true
  · rw [if_pos hlen] at hp
    cases hp
  rw [if_neg hlen] at hp
  obtain ⟨fg', ef, hp⟩ := bind_eq_ok.1 hp
  cases hp
  unfold runContractionWithOrder FastGraph.new at ef
  by_cases hn : ig.numNodes < P.umax
  swap
  · rw [if_neg hn] at ef; cases ef
  rw [if_pos hn, eg] at ef
  simp only [bind_okM] at ef
  obtain ⟨st, es, ef⟩ := bind_eq_ok.1 ef
  obtain ⟨ss, hss⟩ := orderLoop_sessions hP (Nat.le_of_lt hn) hg.wf es
  obtain ⟨t, ht, hle⟩ := sessions_count hP (D := ig.numNodes - 1) ss 0 (WitnessSearch.Base.new P (logged pq) _) hss.run
    (by
      intro s hs q hq x l hx hl
      have := WF.deg (hss.wf s hs q hq) hx
      unfold PreparationGraph.outs at this
      rw [hl] at this
      exact this)
    (fun s hs q hq => (hss.wf s hs q hq).lenOut)
  have hends : ss.map (fun s => (s.node, s.start)) = fg.edgesBwd.map (fun e => (e.baseNode, e.adjNode)) :=
    hss.ends.trans (finish_ends ef).symm
  refine ⟨g, st, ss, t, eg, es, ht, hends, ?_⟩
  have hlen : ss.length = fg.getNumInEdges := by
    have := congrArg List.length hends
    simpa [FastGraph.getNumInEdges] using this
  rw [← hlen]
  omega

/-- eight stored incoming edges, eight sessions -/
example : ∃ (g : PreparationGraph) (st : BState (logged binaryHeap)) (ss : List Session) (total : Nat),
    PreparationGraph.fromInputGraph debug64 Ex.ig = .ok g ∧
    forM (orderStep debug64 5 100) ⟨g, WitnessSearch.new debug64 (logged binaryHeap) 5, FastGraph.empty 5⟩ Ex.order.zipIdx = .ok st ∧
    forM (runSession debug64 100) (WitnessSearch.new debug64 (logged binaryHeap) 5, 0) ss = .ok (st.ws, total) ∧
    ss.map (fun s => (s.node, s.start)) = [(2, 0), (2, 1), (2, 3), (3, 0), (3, 1), (1, 0), (1, 4), (4, 0)] ∧
    total ≤ 8 * (1 + 100 * 4) :=
  C95_order_total (P := debug64) rfl Ex.built Ex.frozen (order := Ex.order) (K := 100) (fg := Ex.fgo) (pq := binaryHeap) rfl

/-- **C95** All witness searches of `prepare_with_params`, in sessions with a settled limit each: at most one for every edge of the
graph (initial priorities), one for every stored incoming edge (contractions) and `n - 1` for every stored edge (updates of the
neighbours); and altogether at most `1 + K (n - 1)` pushes for each, where `K` is the largest limit. -/
theorem C95_prepare_total {P : Plat} (hP : P.checked = true) {ops : List Op} {ig : InputGraph} {fg : FastGraph}
    (hb : buildGraph P ops = .ok ig) (hf : ig.frozen = true) {pq : PQ} {nq : NodeQueue} {params : Params} {K : Nat}
    (hK : params.maxSettledInitialRelevance ≤ K ∧ params.maxSettledNeighborRelevance ≤ K ∧ params.maxSettledContraction ≤ K)
    (hp : prepareWithParams P (logged pq) nq ig params = .ok fg) :
    ∃ (g : PreparationGraph) (st st' : QState (logged pq) nq) (ss : List (Nat × Session)) (total : Nat),
      PreparationGraph.fromInputGraph P ig = .ok g ∧
      forM (initialPriority P params) ⟨⟨g, WitnessSearch.new P (logged pq) ig.numNodes, FastGraph.empty ig.numNodes⟩,
        List.replicate ig.numNodes 0, nq.empty⟩ (List.range ig.numNodes) = .ok st ∧
      contractionLoop P params (ig.numNodes + 1) 0 st = .ok st' ∧
      forM (fun s (x : Nat × Session) => runSession P x.1 s x.2) (WitnessSearch.new P (logged pq) ig.numNodes, 0) ss
        = .ok (st'.b.ws, total) ∧
      ss.length ≤ ig.edges.length + fg.getNumInEdges + (fg.getNumInEdges + fg.getNumOutEdges) * (ig.numNodes - 1) ∧
      total ≤ ss.length * (1 + K * (ig.numNodes - 1)) := by
  have hF := (buildGraph_inv (Or.inl hP) hb).frozenOk hf
  obtain ⟨g, eg, hg⟩ := fromInputGraph_ok (P := P) hF
  unfold prepareWithParams buildWithParams at hp
  obtain ⟨n, en, hp⟩ := bind_eq_ok.1 hp
  have hnn : n = ig.numNodes := by
    unfold InputGraph.getNumNodes at en
    obtain ⟨_, _, en⟩ := bind_eq_ok.1 en
    cases en
    rfl
  subst hnn
  unfold runContraction FastGraph.new at hp
  by_cases hn : ig.numNodes < P.umax
  swap
  · rw [if_neg hn] at hp; cases hp
  rw [if_pos hn, eg] at hp
  simp only [bind_okM] at hp
  obtain ⟨st, es, hp⟩ := bind_eq_ok.1 hp
  obtain ⟨st', es', hp⟩ := bind_eq_ok.1 hp
  have hn' := Nat.le_of_lt hn
  obtain ⟨i1, i2, i3⟩ := forM_inv (f := initialPriority P params)
    (I := fun pre (s : QState (logged pq) nq) => QSoFar P ig.numNodes K ((pre.map (fun i => (g.ins i).length)).sum) s ∧ s.b.pg = g ∧
      (∀ i ∈ pre, i < ig.numNodes) ∧ s.b.fg = FastGraph.empty ig.numNodes ∨ ¬ ∀ i ∈ pre, i < ig.numNodes) (by
      rintro pre i s s' hI he
      by_cases hi : i < ig.numNodes
      swap
      · exact Or.inr (fun h => hi (h i (by simp)))
      rcases hI with ⟨h1, h2, h3, h4⟩ | hI
      · left
        obtain ⟨z1, z2, z3⟩ := initialPriority_sessions hP hn' hK.1 hi h1 he
        refine ⟨?_, z2.trans h2, ?_, z3.trans h4⟩
        · rw [h2] at z1
          simpa using z1
        · intro j hj
          rcases List.mem_append.1 hj with hj | hj
          · exact h3 j hj
          · simp only [List.mem_singleton] at hj; omega
      · exact Or.inr (fun h => hI (fun j hj => h j (List.mem_append_left _ hj)))) _ [] _ st
    (Or.inl ⟨⟨hg.wf, WitnessSearch.Base.new P (logged pq) _, by simp, [], rfl, by simp, by simp, by simp⟩, rfl, by simp, rfl⟩) es
    |>.resolve_right (fun h => h (by intro i hi; simpa using hi))
  rw [List.nil_append, sum_ins_len hg.wf, fromInputGraph_sum eg] at i1
  have h1 := contractionLoop_sessions (m := ig.edges.length) hP hn' hK.2.1 hK.2.2 _ 0 st st'
    (by rw [i3.2]; simpa [maxSessions, FastGraph.empty] using i1) es'
  obtain ⟨ss, hss⟩ := h1.ss
  obtain ⟨t, ht, hle⟩ := sessionsK_count hP (D := ig.numNodes - 1) ss 0 (WitnessSearch.Base.new P (logged pq) _) hss.run
    (by
      intro s hs q hq x l hl
      have hw := hss.wf s hs q hq
      have hx : x < ig.numNodes := by
        have := (List.getElem?_eq_some_iff.1 hl).1
        rw [hw.lenOut] at this
        exact this
      have := WF.deg hw hx
      unfold PreparationGraph.outs at this
      rw [hl] at this
      exact this) hss.le
  have l1 : fg.edgesBwd.length = st'.b.fg.edgesBwd.length := by
    have := congrArg List.length (finish_ends hp)
    simpa using this
  have l2 := finish_lenFwd hp
  refine ⟨g, st, st', ss, t, eg, es, es', ht, ?_, by omega⟩
  have := hss.num
  rw [← l1, ← l2] at this
  exact this

/-- 7 edges in the graph, 3 stored incoming and 5 stored outgoing edges -/
example : ∃ (g : PreparationGraph) (st st' : QState (logged binaryHeap) listQueue) (ss : List (Nat × Session)) (total : Nat),
    PreparationGraph.fromInputGraph debug64 Ex.ig = .ok g ∧
    forM (initialPriority debug64 (Params.default Ex.rel)) ⟨⟨g, WitnessSearch.new debug64 (logged binaryHeap) 5, FastGraph.empty 5⟩,
      List.replicate 5 0, listQueue.empty⟩ (List.range 5) = .ok st ∧
    contractionLoop debug64 (Params.default Ex.rel) 6 0 st = .ok st' ∧
    forM (fun s (x : Nat × Session) => runSession debug64 x.1 s x.2) (WitnessSearch.new debug64 (logged binaryHeap) 5, 0) ss
      = .ok (st'.b.ws, total) ∧
    ss.length ≤ 7 + 3 + (3 + 5) * 4 ∧ total ≤ ss.length * (1 + 500 * 4) :=
  C95_prepare_total (P := debug64) rfl Ex.built Ex.frozen (params := Params.default Ex.rel) (K := 500) (by decide) (fg := Ex.fg)
    (pq := binaryHeap) (nq := listQueue) rfl

end Props
end FP
