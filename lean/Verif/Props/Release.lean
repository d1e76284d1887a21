import Verif.Props.Hub
import Verif.Props.Simple
import Verif.Props.Changes
import Verif.Props.Minimal
import Verif.Props.LargestId
/-! # C94: clients of builds without overflow checks -/
set_option autoImplicit false
namespace FP
namespace Props
open Spec

theorem op_same {P : Plat} {g : InputGraph} {op : Op} (h : ∀ e ∈ op.edges, max e.src e.dst + 1 ≤ P.umax) :
    op.run P g = op.run P.debug g := by
  have key : ∀ s d w b, (s ≠ d → 1 ≤ w → max s d + 1 ≤ P.umax) → g.doAddEdge P s d w b = g.doAddEdge P.debug s d w b := by
    intro s d w b hk
    unfold InputGraph.doAddEdge
    by_cases h1 : s = d
    · simp [h1]
    · by_cases h2 : w < 1
      · simp [h1, h2]
      · have := hk h1 (by omega)
        have e1 : addW P (max s d) 1 = .ok (max s d + 1) := if_pos this
        have e2 : addW P.debug (max s d) 1 = .ok (max s d + 1) := if_pos this
        rw [e1, e2]
  cases op with
  | addEdge s d w =>
    have := key s d w false (fun h1 h2 => h ⟨s, d, w⟩ (by simp [Op.edges, h1, h2]))
    unfold Op.run InputGraph.addEdge
    dsimp only
    rw [this]
  | addEdgeBidir s d w =>
    have := key s d w true (fun h1 h2 => h ⟨s, d, w⟩ (by simp [Op.edges, h1, h2]))
    unfold Op.run InputGraph.addEdgeBidir
    dsimp only
    rw [this]
  | freeze => rfl
  | thaw => rfl

/-- **C94** If all node ids of accepted edges are smaller than `usize::MAX`, overflow checks make no difference when a graph is built. -/
theorem C94_build {P : Plat} {ops : List Op} (h : nodeCount (accepted ops) ≤ P.umax) : buildGraph P ops = buildGraph P.debug ops := by
  have hn : ∀ e ∈ accepted ops, max e.src e.dst + 1 ≤ P.umax := by
    intro e he
    have := nodeCount_gt e he
    omega
  unfold buildGraph
  generalize InputGraph.new = g
  clear h
  induction ops generalizing g with
  | nil => rfl
  | cons op ops ih =>
    have h1 : op.run P g = op.run P.debug g := op_same (fun e he => hn e (by unfold accepted; simp [he]))
    have ih := ih (fun e he => hn e (by
      unfold accepted at he ⊢
      rw [List.flatMap_cons]
      exact List.mem_append_right _ he))
    unfold FP.forM
    rw [h1]
    cases op.run P.debug g with
    | error p => rfl
    | ok g' => exact ih g'

/-- Preparing with some order in a build with checks is what is left to show. -/
theorem prepared_debug {P : Plat} {ops : List Op} {ig : InputGraph} {fg : FastGraph} (hb : buildGraph P.debug ops = .ok ig)
    (hf : ig.frozen = true) (hp : Prepared P ig fg)
    (h : ∀ (pq : PQ) (order : List Nat) (ms : Nat), order.Perm (List.range ig.numNodes) →
      prepareWithOrderWithParams P pq ig order ms = .ok (.ok fg) →
      ∃ fg₁, prepareWithOrderWithParams P.debug pq ig order ms = .ok (.ok fg₁)) : Client P.debug ops ig fg := by
  have key : ∀ (pq : PQ) (order : List Nat) (ms : Nat), order.Perm (List.range ig.numNodes) →
      prepareWithOrderWithParams P pq ig order ms = .ok (.ok fg) → Client P.debug ops ig fg := by
    intro pq order ms ho hpo
    obtain ⟨fg₁, e⟩ := h pq order ms ho hpo
    have h1 := (C32_prepare_with_order hb hf pq ho ms (by rw [e]; simp)).trans e
    have : fg₁ = fg := by
      have := h1.symm.trans hpo
      injection this with this
      injection this
    subst this
    exact ⟨hb, hf, .orderParams pq order ms ho e⟩
  cases hp with
  | default pq nq relevance hp =>
    obtain ⟨nodes, _, hperm, hpo⟩ := prepare_again hp
    exact key pq nodes _ hperm hpo
  | params pq nq params hp =>
    obtain ⟨nodes, _, hperm, hpo⟩ := prepare_again hp
    exact key pq nodes _ hperm hpo
  | order pq order perm hp => exact key pq order _ perm hp
  | orderParams pq order ms perm hp => exact key pq order ms perm hp

/-- **C94** If the weights are bounded as in C33, what a client of a build without overflow checks has in hand is what a client of a build
with overflow checks could have. So everything said about clients of checked builds is true of these graphs. The counter of C62 may wrap. -/
theorem C94_client {P : Plat} {ops : List Op} {ig : InputGraph} {fg : FastGraph} (hc : Client P ops ig fg)
    {W : Nat} (hW : ∀ e ∈ accepted ops, e.weight ≤ W)
    (hfit : 2 ^ (ig.numNodes + 2) * W ≤ P.umax) (hcap : ig.numNodes * ig.numNodes < P.umax) : Client P.debug ops ig fg := by
  have hb := (C94_build (C112_prepared_no_wrap hc).2.2).symm.trans hc.built
  exact prepared_debug hb hc.frozen hc.prepared (fun pq order ms ho _ =>
    C33_prepare_with_order_with_params (P := P.debug) hb hc.frozen hW hfit hcap pq ho ms)

/-- **C94** With budgets above the number of nodes a bound that is linear in the number of nodes suffices. -/
theorem C94_client_wide {P : Plat} {ops : List Op} {ig : InputGraph} {fg : FastGraph} (hb : buildGraph P ops = .ok ig)
    (hf : ig.frozen = true) (hw : PreparedWide P ig fg) {W : Nat}
    (hW : ∀ e ∈ accepted ops, e.weight ≤ W) (hfit : 4 * ((ig.numNodes - 1) * W) ≤ P.umax)
    (hcap : ig.numNodes * ig.numNodes < P.umax) : Client P.debug ops ig fg ∧ PreparedWide P.debug ig fg := by
  have hc : Client P ops ig fg := ⟨hb, hf, hw.prepared⟩
  have hb' := (C94_build (C112_prepared_no_wrap hc).2.2).symm.trans hb
  have key : ∀ (pq : PQ) (order : List Nat) (ms : Nat), order.Perm (List.range ig.numNodes) → ig.numNodes < ms →
      prepareWithOrderWithParams P pq ig order ms = .ok (.ok fg) → Client P.debug ops ig fg ∧ PreparedWide P.debug ig fg := by
    intro pq order ms ho hms hpo
    obtain ⟨fg₁, e⟩ := C64_prepare_with_order_with_params (P := P.debug) hb' hf hW hfit hcap pq ho hms
    have h1 := (C32_prepare_with_order hb' hf pq ho ms (by rw [e]; simp)).trans e
    have : fg₁ = fg := by
      have := h1.symm.trans hpo
      injection this with this
      injection this
    subst this
    exact ⟨⟨hb', hf, .orderParams pq order ms ho e⟩, .orderParams pq order ms ho hms e⟩
  cases hw with
  | default pq nq relevance wide hp =>
    obtain ⟨nodes, _, hperm, hpo⟩ := prepare_again hp
    exact key pq nodes _ hperm wide hpo
  | params pq nq params wide hp =>
    obtain ⟨nodes, _, hperm, hpo⟩ := prepare_again hp
    exact key pq nodes _ hperm wide hpo
  | order pq order perm wide hp => exact key pq order _ perm wide hp
  | orderParams pq order ms perm wide hp => exact key pq order ms perm wide hp

/-- **C94** Queries on such graphs, with any history, are the queries of a checked build, and they return. -/
theorem C94_query {P : Plat} {ops : List Op} {ig : InputGraph} {fg : FastGraph} (hc : Client P ops ig fg)
    {W : Nat} (hW : ∀ e ∈ accepted ops, e.weight ≤ W)
    (hfit : 2 ^ (ig.numNodes + 2) * W ≤ P.umax) (hcap : ig.numNodes * ig.numNodes < P.umax) (pq : PQ) (history : List Request)
    {c : PathCalculator pq} (hh : runRequests P (PathCalculator.new P pq ig.numNodes) history = .ok c) {S T : List (Nat × Nat)}
    (hS : S ≠ []) (hT : T ≠ []) {ws wt : Nat} (hSn : ∀ x ∈ S, x.1 < ig.numNodes ∧ (x.2 < P.umax → x.2 ≤ ws))
    (hTn : ∀ x ∈ T, x.1 < ig.numNodes ∧ (x.2 < P.umax → x.2 ≤ wt)) (hq : ws + wt + 2 ^ ig.numNodes * W ≤ P.umax) :
    ∃ r, c.calcPathMulti P fg S T = .ok r ∧ c.calcPathMulti P.debug fg S T = .ok r := by
  have hd := C94_client hc hW hfit hcap
  obtain ⟨r, e, _⟩ := calcPathMulti_total (P := P.debug) rfl (hd.good rfl)
    (fun u v w he => weights_le (P := P.debug) rfl hd.built hW _ he)
    (runRequests_base (CalcOk.new P pq ig.numNodes) hh) hS hT hSn hTn hq
  exact ⟨r, (C32_query P pq c fg S T (by rw [e]; simp)).trans e, e⟩

/-! ### Examples -/

theorem Ex.releaseClient : Client release64 Ex.ops Ex.ig Ex.fg :=
  ⟨rfl, rfl, .default binaryHeap listQueue Ex.rel (by rfl)⟩

example : Client debug64 Ex.ops Ex.ig Ex.fg :=
  C94_client (P := release64) Ex.releaseClient (W := 9) (by decide) (by decide) (by decide)

example : Client debug64 Ex.ops Ex.ig Ex.fg ∧ PreparedWide debug64 Ex.ig Ex.fg :=
  C94_client_wide (P := release64) rfl rfl (.default binaryHeap listQueue Ex.rel (by decide) (by rfl)) (W := 9)
    (by decide) (by decide) (by decide)

example : ∃ r, (PathCalculator.new release64 binaryHeap 5).calcPathMulti release64 Ex.fg Ex.sources Ex.targets = .ok r ∧
    (PathCalculator.new release64 binaryHeap 5).calcPathMulti debug64 Ex.fg Ex.sources Ex.targets = .ok r :=
  C94_query (P := release64) Ex.releaseClient (W := 9) (by decide) (by decide) (by decide) binaryHeap [] rfl (by decide)
    (by decide) (ws := 9) (wt := 20) (by decide) (by decide) (by decide)

/-- **C94** The bound is needed: on the graph of `hugeOps` a build without overflow checks stores edges that are no walks. -/
theorem C94_bound_needed : ∃ (ops : List Op) (ig : InputGraph) (fg : FastGraph), Client release64 ops ig fg ∧
    nodeCount (accepted ops) ≤ release64.umax ∧ ¬ Client debug64 ops ig fg := by
  have hp : ∃ fg, prepareWithOrderWithParams release64 binaryHeap hugeGraph hugeOrder 2 = .ok (.ok fg) ∧
      ∃ ed ∈ fg.edgesFwd, ed.baseNode = 18 ∧ ed.adjNode = 21 ∧ ed.weight = 1 := by
    refine ⟨_, rfl, ?_⟩
    decide +kernel
  obtain ⟨fg, e, ed, hed, h1, h2, h3⟩ := hp
  refine ⟨hugeOps, hugeGraph, fg, ⟨hugeBuilt', rfl, .orderParams binaryHeap hugeOrder 2 hugePerm e⟩, by decide +kernel, fun hc => ?_⟩
  have hk := (C36_edges_are_walks rfl hc).1 ed hed
  rw [h1, h2, h3] at hk
  obtain ⟨nodes, k1, k2, k3⟩ := hk
  have hpos : ∀ e ∈ hugeGraph.edges, 1 ≤ e.weight := by decide +kernel
  have hno : ∀ e ∈ hugeGraph.edges, e.src = 18 → e.weight = 1 → e.dst ≠ 21 := by decide +kernel
  match nodes, k1 with
  | [a], k1 => simp at k2 k3; omega
  | [a, b], k1 =>
    obtain ⟨x, y, q1, q2, q3⟩ := k1
    simp at k2 k3
    subst k2 k3
    have : y = 0 := q2
    exact hno _ q1 rfl (by show x = 1; omega) rfl
  | a :: b :: c :: rest, k1 =>
    obtain ⟨x, y, q1, ⟨x', y', q4, _, q5⟩, q3⟩ := k1
    have := hpos _ q1
    have := hpos _ q4
    simp only at *
    omega

end Props
end FP
