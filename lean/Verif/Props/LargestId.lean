import Verif.Proofs.Shape
import Verif.Props.Preparation
set_option autoImplicit false
/-! # The node id `usize::MAX` -/
namespace FP.Props
open Spec

/-- a platform with the same checks and more room -/
private def roomy (P : Plat) (n : Nat) : Plat := { P with umax := max P.umax n }

private theorem doAddEdge_roomy {P : Plat} {n : Nat} {g g' g₁ : InputGraph} (he : g'.edges = g.edges) (hf : g'.frozen = g.frozen)
    {s d w k : Nat} {b : Bool} (hn : s ≠ d → 1 ≤ w → max s d + 1 ≤ n) (h : g.doAddEdge P s d w b = .ok (g₁, k)) :
    ∃ g₁', g'.doAddEdge (roomy P n) s d w b = .ok (g₁', k) ∧ g₁'.edges = g₁.edges ∧ g₁'.frozen = g₁.frozen := by
  unfold InputGraph.doAddEdge at h ⊢
  rw [hf]
  split at h
  · cases h
  rename_i h0
  rw [if_neg h0]
  split at h
  · rename_i h1
    rw [if_pos h1]
    injection h with h; injection h with h h'; subst h h'
    exact ⟨_, rfl, he, hf⟩
  rename_i h1
  rw [if_neg h1]
  split at h
  · rename_i h2
    rw [if_pos h2]
    injection h with h; injection h with h h'; subst h h'
    exact ⟨_, rfl, he, hf⟩
  rename_i h2
  rw [if_neg h2]
  obtain ⟨m, h3, h⟩ := bind_eq_ok.1 h
  injection h with h; injection h with h h'; subst h h'
  have hle := hn (by simpa using h1) (by omega)
  have : addW (roomy P n) (max s d) 1 = .ok (max s d + 1) := by
    unfold addW roomy
    rw [if_pos (by simp only; omega)]
  rw [this]
  exact ⟨_, rfl, by simp only [he], rfl⟩

private theorem run_roomy {P : Plat} {n : Nat} {g g' g₁ : InputGraph} (he : g'.edges = g.edges) (hf : g'.frozen = g.frozen) (op : Op)
    (hn : ∀ e ∈ op.edges, max e.src e.dst + 1 ≤ n) (h : op.run P g = .ok g₁) :
    ∃ g₁', op.run (roomy P n) g' = .ok g₁' ∧ g₁'.edges = g₁.edges ∧ g₁'.frozen = g₁.frozen := by
  cases op with
  | addEdge s d w =>
    simp only [Op.run] at h ⊢
    obtain ⟨⟨g₂, k⟩, h1, h2⟩ := bind_eq_ok.1 h
    injection h2 with h2; simp only at h2; subst h2
    obtain ⟨g₁', k1, k2, k3⟩ := doAddEdge_roomy (n := n) he hf (fun a b => by
      have := hn ⟨s, d, w⟩ (by simp [Op.edges, a, b]); exact this) h1
    exact ⟨g₁', by unfold InputGraph.addEdge; rw [k1]; rfl, k2, k3⟩
  | addEdgeBidir s d w =>
    simp only [Op.run] at h ⊢
    obtain ⟨⟨g₂, k⟩, h1, h2⟩ := bind_eq_ok.1 h
    injection h2 with h2; simp only at h2; subst h2
    obtain ⟨g₁', k1, k2, k3⟩ := doAddEdge_roomy (n := n) he hf (fun a b => by
      have := hn ⟨s, d, w⟩ (by simp [Op.edges, a, b]); exact this) h1
    exact ⟨g₁', by unfold InputGraph.addEdgeBidir; rw [k1]; rfl, k2, k3⟩
  | freeze =>
    simp only [Op.run] at h ⊢
    unfold InputGraph.freeze at h ⊢
    rw [hf]
    split at h
    · cases h
    rename_i h0
    rw [if_neg h0]
    injection h with h; subst h
    exact ⟨_, rfl, by simp only [he], rfl⟩
  | thaw =>
    simp only [Op.run] at h ⊢
    injection h with h; subst h
    exact ⟨_, rfl, he, rfl⟩

private theorem build_roomy {P : Plat} {n : Nat} : ∀ (ops : List Op) {g g' g₁ : InputGraph}, g'.edges = g.edges → g'.frozen = g.frozen →
    (∀ e ∈ accepted ops, max e.src e.dst + 1 ≤ n) → forM (fun g (op : Op) => op.run P g) g ops = .ok g₁ →
    ∃ g₁', forM (fun g (op : Op) => op.run (roomy P n) g) g' ops = .ok g₁' ∧ g₁'.edges = g₁.edges
  | [], g, g', g₁, he, _, _, h => by
    injection h with h; subst h
    exact ⟨g', rfl, he⟩
  | op :: ops, g, g', g₁, he, hf, hn, h => by
    rw [forM_cons] at h
    obtain ⟨g₂, h1, h2⟩ := bind_eq_ok.1 h
    obtain ⟨g₂', k1, k2, k3⟩ := run_roomy (n := n) he hf op (fun e hx => hn e (by simp [accepted]; exact Or.inl hx)) h1
    obtain ⟨g₁', k4, k5⟩ := build_roomy ops k2 k3 (fun e hx => hn e (by
      simp only [accepted, List.flatMap_cons, List.mem_append] at hx ⊢; exact Or.inr hx)) h2
    refine ⟨g₁', ?_, k5⟩
    rw [forM_cons, k1]
    exact k4

/-- **C112** In every build, also when the node count wrapped: every accepted edge is in the graph, up to parallel edges that are not
heavier, and every edge of the graph was accepted. -/
theorem C112_edges {P : Plat} {ops : List Op} {ig : InputGraph} (hb : buildGraph P ops = .ok ig) :
    (∀ e ∈ ig.edges, e ∈ accepted ops) ∧
    ∀ e ∈ accepted ops, ∃ e' ∈ ig.edges, (e'.src = e.src ∧ e'.dst = e.dst) ∧ e'.weight ≤ e.weight := by
  have hn : ∀ e ∈ accepted ops, max e.src e.dst + 1 ≤ nodeCount (accepted ops) := by
    intro e he
    generalize accepted ops = l at he
    induction l with
    | nil => cases he
    | cons x xs ih =>
      have hx : nodeCount (x :: xs) = max (nodeCount xs) (max x.src x.dst + 1) := rfl
      rcases List.mem_cons.1 he with rfl | he
      · omega
      · have := ih he; omega
  obtain ⟨g', h1, h2⟩ := build_roomy ops rfl rfl hn hb
  have hi := buildGraph_inv (P := roomy P (nodeCount (accepted ops))) (Or.inr (by simp only [roomy]; omega)) h1
  rw [← h2]
  exact ⟨hi.sub, fun e he => by
    obtain ⟨e', k1, k2, k3⟩ := hi.cov e he
    exact ⟨e', k1, k2, k3⟩⟩

private theorem fails_of {α : Type} {m : M α} (h : TriN m (fun _ => False)) : ∃ p, m = .error p ∧ p ≠ .outOfFuel ∧ p ≠ .debugAssertion := by
  cases e : m with
  | ok a => rw [e] at h; exact h.elim
  | error p => rw [e] at h; exact ⟨p, rfl, h⟩

/-- **C112** In every build: a graph with an edge whose end is not below the number of nodes cannot be prepared, `prepare_with_params` panics. -/
theorem C112_out_of_range {P : Plat} {ig : InputGraph} {e : Edge} (he : e ∈ ig.edges) (h : ig.numNodes ≤ max e.src e.dst) (pq : PQ)
    (nq : NodeQueue) (params : Params) :
    ∃ p, prepareWithParams P pq nq ig params = .error p ∧ p ≠ .outOfFuel ∧ p ≠ .debugAssertion := by
  apply fails_of
  unfold prepareWithParams buildWithParams InputGraph.getNumNodes InputGraph.checkFrozen
  cases hf : ig.frozen with
  | false => simp [assertM, bind, Except.bind]
  | true =>
    simp only [assertM_true, bind_okM]
    unfold runContraction FastGraph.new
    split
    · simp only [bind_okM]
      exact TriN.bind (fromInputGraph_loaded ig) (fun g hg => by have := hg.2.lt e he; omega)
    · simp

/-- **C112** The same for a given order: `prepare_with_order_with_params` panics or returns `Err`. -/
theorem C112_out_of_range_order {P : Plat} {ig : InputGraph} {e : Edge} (he : e ∈ ig.edges) (h : ig.numNodes ≤ max e.src e.dst) (pq : PQ)
    (order : List Nat) (maxSettled : Nat) :
    (∃ p, prepareWithOrderWithParams P pq ig order maxSettled = .error p ∧ p ≠ .outOfFuel ∧ p ≠ .debugAssertion) ∨
    ∃ msg, prepareWithOrderWithParams P pq ig order maxSettled = .ok (.error msg) := by
  unfold prepareWithOrderWithParams buildWithOrderWithParams InputGraph.getNumNodes InputGraph.checkFrozen
  cases hf : ig.frozen with
  | false => exact Or.inl ⟨.assertion, rfl, by simp⟩
  | true =>
    simp only [assertM_true, bind_okM]
    split
    · exact Or.inr ⟨_, rfl⟩
    · refine Or.inl (fails_of ?_)
      refine TriN.bind (Q := fun _ => False) ?_ (fun _ hx => hx.elim)
      unfold runContractionWithOrder FastGraph.new
      split
      · simp only [bind_okM]
        exact TriN.bind (fromInputGraph_loaded ig) (fun g hg => by have := hg.2.lt e he; omega)
      · simp

/-- **C112** Whatever the build: if a graph was prepared, no edge with the end `usize::MAX` was ever added, the node count did not wrap and is
what it should be. -/
theorem C112_prepared_no_wrap {P : Plat} {ops : List Op} {ig : InputGraph} {fg : FastGraph} (hc : Client P ops ig fg) :
    (∀ e ∈ accepted ops, e.src < P.umax ∧ e.dst < P.umax) ∧ ig.numNodes = nodeCount (accepted ops) ∧ nodeCount (accepted ops) ≤ P.umax := by
  have hle := buildGraph_num_le hc.built
  have hin : ∀ e ∈ ig.edges, max e.src e.dst < ig.numNodes := by
    intro e he
    by_contra hn
    have hn' : ig.numNodes ≤ max e.src e.dst := by omega
    cases hc.prepared with
    | default pq nq rel h =>
      obtain ⟨p, k, _⟩ := C112_out_of_range (P := P) he hn' pq nq (Params.default rel)
      rw [show prepareWithParams P pq nq ig (Params.default rel) = .ok fg from h] at k; cases k
    | params pq nq params h =>
      obtain ⟨p, k, _⟩ := C112_out_of_range (P := P) he hn' pq nq params
      rw [h] at k; cases k
    | order pq order perm h =>
      rcases C112_out_of_range_order (P := P) he hn' pq order paramsWithOrderDefault with ⟨p, k, _⟩ | ⟨msg, k⟩
      · rw [show prepareWithOrderWithParams P pq ig order paramsWithOrderDefault = .ok (.ok fg) from h] at k; cases k
      · rw [show prepareWithOrderWithParams P pq ig order paramsWithOrderDefault = .ok (.ok fg) from h] at k; cases k
    | orderParams pq order ms perm h =>
      rcases C112_out_of_range_order (P := P) he hn' pq order ms with ⟨p, k, _⟩ | ⟨msg, k⟩
      · rw [h] at k; cases k
      · rw [h] at k; cases k
  have hacc : ∀ e ∈ accepted ops, max e.src e.dst < ig.numNodes := by
    intro e he
    obtain ⟨e', k1, ⟨k2, k3⟩, _⟩ := (C112_edges hc.built).2 e he
    have := hin e' k1
    rw [k2, k3] at this
    exact this
  have hcnt : nodeCount (accepted ops) ≤ ig.numNodes := by
    generalize accepted ops = l at hacc
    induction l with
    | nil => exact Nat.zero_le _
    | cons x xs ih =>
      have hx : nodeCount (x :: xs) = max (nodeCount xs) (max x.src x.dst + 1) := rfl
      have a := ih (fun e he => hacc e (List.mem_cons_of_mem _ he))
      have b := hacc x (by simp)
      omega
  have hnw : nodeCount (accepted ops) ≤ P.umax := by omega
  exact ⟨fun e he => by have := hacc e he; omega, (buildGraph_inv (Or.inr hnw) hc.built).num, hnw⟩

/-- In a release build the edge from 0 to `usize::MAX` is accepted, the node count becomes 0, and preparing panics. -/
example : ∃ ig p, buildGraph release64 [.addEdge 0 release64.umax 1, .freeze] = .ok ig ∧ ig.numNodes = 0 ∧
    ∀ rel, prepare release64 binaryHeap listQueue rel ig = .error p :=
  ⟨⟨[⟨0, release64.umax, 1⟩], 0, true⟩, .assertion, rfl, rfl, fun _ => rfl⟩
example : ∃ p, prepareWithParams release64 binaryHeap listQueue ⟨[⟨0, release64.umax, 1⟩], 0, true⟩ (Params.default Ex.rel) = .error p ∧
    p ≠ .outOfFuel ∧ p ≠ .debugAssertion :=
  C112_out_of_range (e := ⟨0, release64.umax, 1⟩) (by decide) (by decide) _ _ _
example : Ex.ig.numNodes = nodeCount (accepted Ex.ops) := (C112_prepared_no_wrap exampleClient).2.1

end FP.Props
