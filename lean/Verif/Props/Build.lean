import Verif.Proofs.Refine
import Verif.Proofs.Halves
import Verif.Props.Query
/-!
# Builds with and without overflow checks

`P.debug` is the build with overflow checks and debug assertions for the same word size.
-/
set_option autoImplicit false
namespace FP
namespace Props
open Spec

/-- Same word size, checks on. -/
theorem debug_checked (P : Plat) : P.debug.checked = true := rfl
example : release64.debug = debug64 := rfl

/-- **C32, graphs** A graph built with checks and no panic is built identically without. -/
theorem C32_build_graph {P : Plat} {ops : List Op} {ig : InputGraph} (h : buildGraph P.debug ops = .ok ig) :
    buildGraph P ops = .ok ig := by
  rcases ref_buildGraph P ops with h' | h' | h' <;> rw [h] at h'
  · cases h'
  · cases h'
  · exact h'.symm

/-- **C32, preparation** A preparation that returns with checks returns the same graph without. -/
theorem C32_prepared {P : Plat} {ig : InputGraph} {fg : FastGraph} (h : Prepared P.debug ig fg) : Prepared P ig fg := by
  have wp : ∀ {pq : PQ} {nq : NodeQueue} {params : Params}, buildWithParams P.debug pq nq ig params = .ok fg →
      buildWithParams P pq nq ig params = .ok fg := by
    intro pq nq params h
    rcases ref_buildWithParams P (pq := pq) (nq := nq) ig params with h' | h' | h' <;> rw [h] at h'
    · cases h'
    · cases h'
    · exact h'.symm
  have wo : ∀ {pq : PQ} {order : List Nat} {ms : Nat}, buildWithOrderWithParams P.debug pq ig order ms = .ok (.ok fg) →
      buildWithOrderWithParams P pq ig order ms = .ok (.ok fg) := by
    intro pq order ms h
    rcases ref_buildWithOrder P (pq := pq) ig order ms with h' | h' | h' <;> rw [h] at h'
    · cases h'
    · cases h'
    · exact h'.symm
  cases h with
  | default pq nq rel h => exact .default pq nq rel (wp h)
  | params pq nq params h => exact .params pq nq params (wp h)
  | order pq order perm h => exact .order pq order perm (wo h)
  | orderParams pq order ms perm h => exact .orderParams pq order ms perm (wo h)

/-- **C32, whole clients** -/
theorem C32_client {P : Plat} {ops : List Op} {ig : InputGraph} {fg : FastGraph} (h : Client P.debug ops ig fg) :
    Client P ops ig fg := ⟨C32_build_graph h.built, h.frozen, C32_prepared h.prepared⟩

/-- **C32, queries** A query that does not overflow with checks has the same result without: same path, same `None`, same
panic. Any graph, any calculator state, any arguments. -/
theorem C32_query (P : Plat) (pq : PQ) (c : PathCalculator pq) (fg : FastGraph) (S T : List (Nat × Nat))
    (h : c.calcPathMulti P.debug fg S T ≠ .error .overflow) :
    c.calcPathMulti P fg S T = c.calcPathMulti P.debug fg S T := by
  rcases ref_calcPathMulti P c fg S T with h' | h' | h'
  · exact absurd h' h
  · exact absurd h' (qerr_calcPathMulti P.debug c fg S T).2
  · exact h'.symm

/-- **C32, preparation by parameters**, including panics. -/
theorem C32_prepare_with_params {P : Plat} {ops : List Op} {ig : InputGraph} (hb : buildGraph P.debug ops = .ok ig)
    (hf : ig.frozen = true) (pq : PQ) (nq : NodeQueue) (params : Params)
    (h : prepareWithParams P.debug pq nq ig params ≠ .error .overflow) :
    prepareWithParams P pq nq ig params = prepareWithParams P.debug pq nq ig params := by
  have hi := (buildGraph_inv (Or.inl rfl) hb).frozenOk hf
  have ht := buildWithParams_ok (P := P.debug) (pq := pq) (nq := nq) rfl hi params
  rcases ref_buildWithParams P (pq := pq) (nq := nq) ig params with h' | h' | h'
  · exact absurd h' h
  · rw [h'] at ht; exact ht.elim
  · exact h'.symm

/-- **C32, preparation by order**, including panics. -/
theorem C32_prepare_with_order {P : Plat} {ops : List Op} {ig : InputGraph} (hb : buildGraph P.debug ops = .ok ig)
    (hf : ig.frozen = true) (pq : PQ) {order : List Nat} (ho : order.Perm (List.range ig.numNodes)) (maxSettled : Nat)
    (h : prepareWithOrderWithParams P.debug pq ig order maxSettled ≠ .error .overflow) :
    prepareWithOrderWithParams P pq ig order maxSettled = prepareWithOrderWithParams P.debug pq ig order maxSettled := by
  have hi := (buildGraph_inv (Or.inl rfl) hb).frozenOk hf
  have ht := buildWithOrder_ok (P := P.debug) (pq := pq) rfl hi ho maxSettled
  rcases ref_buildWithOrder P (pq := pq) ig order maxSettled with h' | h' | h'
  · exact absurd h' h
  · rw [h'] at ht; exact ht.elim
  · exact h'.symm

/-- **C32, preparation of any value** The input graph need not be built by the API (it can be deserialised) and the order
need not be a permutation: without overflow both builds return the same graph, the same `Err` or the same panic. -/
theorem C32_prepare_any {P : Plat} (pq : PQ) (nq : NodeQueue) (ig : InputGraph) :
    (∀ params, prepareWithParams P.debug pq nq ig params ≠ .error .overflow →
      prepareWithParams P pq nq ig params = prepareWithParams P.debug pq nq ig params) ∧
    ∀ (order : List Nat) (maxSettled : Nat), prepareWithOrderWithParams P.debug pq ig order maxSettled ≠ .error .overflow →
      prepareWithOrderWithParams P pq ig order maxSettled = prepareWithOrderWithParams P.debug pq ig order maxSettled := by
  refine ⟨fun params h => ?_, fun order ms h => ?_⟩
  · rcases ref_buildWithParams P (pq := pq) (nq := nq) ig params with h' | h' | h'
    · exact absurd h' h
    · exact absurd h' (buildWithParams_noDebug P.debug ig params)
    · exact h'.symm
  · rcases ref_buildWithOrder P (pq := pq) ig order ms with h' | h' | h'
    · exact absurd h' h
    · exact absurd h' (buildWithOrder_noDebug P.debug ig order ms)
    · exact h'.symm

/-- **C32, debug assertions** of `finish_contraction` hold for every value, every list of nodes, all parameters. -/
theorem C32_debug_assertions_hold (P : Plat) (pq : PQ) (nq : NodeQueue) (ig : InputGraph) :
    (∀ params, prepareWithParams P pq nq ig params ≠ .error .debugAssertion) ∧
    ∀ (order : List Nat) (maxSettled : Nat), prepareWithOrderWithParams P pq ig order maxSettled ≠ .error .debugAssertion :=
  ⟨fun params => buildWithParams_noDebug P ig params, fun order ms => buildWithOrder_noDebug P ig order ms⟩

example : Client release64 Ex.ops Ex.ig Ex.fg := C32_client (P := release64) exampleClient
example : calcPath release64 binaryHeap Ex.fg 0 4 = .ok (some Ex.path) := rfl
/-- A list that is no permutation: node 4 is missing, node 3 comes twice. Both builds accept it. -/
example : (prepareWithOrderWithParams debug64 binaryHeap Ex.ig [0, 1, 2, 3, 3] 100).map (fun r => r.toOption.map (·.ranks)) =
      .ok (some [0, 1, 2, 4, 0]) ∧
    (prepareWithOrderWithParams release64 binaryHeap Ex.ig [0, 1, 2, 3, 3] 100).map (fun r => r.toOption.map (·.ranks)) =
      .ok (some [0, 1, 2, 4, 0]) := ⟨rfl, rfl⟩
/-- With an overflow the builds differ. -/
example : calcPathMulti release64 binaryHeap Ex.fg [(0, Ex.inv - 1)] [(0, 2)] = .ok (some ⟨0, 0, 0, [0]⟩) ∧
    calcPathMulti debug64 binaryHeap Ex.fg [(0, Ex.inv - 1)] [(0, 2)] = .error .overflow := ⟨rfl, rfl⟩

end Props
end FP
