import Verif.Proofs.Shape
import Verif.Props.Bounds
/-!
# Input graphs that were not built by the API

`InputGraph` derives `Deserialize` (input_graph.rs:35), so a client can hold any value of the type: unsorted edges, duplicate
edges, loops, ids out of range, zero weights. None of the invariants of graphs built by `add_edge` and `freeze` can be assumed
for them. The theorems below are about every value of the type.
-/
set_option autoImplicit false
namespace FP
namespace Props
open Spec

/-- The values that can be prepared: frozen, ids in range, no loops and no two edges with the same end points. The edges may
come in any order and weights may be zero. -/
structure WellFormed (ig : InputGraph) : Prop where
  frozen : ig.frozen = true
  src_lt : ∀ e ∈ ig.edges, e.src < ig.numNodes
  dst_lt : ∀ e ∈ ig.edges, e.dst < ig.numNodes
  no_loop : ∀ e ∈ ig.edges, e.src ≠ e.dst
  distinct : ig.edges.Pairwise (fun e f => ¬ (e.src = f.src ∧ e.dst = f.dst))

instance (ig : InputGraph) : Decidable (WellFormed ig) :=
  decidable_of_iff (ig.frozen = true ∧ (∀ e ∈ ig.edges, e.src < ig.numNodes) ∧ (∀ e ∈ ig.edges, e.dst < ig.numNodes) ∧
      (∀ e ∈ ig.edges, e.src ≠ e.dst) ∧ ig.edges.Pairwise (fun e f => ¬ (e.src = f.src ∧ e.dst = f.dst)))
    ⟨fun h => ⟨h.1, h.2.1, h.2.2.1, h.2.2.2.1, h.2.2.2.2⟩, fun h => ⟨h.1, h.2, h.3, h.4, h.5⟩⟩

private theorem wf_iff (ig : InputGraph) : WellFormed ig ↔ FrozenOk ig := by
  have hd : (ig.edges.map (fun e => (e.src, e.dst))).Nodup ↔
      ig.edges.Pairwise (fun e f => ¬ (e.src = f.src ∧ e.dst = f.dst)) := by
    rw [List.Nodup, List.pairwise_map]
    simp only [ne_eq, Prod.mk.injEq]
  constructor
  · intro h
    exact ⟨h.1, h.4, fun e he => ⟨h.2 e he, h.3 e he⟩, hd.2 h.5⟩
  · intro h
    exact ⟨h.1, fun e he => (h.3 e he).1, fun e he => (h.3 e he).2, h.2, hd.1 h.4⟩

private theorem not_ok_of_triN {α : Type} {m : M α} (h : TriN m (fun _ => False)) :
    ∃ p, m = .error p ∧ p ≠ .outOfFuel ∧ p ≠ .debugAssertion := by
  cases e : m with
  | ok a => rw [e] at h; exact h.elim
  | error p => rw [e] at h; exact ⟨p, rfl, h⟩

private theorem getNumNodes_unfrozen {ig : InputGraph} (hf : ¬ ig.frozen = true) : ig.getNumNodes = .error .assertion := by
  unfold InputGraph.getNumNodes InputGraph.checkFrozen
  simp only [Bool.not_eq_true] at hf
  rw [hf]
  rfl

/-- **C76, malformed values** Preparing a value that is not well-formed panics: `prepare` and `prepare_with_params`. -/
theorem C76_malformed_panics {P : Plat} (hP : P.checked = true) {ig : InputGraph} (h : ¬ WellFormed ig) (pq : PQ)
    (nq : NodeQueue) (params : Params) :
    ∃ p, prepareWithParams P pq nq ig params = .error p ∧ p ≠ .outOfFuel ∧ p ≠ .debugAssertion := by
  unfold prepareWithParams buildWithParams
  by_cases hf : ig.frozen = true
  · rw [getNumNodes_frozen hf]
    exact not_ok_of_triN (runContraction_malformed hP hf ((wf_iff ig).not.1 h) params)
  · rw [getNumNodes_unfrozen hf]
    exact ⟨.assertion, rfl, by simp⟩

/-- **C76, malformed values, default parameters** -/
theorem C76_malformed_panics_default {P : Plat} (hP : P.checked = true) {ig : InputGraph} (h : ¬ WellFormed ig) (pq : PQ)
    (nq : NodeQueue) (relevance : Nat → Int → Nat → Nat) :
    ∃ p, prepare P pq nq relevance ig = .error p ∧ p ≠ .outOfFuel ∧ p ≠ .debugAssertion :=
  C76_malformed_panics hP h pq nq (Params.default relevance)

/-- **C76, malformed values, given order** -/
theorem C76_malformed_panics_order {P : Plat} (hP : P.checked = true) {ig : InputGraph} (h : ¬ WellFormed ig) (pq : PQ)
    {order : List Nat} (ho : order.Perm (List.range ig.numNodes)) (maxSettled : Nat) :
    ∃ p, prepareWithOrderWithParams P pq ig order maxSettled = .error p ∧ p ≠ .outOfFuel ∧ p ≠ .debugAssertion := by
  unfold prepareWithOrderWithParams buildWithOrderWithParams
  by_cases hf : ig.frozen = true
  · rw [getNumNodes_frozen hf]
    simp only [bind_okM]
    rw [if_neg (by simp [ho.length_eq])]
    obtain ⟨p, e, hp⟩ := not_ok_of_triN (runContractionWithOrder_malformed (pq := pq) hP hf ((wf_iff ig).not.1 h) ho maxSettled)
    rw [e]
    exact ⟨p, rfl, hp⟩
  · rw [getNumNodes_unfrozen hf]
    exact ⟨.assertion, rfl, by simp⟩

/-- **C76, malformed values, every build** Without overflow checks the same panic happens unless the checked build overflows. -/
theorem C76_malformed_panics_release {P : Plat} {ig : InputGraph} (h : ¬ WellFormed ig) (pq : PQ) (nq : NodeQueue)
    (params : Params) (ho : prepareWithParams P.debug pq nq ig params ≠ .error .overflow) :
    ∃ p, prepareWithParams P pq nq ig params = .error p ∧ p ≠ .outOfFuel := by
  obtain ⟨p, e, hp⟩ := C76_malformed_panics (P := P.debug) rfl h pq nq params
  refine ⟨p, ?_, hp.1⟩
  rcases ref_buildWithParams P (pq := pq) (nq := nq) ig params with h' | h' | h'
  · exact absurd h' ho
  · exact absurd (Except.error.inj (e.symm.trans h')) hp.2
  · exact h'.symm.trans e

/-- **C76, prepared values are well-formed** -/
theorem C76_prepared_is_well_formed {P : Plat} (hP : P.checked = true) {ig : InputGraph} {fg : FastGraph}
    (h : Prepared P ig fg) : WellFormed ig := by
  by_contra hw
  cases h with
  | default pq nq rel h =>
    obtain ⟨p, e, _⟩ := C76_malformed_panics_default hP hw pq nq rel
    rw [h] at e; cases e
  | params pq nq params h =>
    obtain ⟨p, e, _⟩ := C76_malformed_panics hP hw pq nq params
    rw [h] at e; cases e
  | order pq order perm h =>
    obtain ⟨p, e, _⟩ := C76_malformed_panics_order hP hw pq perm paramsWithOrderDefault
    rw [show prepareWithOrderWithParams P pq ig order paramsWithOrderDefault = _ from h] at e; cases e
  | orderParams pq order ms perm h =>
    obtain ⟨p, e, _⟩ := C76_malformed_panics_order hP hw pq perm ms
    rw [h] at e; cases e

/-- **C76, answers** Whatever value of the type was prepared: a returned path is a walk along its edges, of the reported weight
and end points, and no walk is lighter. -/
theorem C76_answer_is_minimal {P : Plat} (hP : P.checked = true) {ig : InputGraph} {fg : FastGraph} (h : Prepared P ig fg)
    (pq : PQ) {s t : Nat} {p : ShortestPath} (hq : calcPath P pq fg s t = .ok (some p)) :
    IsDist (edgesOf ig.edges) s t p.weight ∧ IsWalk (edgesOf ig.edges) p.nodes p.weight ∧ p.nodes.head? = some s ∧
      p.nodes.getLast? = some t ∧ p.source = s ∧ p.target = t := by
  have hg := h.good hP ((wf_iff ig).1 (C76_prepared_is_well_formed hP h))
  obtain ⟨_, h2, h3, h4, h5, h6, h7⟩ := (query_good hP hg (query_single hq)).2.single.2 p rfl
  exact ⟨h7, h4, h5, h6, h2, h3⟩

/-- **C76, no answer** -/
theorem C76_none_iff_unreachable {P : Plat} (hP : P.checked = true) {ig : InputGraph} {fg : FastGraph} (h : Prepared P ig fg)
    (pq : PQ) {s t : Nat} {r : Option ShortestPath} (hq : calcPath P pq fg s t = .ok r) :
    r = none ↔ ¬ ∃ w < P.umax, HasWalk (edgesOf ig.edges) s t w := by
  have hg := h.good hP ((wf_iff ig).1 (C76_prepared_is_well_formed hP h))
  rw [(query_good hP hg (query_single hq)).2.found_iff]
  constructor
  · rintro h ⟨w, hw, hk⟩
    have := h w (hasRoute_single.2 hk)
    omega
  · intro h total ht
    by_contra hlt
    exact h ⟨total, by omega, hasRoute_single.1 ht⟩

/-- **C76, several sources and targets** -/
theorem C76_multi_answer_is_minimal {P : Plat} (hP : P.checked = true) {ig : InputGraph} {fg : FastGraph}
    (h : Prepared P ig fg) (pq : PQ) {S T : List (Nat × Nat)} {r : Option ShortestPath}
    (hq : calcPathMulti P pq fg S T = .ok r) :
    (r = none ↔ ∀ total, HasRoute (edgesOf ig.edges) S T total → P.umax ≤ total) ∧
    ∀ p, r = some p → HasRoute (edgesOf ig.edges) S T p.weight ∧
      ∀ total, HasRoute (edgesOf ig.edges) S T total → p.weight ≤ total := by
  have hg := h.good hP ((wf_iff ig).1 (C76_prepared_is_well_formed hP h))
  have ha := (query_good hP hg hq).2
  refine ⟨ha.found_iff, ?_⟩
  rintro p rfl
  exact ⟨ha.route, ha.2.2⟩

/-- **C76, well-formed values can be prepared** under the bounds that suffice for graphs built by the API (C33), in every
build. -/
theorem C76_well_formed_prepares {P : Plat} {ig : InputGraph} (h : WellFormed ig) {W : Nat} (hW : ∀ e ∈ ig.edges, e.weight ≤ W)
    (hfit : 2 ^ (ig.numNodes + 2) * W ≤ P.umax) (hcap : ig.numNodes * ig.numNodes < P.umax)
    (hcnt : ig.numNodes * ig.numNodes ≤ I32_MAX) (pq : PQ) (nq : NodeQueue) (params : Params) :
    ∃ fg, prepareWithParams P pq nq ig params = .ok fg := by
  obtain ⟨fg, e⟩ := runContraction_total (P := P.debug) (pq := pq) (nq := nq) rfl ((wf_iff ig).1 h) params
    (stepsOk_any _ _ _ _) (PrepFits.bounded (P := P.debug) ⟨hfit, hcap⟩ hW) hcnt
  have e' : buildWithParams P.debug pq nq ig params = .ok fg := by
    unfold buildWithParams
    rw [getNumNodes_frozen h.frozen]
    exact e
  refine ⟨fg, ?_⟩
  rcases ref_buildWithParams P (pq := pq) (nq := nq) ig params with h' | h' | h' <;> rw [e'] at h'
  · cases h'
  · cases h'
  · exact h'.symm

/-- **C76, well-formed values can be prepared, given order** -/
theorem C76_well_formed_prepares_order {P : Plat} {ig : InputGraph} (h : WellFormed ig) {W : Nat}
    (hW : ∀ e ∈ ig.edges, e.weight ≤ W) (hfit : 2 ^ (ig.numNodes + 2) * W ≤ P.umax)
    (hcap : ig.numNodes * ig.numNodes < P.umax) (pq : PQ) {order : List Nat} (ho : order.Perm (List.range ig.numNodes))
    (maxSettled : Nat) : ∃ fg, prepareWithOrderWithParams P pq ig order maxSettled = .ok (.ok fg) := by
  obtain ⟨fg, e⟩ := runContractionWithOrder_total (P := P.debug) (pq := pq) rfl ((wf_iff ig).1 h) ho maxSettled
    (stepsOk_any _ _ _ _) (PrepFits.bounded (P := P.debug) ⟨hfit, hcap⟩ hW)
  have e' : buildWithOrderWithParams P.debug pq ig order maxSettled = .ok (.ok fg) := by
    unfold buildWithOrderWithParams
    rw [getNumNodes_frozen h.frozen]
    simp only [bind_okM]
    rw [if_neg (by simp [ho.length_eq]), e]
    rfl
  refine ⟨fg, ?_⟩
  rcases ref_buildWithOrder P (pq := pq) ig order maxSettled with h' | h' | h' <;> rw [e'] at h'
  · cases h'
  · cases h'
  · exact h'.symm

/-- An unsorted value with a zero weight and isolated nodes, which no sequence of API calls produces. -/
def looseGraph : InputGraph := ⟨[⟨1, 2, 7⟩, ⟨0, 1, 3⟩, ⟨2, 3, 0⟩], 6, true⟩
/-- What it is prepared to. -/
def looseFast : FastGraph :=
  match prepareWithOrder debug64 binaryHeap looseGraph [1, 2, 0, 3, 5, 4] with
  | .ok (.ok fg) => fg
  | _ => ⟨0, [], [], [], [], []⟩
theorem looseFast_eq : prepareWithOrder debug64 binaryHeap looseGraph [1, 2, 0, 3, 5, 4] = .ok (.ok looseFast) := rfl
theorem loosePrepared : Prepared debug64 looseGraph looseFast := .order binaryHeap _ (by decide) looseFast_eq

example : WellFormed looseGraph := C76_prepared_is_well_formed rfl loosePrepared
example : IsDist (edgesOf looseGraph.edges) 0 3 10 :=
  (C76_answer_is_minimal (p := ⟨0, 3, 10, [0, 1, 2, 3]⟩) rfl loosePrepared binaryHeap rfl).1
example : ¬ ∃ w < debug64.umax, HasWalk (edgesOf looseGraph.edges) 3 0 w :=
  (C76_none_iff_unreachable (r := none) rfl loosePrepared binaryHeap rfl).1 rfl
example : ∀ total, HasRoute (edgesOf looseGraph.edges) [(0, 5), (1, 9)] [(2, 2), (3, 1)] total → 16 ≤ total :=
  ((C76_multi_answer_is_minimal rfl loosePrepared binaryHeap (r := some ⟨0, 3, 16, [0, 1, 2, 3]⟩) rfl).2 _ rfl).2
example : ∃ fg, prepareWithParams release64 binaryHeap listQueue looseGraph (Params.default Ex.rel) = .ok fg :=
  C76_well_formed_prepares (W := 7) (by decide) (by decide) (by decide) (by decide) (by decide) _ _ _
example : ∃ fg, prepareWithOrderWithParams debug32 binaryHeap looseGraph [5, 4, 3, 2, 1, 0] 0 = .ok (.ok fg) :=
  C76_well_formed_prepares_order (W := 7) (by decide) (by decide) (by decide) (by decide) _ (by decide) _
/-- A loop, parallel edges, an id out of range and a graph that was not frozen. -/
example : ∃ p, prepare debug64 binaryHeap listQueue Ex.rel ⟨[⟨0, 1, 3⟩, ⟨1, 1, 3⟩], 2, true⟩ = .error p ∧ p ≠ .outOfFuel ∧ p ≠ .debugAssertion :=
  C76_malformed_panics_default rfl (by decide) _ _ _
example : ∃ p, prepare debug64 binaryHeap listQueue Ex.rel ⟨[⟨0, 1, 3⟩, ⟨0, 1, 4⟩], 2, true⟩ = .error p ∧ p ≠ .outOfFuel ∧ p ≠ .debugAssertion :=
  C76_malformed_panics_default rfl (by decide) _ _ _
example : ∃ p, prepareWithParams debug64 binaryHeap listQueue ⟨[⟨0, 2, 3⟩], 2, true⟩ (Params.default Ex.rel) = .error p ∧
    p ≠ .outOfFuel ∧ p ≠ .debugAssertion := C76_malformed_panics rfl (by decide) _ _ _
example : ∃ p, prepareWithOrderWithParams debug64 binaryHeap ⟨[⟨0, 1, 3⟩], 2, false⟩ [1, 0] 5 = .error p ∧ p ≠ .outOfFuel ∧ p ≠ .debugAssertion :=
  C76_malformed_panics_order rfl (by decide) _ (by decide) _

/-- **C76, simple paths** Without edges of weight zero a returned path visits no node twice. -/
theorem C76_path_is_simple {P : Plat} (hP : P.checked = true) {ig : InputGraph} {fg : FastGraph} (h : Prepared P ig fg)
    (hpos : ∀ e ∈ ig.edges, 0 < e.weight) (pq : PQ) {s t : Nat} {p : ShortestPath}
    (hq : calcPath P pq fg s t = .ok (some p)) : p.nodes.Nodup := by
  obtain ⟨h1, h2, h3, h4, _⟩ := C76_answer_is_minimal hP h pq hq
  exact isWalk_nodup (fun u v w he => hpos ⟨u, v, w⟩ he) h2 h3 h4 (fun w' hw => h1.2 w' (hasWalk_iff.2 hw))

example : ([0, 1, 2, 3, 4] : List Nat).Nodup := C76_path_is_simple rfl Ex.prepared' (by decide) binaryHeap Ex.query'

example : ∃ p, prepareWithParams release64 binaryHeap listQueue ⟨[⟨0, 1, 3⟩, ⟨0, 1, 4⟩], 2, true⟩ (Params.default Ex.rel) =
    .error p ∧ p ≠ .outOfFuel :=
  C76_malformed_panics_release (by decide) _ _ _ (by
    rw [show prepareWithParams release64.debug binaryHeap listQueue ⟨[⟨0, 1, 3⟩, ⟨0, 1, 4⟩], 2, true⟩ (Params.default Ex.rel) =
      .error .assertion from rfl]
    simp)

/-- A value with edges of weight zero in both directions between nodes 1 and 3. -/
def zeroGraph : InputGraph := ⟨[⟨0, 3, 1⟩, ⟨3, 2, 1⟩, ⟨3, 1, 0⟩, ⟨1, 3, 0⟩], 4, true⟩

/-- **C76, simple paths, zero weights** The claim that returned paths visit no node twice, which holds for graphs built by the API (C04), does not
hold for all values: with edges of weight zero a path can pass through a node twice. -/
theorem C76_simple_path_false : ¬ ∀ (ig : InputGraph) (fg : FastGraph) (pq : PQ) (s t : Nat) (p : ShortestPath),
    Prepared debug64 ig fg → calcPath debug64 pq fg s t = .ok (some p) → p.nodes.Nodup := by
  intro h
  have hp : ∃ fg, prepareWithOrder debug64 binaryHeap zeroGraph [3, 2, 0, 1] = .ok (.ok fg) ∧
      calcPath debug64 binaryHeap fg 0 2 = .ok (some ⟨0, 2, 2, [0, 3, 1, 3, 2]⟩) := ⟨_, rfl, rfl⟩
  obtain ⟨fg, e, q⟩ := hp
  exact absurd (h zeroGraph fg binaryHeap 0 2 _ (.order binaryHeap _ (by decide) e) q) (by decide)

end Props
end FP
