import Verif.Proofs.Unwind
import Verif.Props.Query
/-!
# Clients that catch panics

`Verif.Model.Unwind` keeps the state a panicking call leaves behind. Neither a `PathCalculator` nor an `InputGraph` is
damaged by a panic.
-/
set_option autoImplicit false
namespace FP
namespace Props
open Spec PathCalculator

/-- **C67** Keeping the state of panicking runs changes no result: same answer, same panic, and if there is no panic the
same calculator as in `PathCalculator.calcPathMulti`. -/
theorem C67_same_results (P : Plat) (pq : PQ) (g : FastGraph) (S T : List (Nat × Nat)) (c : PathCalculator pq) :
    (calcPathMultiU P g S T c).1 = (c.calcPathMulti P g S T).map Prod.snd ∧
      ∀ c' r, c.calcPathMulti P g S T = .ok (c', r) → calcPathMultiU P g S T c = (.ok r, c') := by
  constructor
  · rw [U.out_fst, out_calcPathMultiU]
    cases c.calcPathMulti P g S T <;> rfl
  · intro c' r h
    refine U.out_snd ?_
    rw [out_calcPathMultiU, h]
    rfl

/-- **C67** A calculator that has been used for any sequence of queries, on any graphs and with any arguments, and that
survived every panic on the way answers the next query like a fresh calculator. No assumption on overflow checks. -/
theorem C67_reuse_after_panics (P : Plat) (pq : PQ) (n : Nat) (history : List Request) (q : Request) :
    (calcPathMultiU P q.graph q.sources q.targets (runRequestsU P (PathCalculator.new P pq n) history)).1 =
      ((PathCalculator.new P pq n).calcPathMulti P q.graph q.sources q.targets).map Prod.snd := by
  rw [(C67_same_results P pq _ _ _ _).1]
  have h1 := runRequestsU_ok (P := P) history _ (CalcOk.new P pq n)
  have h2 := CalcOk.new P pq n
  have := calcPathMulti_rel (P := P) h1.num h2.num h1.f h1.b h2.f h2.b q.graph q.sources q.targets
  revert this
  generalize runRequestsU P (PathCalculator.new P pq n) history = c
  cases c.calcPathMulti P q.graph q.sources q.targets <;>
    cases (PathCalculator.new P pq n).calcPathMulti P q.graph q.sources q.targets <;> intro h
  · exact congrArg Except.error h
  · exact h.elim
  · exact h.elim
  · exact congrArg Except.ok h.1

/-- **C67** In particular its answers on a prepared graph are shortest paths. -/
theorem C67_right_after_panics {P : Plat} (hP : P.checked = true) {ops : List Op} {ig : InputGraph} {fg : FastGraph}
    (hc : Client P ops ig fg) (pq : PQ) (history : List Request) {s t : Nat} {r : Option ShortestPath}
    (hq : (calcPathU P fg s t (runRequestsU P (PathCalculator.new P pq fg.getNumNodes) history)).1 = .ok r) :
    (∀ p, r = some p → IsDist (edgesOf (accepted ops)) s t p.weight ∧ p.nodes.head? = some s ∧
        p.nodes.getLast? = some t ∧ IsWalk (edgesOf ig.edges) p.nodes p.weight) ∧
      (r = none ↔ ¬ ∃ w < P.umax, HasWalk (edgesOf (accepted ops)) s t w) := by
  have e := C67_reuse_after_panics P pq fg.getNumNodes history ⟨fg, [(s, 0)], [(t, 0)]⟩
  have hq' : calcPath P pq fg s t = .ok r := by
    unfold calcPathU at hq
    rw [e] at hq
    exact hq
  refine ⟨?_, C02_none_iff_unreachable hP hc pq hq'⟩
  rintro p rfl
  have h3 := C03_nodes_are_a_path hP hc pq hq'
  exact ⟨C01_calc_path_is_minimal hP hc pq hq', h3.1, h3.2.1, h3.2.2.2.2⟩

/-- **C67** A query rejected because of its arguments leaves the calculator untouched. -/
theorem C67_rejected_query_changes_nothing (P : Plat) (pq : PQ) (g : FastGraph) (S T : List (Nat × Nat))
    (c : PathCalculator pq) (h : g.getNumNodes ≠ c.numNodes ∨ S = [] ∨ T = [] ∨ (∃ s ∈ S, c.numNodes ≤ s.1) ∨
      ∃ t ∈ T, c.numNodes ≤ t.1) :
    calcPathMultiU P g S T c = (.error .assertion, c) := by
  have hck : checkArgs c g S T = .error .assertion := by
    unfold checkArgs assertM
    by_cases h1 : (g.getNumNodes == c.numNodes) = true
    · rw [if_pos h1]
      by_cases h2 : (!S.isEmpty) = true
      · rw [if_pos h2]
        by_cases h3 : (!T.isEmpty) = true
        · rw [if_pos h3]
          by_cases h4 : (S.all (fun s => decide (s.1 < c.numNodes))) = true
          · rw [if_pos h4]
            by_cases h5 : (T.all (fun s => decide (s.1 < c.numNodes))) = true
            · exfalso
              simp only [List.all_eq_true, decide_eq_true_eq] at h4 h5
              rcases h with h | h | h | ⟨s, hs, h⟩ | ⟨t, ht, h⟩
              · exact h (by simpa using h1)
              · subst h; simp at h2
              · subst h; simp at h3
              · have := h4 s hs; omega
              · have := h5 t ht; omega
            · rw [if_neg h5]; rfl
          · rw [if_neg h4]; rfl
        · rw [if_neg h3]; rfl
      · rw [if_neg h2]; rfl
    · rw [if_neg h1]; rfl
  refine U.bind_run_err ?_
  show (checkArgs c g S T, c) = _
  rw [hck]

/-! ### `InputGraph` -/

/-- Does a call succeed on a graph that is (not) frozen? Adding an edge fails on frozen graphs and, with overflow checks,
for the node id `usize::MAX`; freezing fails on frozen graphs. -/
def succeeds (umax : Nat) (frozen : Bool) : Op → Bool
  | .addEdge s d w => !frozen && (decide (s = d) || decide (w = 0) || (decide (s < umax) && decide (d < umax)))
  | .addEdgeBidir s d w => !frozen && (decide (s = d) || decide (w = 0) || (decide (s < umax) && decide (d < umax)))
  | .freeze => !frozen
  | .thaw => true

/-- Is the graph frozen after a call that succeeded? -/
def frozenAfter (frozen : Bool) : Op → Bool
  | .freeze => true
  | .thaw => false
  | _ => frozen

/-- The calls that succeed, starting with a graph that is (not) frozen. -/
def succeeding (umax : Nat) : Bool → List Op → List Op
  | _, [] => []
  | frozen, op :: ops =>
    if succeeds umax frozen op then op :: succeeding umax (frozenAfter frozen op) ops else succeeding umax frozen ops

/-- **C67** A call on an `InputGraph` that panics leaves the graph as it was; the others behave like `Op.run`. -/
theorem C67_failed_call_changes_nothing (P : Plat) (g : InputGraph) (op : Op) :
    (∃ g', op.run P g = .ok g' ∧ op.runU P g = (.ok (), g')) ∨ (∃ e, op.run P g = .error e ∧ op.runU P g = (.error e, g)) := by
  cases op with
  | addEdge s d w =>
    rcases doAddEdgeU_cases P g s d w false with ⟨g', k, h1, h2⟩ | ⟨e, h1, h2⟩
    · refine Or.inl ⟨g', ?_, ?_⟩
      · show (InputGraph.doAddEdge P g s d w false >>= _) = _; rw [h1]; rfl
      · exact U.bind_run_ok h2
    · refine Or.inr ⟨e, ?_, ?_⟩
      · show (InputGraph.doAddEdge P g s d w false >>= _) = _; rw [h1]; rfl
      · exact U.bind_run_err h2
  | addEdgeBidir s d w =>
    rcases doAddEdgeU_cases P g s d w true with ⟨g', k, h1, h2⟩ | ⟨e, h1, h2⟩
    · refine Or.inl ⟨g', ?_, ?_⟩
      · show (InputGraph.doAddEdge P g s d w true >>= _) = _; rw [h1]; rfl
      · exact U.bind_run_ok h2
    · refine Or.inr ⟨e, ?_, ?_⟩
      · show (InputGraph.doAddEdge P g s d w true >>= _) = _; rw [h1]; rfl
      · exact U.bind_run_err h2
  | freeze =>
    by_cases h1 : g.frozen = true
    · exact Or.inr ⟨.assertion, by
        show (if g.frozen = true then _ else _) = _
        rw [if_pos h1], by
        show (if g.frozen = true then _ else _ : U InputGraph Unit) g = _
        rw [if_pos h1]; rfl⟩
    · exact Or.inl ⟨_, by
        show (if g.frozen = true then _ else _) = _
        rw [if_neg h1], by
        show (if g.frozen = true then _ else _ : U InputGraph Unit) g = _
        rw [if_neg h1]; rfl⟩
  | thaw => exact Or.inl ⟨_, rfl, rfl⟩

/-- Which calls succeed, and whether the graph is frozen afterwards. -/
theorem run_succeeds {P : Plat} (hP : P.checked = true) (g : InputGraph) (op : Op) :
    (succeeds P.umax g.frozen op = true ∧ ∃ g', op.run P g = .ok g' ∧ g'.frozen = frozenAfter g.frozen op) ∨
      (succeeds P.umax g.frozen op = false ∧ ∃ e, op.run P g = .error e) := by
  have add : ∀ s d w b, (!g.frozen && (decide (s = d) || decide (w = 0) || (decide (s < P.umax) && decide (d < P.umax)))) = true ∧
        (∃ g' k, InputGraph.doAddEdge P g s d w b = .ok (g', k) ∧ g'.frozen = g.frozen) ∨
      (!g.frozen && (decide (s = d) || decide (w = 0) || (decide (s < P.umax) && decide (d < P.umax)))) = false ∧
        ∃ e, InputGraph.doAddEdge P g s d w b = .error e := by
    intro s d w b
    unfold InputGraph.doAddEdge
    by_cases h1 : g.frozen = true
    · exact Or.inr ⟨by simp [h1], .assertion, by rw [if_pos h1]⟩
    · have h1' : g.frozen = false := by simpa using h1
      by_cases h2 : s = d
      · exact Or.inl ⟨by simp [h1', h2], g, 0, by rw [if_neg h1, if_pos (by simpa using h2)], rfl⟩
      · by_cases h3 : w < 1
        · exact Or.inl ⟨by simp [h1', show w = 0 by omega], g, 0, by
            rw [if_neg h1, if_neg (by simpa using h2), if_pos h3], rfl⟩
        · by_cases h4 : s < P.umax ∧ d < P.umax
          · refine Or.inl ⟨by simp [h1', h4], _, _, by
              rw [if_neg h1, if_neg (by simpa using h2), if_neg h3, addW, if_pos (by omega)]; rfl, by rfl⟩
          · refine Or.inr ⟨?_, .overflow, by
              rw [if_neg h1, if_neg (by simpa using h2), if_neg h3, addW, if_neg (by omega), if_pos hP]; rfl⟩
            have h3' : w ≠ 0 := by omega
            by_cases h5 : s < P.umax
            · have : ¬ d < P.umax := fun h => h4 ⟨h5, h⟩
              simp [h1', h2, h3', this]
            · simp [h1', h2, h3', h5]
  cases op with
  | addEdge s d w =>
    rcases add s d w false with ⟨h, g', k, h1, h2⟩ | ⟨h, e, h1⟩
    · exact Or.inl ⟨h, g', by show (InputGraph.doAddEdge P g s d w false >>= _) = _; rw [h1]; rfl, h2⟩
    · exact Or.inr ⟨h, e, by show (InputGraph.doAddEdge P g s d w false >>= _) = _; rw [h1]; rfl⟩
  | addEdgeBidir s d w =>
    rcases add s d w true with ⟨h, g', k, h1, h2⟩ | ⟨h, e, h1⟩
    · exact Or.inl ⟨h, g', by show (InputGraph.doAddEdge P g s d w true >>= _) = _; rw [h1]; rfl, h2⟩
    · exact Or.inr ⟨h, e, by show (InputGraph.doAddEdge P g s d w true >>= _) = _; rw [h1]; rfl⟩
  | freeze =>
    by_cases h1 : g.frozen = true
    · exact Or.inr ⟨by simp [succeeds, h1], .assertion, by
        show (if g.frozen = true then _ else _) = _
        rw [if_pos h1]⟩
    · exact Or.inl ⟨by simpa [succeeds] using h1, _, by
        show (if g.frozen = true then _ else _) = _
        rw [if_neg h1], rfl⟩
  | thaw => exact Or.inl ⟨rfl, _, rfl, rfl⟩

/-- **C67** A client that carries on after failed calls ends up with the graph built by the calls that succeeded. -/
theorem C67_graph_of_the_succeeding_calls {P : Plat} (hP : P.checked = true) (ops : List Op) :
    buildGraph P (succeeding P.umax false ops) = .ok (buildGraphU P ops) := by
  suffices h : ∀ (ops : List Op) (g : InputGraph), forM (fun g op => op.run P g) g (succeeding P.umax g.frozen ops) =
      .ok (ops.foldl (fun g op => (op.runU P g).2) g) from h ops InputGraph.new
  intro ops
  induction ops with
  | nil => intro g; rfl
  | cons op ops ih =>
    intro g
    rw [succeeding, List.foldl_cons]
    rcases run_succeeds hP g op with ⟨h, g', h1, h2⟩ | ⟨h, e, h1⟩
    · rw [if_pos h, forM_cons, h1, bind_okM, ← h2, ih g']
      rcases C67_failed_call_changes_nothing P g op with ⟨g'', h3, h4⟩ | ⟨e', h3, _⟩
      · rw [h4]
        rw [h1] at h3
        injection h3 with h3
        rw [h3]
      · rw [h1] at h3; cases h3
    · rw [if_neg (by simp [h]), ih g]
      rcases C67_failed_call_changes_nothing P g op with ⟨g'', h3, _⟩ | ⟨e', _, h4⟩
      · rw [h1] at h3; cases h3
      · rw [h4]

/-! ### Examples -/

/-- queries on prepared graphs: a node that is too large, a path, one that overflows, no sources -/
def requests : List Request :=
  [⟨Ex.fg, [(7, 0)], [(1, 0)]⟩, ⟨Ex.fg, [(0, 0)], [(4, 0)]⟩, ⟨Ex.fg, [(0, Ex.inv - 5)], [(4, 0)]⟩, ⟨Ex.fgo, [], []⟩]

/-- the third query panics in the middle of the search ... -/
example : (calcPathMultiU debug64 Ex.fg [(0, Ex.inv - 5)] [(4, 0)]
    (PathCalculator.new debug64 binaryHeap 5)).1 = .error .overflow := rfl
/-- ... and leaves items in a heap and labels in the tables behind ... -/
example : (calcPathMultiU debug64 Ex.fg [(0, Ex.inv - 5)] [(4, 0)]
    (PathCalculator.new debug64 binaryHeap 5)).2.fwd.flags = ⟨[2, 2, 0, 0, 0], 2⟩ := rfl
example : binaryHeap.items (calcPathMultiU debug64 Ex.fg [(0, Ex.inv - 5)] [(4, 0)]
    (PathCalculator.new debug64 binaryHeap 5)).2.fwd.heap = [⟨Ex.inv - 2, 1⟩] := rfl
/-- ... but the next query is answered as if nothing had happened. -/
example : (calcPathMultiU debug64 Ex.fg [(0, 0)] [(4, 0)]
    (runRequestsU debug64 (PathCalculator.new debug64 binaryHeap 5) requests)).1 = .ok (some Ex.path) :=
  (C67_reuse_after_panics debug64 binaryHeap 5 requests ⟨Ex.fg, [(0, 0)], [(4, 0)]⟩).trans rfl

example : calcPathMultiU debug64 Ex.fg [(0, 0), (5, 0)] [(4, 0)] (PathCalculator.new debug64 binaryHeap 5) =
    (.error .assertion, PathCalculator.new debug64 binaryHeap 5) :=
  C67_rejected_query_changes_nothing _ _ _ _ _ _ (Or.inr (Or.inr (Or.inr (Or.inl ⟨(5, 0), by simp, by decide⟩))))

example : buildGraphU debug64 [.addEdge 0 1 3, .freeze, .addEdge 1 2 4, .freeze, .thaw, .addEdge 2 Ex.inv 4,
    .addEdge 2 1 5, .freeze] = ⟨[⟨0, 1, 3⟩, ⟨2, 1, 5⟩], 3, true⟩ := rfl
example : succeeding debug64.umax false [.addEdge 0 1 3, .freeze, .addEdge 1 2 4, .freeze, .thaw, .addEdge 2 Ex.inv 4,
    .addEdge 2 1 5, .freeze] = [.addEdge 0 1 3, .freeze, .thaw, .addEdge 2 1 5, .freeze] := rfl

end Props
end FP
