import Verif.Proofs.Distance
import Verif.Props.Bounds
import Verif.Model.Dijkstra
/-!
# The library as a whole

Total correctness for bounded weights, in builds with and without overflow checks; calculators made by `create_calculator`;
comparing answers.
-/
set_option autoImplicit false
namespace FP
namespace Props
open Spec

/-- What a client wants to know about the answer `r` to the query from `s` to `t` in the graph `E`: `None` exactly when `t`
cannot be reached; otherwise a path of `E` from `s` to `t` of the reported weight, which is the distance. -/
def Correct (E : EdgeRel) (s t : Nat) (r : Option ShortestPath) : Prop :=
  (r = none ↔ ¬ ∃ w, HasWalk E s t w) ∧
  ∀ p, r = some p → p.source = s ∧ p.target = t ∧ p.nodes.head? = some s ∧ p.nodes.getLast? = some t ∧
    IsWalk E p.nodes p.weight ∧ ∀ w, HasWalk E s t w → p.weight ≤ w

/-- Queries on a graph prepared without overflow. -/
theorem queries_correct {P : Plat} {ops : List Op} {ig : InputGraph} {fg : FastGraph} (hc : Client P.debug ops ig fg)
    {W : Nat} (hW : ∀ e ∈ accepted ops, e.weight ≤ W) (hfit : 2 ^ ig.numNodes * W ≤ P.umax) (pq : PQ)
    (history : List Request) {c : PathCalculator pq}
    (hh : runRequests P (PathCalculator.new P pq ig.numNodes) history = .ok c) {s t : Nat} (hs : s < ig.numNodes)
    (ht : t < ig.numNodes) :
    ∃ c' r, c.calcPath P fg s t = .ok (c', r) ∧ Correct (edgesOf (accepted ops)) s t r := by
  have hi := hc.inv rfl
  have hF := hi.frozenOk hc.frozen
  obtain ⟨⟨c', r⟩, e, _, ha⟩ := calcPathMulti_total (P := P.debug) (ws := 0) (wt := 0) rfl (hc.good rfl)
    (fun u v w he => weights_le (P := P.debug) rfl hc.built hW _ he)
    (runRequests_base (CalcOk.new P pq ig.numNodes) hh) (starts := [(s, 0)]) (ends := [(t, 0)]) (by simp) (by simp)
    (by intro x hx; simp at hx; subst hx; exact ⟨hs, fun _ => Nat.le_refl _⟩)
    (by intro x hx; simp at hx; subst hx; exact ⟨ht, fun _ => Nat.le_refl _⟩)
    (by simpa using (show 2 ^ ig.numNodes * W ≤ P.debug.umax from hfit))
  refine ⟨c', r, (C32_query P pq c fg _ _ (by rw [e]; simp)).trans e, ?_⟩
  have ha := hi.answer ha
  obtain ⟨h1, h2⟩ := ha.single
  constructor
  · constructor
    · rintro rfl ⟨w, hw⟩
      obtain ⟨w', hw', hk⟩ := hi.walk_le (hasWalk_iff.1 hw)
      obtain ⟨w'', hle, hk''⟩ := hasWalk_bound (W := W) (fun u v w he => hi.pos _ he) (fun u v w he => hF.lt _ he)
        (fun u v w he => weights_le (P := P.debug) rfl hc.built hW _ he) hs (hasWalk_iff.2 hk)
      have h3 : HasWalk (edgesOf (accepted ops)) s t w'' := by
        obtain ⟨L, hL, k1, k2⟩ := hk''
        exact ⟨L, hL.mono (fun _ _ _ he => hi.sub _ he), k1, k2⟩
      have h4 : P.umax ≤ w'' := h1 rfl w'' h3
      have h5 : ig.numNodes < 2 ^ ig.numNodes := Nat.lt_two_pow_self
      have hpos : 0 < P.umax := by
        have := (hc.good rfl).n_lt
        exact Nat.lt_of_le_of_lt (Nat.zero_le _) this
      have h6 : 1 ≤ W := by
        by_contra hlt
        have : W = 0 := by omega
        rw [this, Nat.mul_zero] at hle
        omega
      have h7 : (ig.numNodes - 1) * W < 2 ^ ig.numNodes * W := Nat.mul_lt_mul_of_pos_right (by omega) h6
      omega
    · intro hno
      cases r with
      | none => rfl
      | some p =>
        obtain ⟨_, _, _, h4, h5, h6, _⟩ := h2 p rfl
        exact absurd ⟨p.weight, p.nodes, h4, h5, h6⟩ hno
  · intro p hp
    obtain ⟨_, h2, h3, h4, h5, h6, h7⟩ := h2 p hp
    exact ⟨h2, h3, h5, h6, h4, h7.2⟩

/-- **C54** Total correctness: for weights of at most `W` with `2 ^ (n + 2) * W ≤ usize::MAX`, `n * n < usize::MAX` and
`n * n ≤ i32::MAX` preparing returns, every query returns, and every answer is right. Any build, any heaps, parameters and relevance. -/
theorem C54_prepare_and_query {P : Plat} {ops : List Op} {ig : InputGraph} (hb : buildGraph P.debug ops = .ok ig)
    (hf : ig.frozen = true) {W : Nat} (hW : ∀ e ∈ accepted ops, e.weight ≤ W)
    (hfit : 2 ^ (ig.numNodes + 2) * W ≤ P.umax) (hcap : ig.numNodes * ig.numNodes < P.umax)
    (hcnt : ig.numNodes * ig.numNodes ≤ I32_MAX) (pq : PQ) (nq : NodeQueue)
    (params : Params) :
    ∃ fg, prepareWithParams P pq nq ig params = .ok fg ∧ ∀ (pq' : PQ) (s t : Nat), s < ig.numNodes → t < ig.numNodes →
      ∃ r, calcPath P pq' fg s t = .ok r ∧ Correct (edgesOf (accepted ops)) s t r := by
  obtain ⟨fg, e⟩ := C33_prepare_with_params (P := P.debug) hb hf hW hfit hcap hcnt pq nq params
  refine ⟨fg, (C32_prepare_with_params hb hf pq nq params (by rw [e]; simp)).trans e, ?_⟩
  intro pq' s t hs ht
  have hc : Client P.debug ops ig fg := ⟨hb, hf, .params pq nq params e⟩
  have hle : 2 ^ ig.numNodes * W ≤ 2 ^ (ig.numNodes + 2) * W :=
    Nat.mul_le_mul_right W (Nat.pow_le_pow_right (by omega) (by omega))
  obtain ⟨c', r, h1, h2⟩ := queries_correct hc hW (hle.trans hfit) pq' [] rfl hs ht
  refine ⟨r, ?_, h2⟩
  unfold calcPath
  rw [show fg.getNumNodes = ig.numNodes from (hc.good rfl).num, h1]
  rfl

/-- **C54** with a given order. -/
theorem C54_prepare_with_order_and_query {P : Plat} {ops : List Op} {ig : InputGraph}
    (hb : buildGraph P.debug ops = .ok ig) (hf : ig.frozen = true) {W : Nat} (hW : ∀ e ∈ accepted ops, e.weight ≤ W)
    (hfit : 2 ^ (ig.numNodes + 2) * W ≤ P.umax) (hcap : ig.numNodes * ig.numNodes < P.umax) (pq : PQ)
    {order : List Nat} (ho : order.Perm (List.range ig.numNodes)) (maxSettled : Nat) :
    ∃ fg, prepareWithOrderWithParams P pq ig order maxSettled = .ok (.ok fg) ∧
      ∀ (pq' : PQ) (s t : Nat), s < ig.numNodes → t < ig.numNodes →
        ∃ r, calcPath P pq' fg s t = .ok r ∧ Correct (edgesOf (accepted ops)) s t r := by
  obtain ⟨fg, e⟩ := C33_prepare_with_order_with_params (P := P.debug) hb hf hW hfit hcap pq ho maxSettled
  refine ⟨fg, (C32_prepare_with_order hb hf pq ho maxSettled (by rw [e]; simp)).trans e, ?_⟩
  intro pq' s t hs ht
  have hc : Client P.debug ops ig fg := ⟨hb, hf, .orderParams pq order maxSettled ho e⟩
  have hle : 2 ^ ig.numNodes * W ≤ 2 ^ (ig.numNodes + 2) * W :=
    Nat.mul_le_mul_right W (Nat.pow_le_pow_right (by omega) (by omega))
  obtain ⟨c', r, h1, h2⟩ := queries_correct hc hW (hle.trans hfit) pq' [] rfl hs ht
  refine ⟨r, ?_, h2⟩
  unfold calcPath
  rw [show fg.getNumNodes = ig.numNodes from (hc.good rfl).num, h1]
  rfl

example : ∃ fg, prepareWithParams release64 binaryHeap listQueue Ex.ig ⟨Ex.rel, 5, 0, 7⟩ = .ok fg ∧
    ∀ (pq' : PQ) (s t : Nat), s < 5 → t < 5 →
      ∃ r, calcPath release64 pq' fg s t = .ok r ∧ Correct (edgesOf (accepted Ex.ops)) s t r :=
  C54_prepare_and_query (P := release64) Ex.built rfl (W := 9) (by decide) (by decide) (by decide) (by decide) _ _ _
/-- Both kinds of answers occur. -/
example : Correct (edgesOf (accepted Ex.ops)) 0 4 (some Ex.path) ∧ Correct (edgesOf (accepted Ex.ops)) 4 0 none := by
  obtain ⟨c, r, h1, h2⟩ := queries_correct (P := debug64) exampleClient (W := 9) (by decide) (by decide) binaryHeap [] rfl
    (s := 0) (t := 4) (by decide) (by decide)
  obtain ⟨c', r', h3, h4⟩ := queries_correct (P := debug64) exampleClient (W := 9) (by decide) (by decide) binaryHeap [] rfl
    (s := 4) (t := 0) (by decide) (by decide)
  refine ⟨?_, ?_⟩
  · have : some Ex.path = r := congrArg Prod.snd (Except.ok.inj ((show _ = Except.ok (_, some Ex.path) from rfl).symm.trans h1))
    rw [this]; exact h2
  · have : none = r' := congrArg Prod.snd (Except.ok.inj ((show _ = Except.ok (_, none) from rfl).symm.trans h3))
    rw [this]; exact h4

/-- **C55** A calculator made by `create_calculator` and used any number of times, also for other graphs, answers like the
functions that make a new calculator for each query: same result, same panic. Any graph, any build. -/
theorem C55_create_calculator (P : Plat) (pq : PQ) (fg : FastGraph) (history : List Request) {c : PathCalculator pq}
    (hc : runRequests P (createCalculator P pq fg) history = .ok c) (S T : List (Nat × Nat)) :
    (c.calcPathMulti P fg S T).map Prod.snd = calcPathMulti P pq fg S T := by
  rw [C09_reused_calculator_like_fresh P pq fg.getNumNodes history hc ⟨fg, S, T⟩]
  unfold calcPathMulti
  cases (PathCalculator.new P pq fg.getNumNodes).calcPathMulti P fg S T <;> rfl

example : ∃ c, runRequests debug64 (createCalculator debug64 binaryHeap Ex.fg)
      [⟨Ex.fg, [(0, 0)], [(4, 0)]⟩, ⟨Ex.fgo, Ex.sources, Ex.targets⟩] = .ok c ∧
    (c.calcPathMulti debug64 Ex.fg [(0, 0)] [(4, 0)]).map Prod.snd = .ok (some Ex.path) :=
  ⟨_, rfl, rfl⟩

/-- **C56** Returned paths say `is_found`. -/
theorem C56_returned_paths_are_found {P : Plat} (hP : P.checked = true) {ops : List Op} {ig : InputGraph} {fg : FastGraph}
    (hc : Client P ops ig fg) (pq : PQ) {S T : List (Nat × Nat)} {p : ShortestPath}
    (hq : calcPathMulti P pq fg S T = .ok (some p)) : p.isFound P = true := by
  have h : p.weight < P.umax := (query_answer hP hc hq).2.1.1
  have h2 : p.weight ≠ P.umax := by omega
  simpa [ShortestPath.isFound, Plat.WEIGHT_MAX] using h2

/-- **C56** `==` on paths is an equivalence relation. -/
theorem C56_eq_equivalence : (∀ p : ShortestPath, p.eqv p = true) ∧ (∀ p q : ShortestPath, p.eqv q = q.eqv p) ∧
    ∀ p q r : ShortestPath, p.eqv q = true → q.eqv r = true → p.eqv r = true := by
  refine ⟨fun p => by simp [ShortestPath.eqv], fun p q => ?_, fun p q r h1 h2 => ?_⟩
  · simp only [ShortestPath.eqv]
    rw [Bool.beq_comm, Bool.beq_comm (a := p.target), Bool.beq_comm (a := p.weight)]
  · simp only [ShortestPath.eqv, Bool.and_eq_true, beq_iff_eq] at h1 h2 ⊢
    exact ⟨⟨h1.1.1.trans h2.1.1, h1.1.2.trans h2.1.2⟩, h1.2.trans h2.2⟩

/-- **C56** `==` compares source, target and weight, and not the nodes in between. -/
theorem C56_eq_iff (p q : ShortestPath) :
    p.eqv q = true ↔ p.source = q.source ∧ p.target = q.target ∧ p.weight = q.weight := by
  simp only [ShortestPath.eqv, Bool.and_eq_true, beq_iff_eq, and_assoc]

/-- **C56** Two answers to the same single query compare equal, whatever the preparations. -/
theorem C56_answers_compare_equal {P : Plat} (hP : P.checked = true) {ops : List Op} {ig₁ ig₂ : InputGraph}
    {fg₁ fg₂ : FastGraph} (hc₁ : Client P ops ig₁ fg₁) (hc₂ : Client P ops ig₂ fg₂) (pq₁ pq₂ : PQ) {s t : Nat}
    {r₁ r₂ : Option ShortestPath} (hq₁ : calcPath P pq₁ fg₁ s t = .ok r₁) (hq₂ : calcPath P pq₂ fg₂ s t = .ok r₂) :
    match r₁, r₂ with
    | none, none => True
    | some p, some q => p.eqv q = true
    | _, _ => False := by
  have hw := C12_answers_do_not_depend_on_preparation hP hc₁ hc₂ pq₁ pq₂ hq₁ hq₂
  have h1 := (query_answer hP hc₁ hq₁).2.1.single.2
  have h2 := (query_answer hP hc₂ hq₂).2.1.single.2
  cases r₁ with
  | none =>
    cases r₂ with
    | none => trivial
    | some q => simp at hw
  | some p =>
    cases r₂ with
    | none => simp at hw
    | some q =>
      obtain ⟨_, a1, a2, _⟩ := h1 p rfl
      obtain ⟨_, b1, b2, _⟩ := h2 q rfl
      simp only [Option.map_some, Option.some.injEq] at hw
      simp [ShortestPath.eqv, a1, a2, b1, b2, hw]

example : (match some Ex.path, some Ex.path with
    | none, none => True
    | some p, some q => p.eqv q = true
    | _, _ => False) :=
  C56_answers_compare_equal rfl exampleClient exampleClient' binaryHeap binaryHeap Ex.query Ex.query'

end Props
end FP
