import Verif.Proofs.Accuracy
import Verif.Proofs.Priority
import Verif.Props.Example
import Verif.Props.Witness
/-!
# Node priorities

`calc_relevance` (node_contractor.rs:38-60) computes the priority of a node in `f32`. The other theorems hold whatever the
priorities are; these say what they are. C65 is about the arithmetic, C66 about the counts that go into it and about the node that
is contracted first.
-/
set_option autoImplicit false
set_option exponentiation.threshold 300
namespace FP
namespace Props
open Spec F32

/-- **C65** With finite factors that are not negative, a node of a lower level, with fewer shortcuts and more edges never gets a
higher priority value: rounding and the cast to `usize` never invert the formula. -/
theorem C65_priority_monotone (P : Plat) {h q : F32} (hh : h.NonNeg) (hq : q.NonNeg) {l l' : Nat} {s s' : Int} {e e' : Nat}
    (hl : l ≤ l') (hl' : l' ≤ 2 ^ 127) (hs0 : 0 ≤ s) (hs : s ≤ s') (hs' : s' ≤ 2 ^ 127) (he : e' ≤ e) (he' : e ≤ 2 ^ 127) :
    relevanceF32 P h q l s e ≤ relevanceF32 P h q l' s' e' :=
  relevanceF32_mono P hh hq hl hl' hs0 hs hs' he he'

theorem nonNeg_one : (ofInt 1).NonNeg := ⟨one, by decide +kernel, by decide +kernel, by decide +kernel⟩
theorem nonNeg_tenth : tenth.NonNeg := ⟨13421773 * 2 ^ 122, by decide +kernel, by decide +kernel, by decide +kernel⟩

example : relevanceF32 debug64 tenth (ofInt 1) 3 2 6 ≤ relevanceF32 debug64 tenth (ofInt 1) 3 5 4 :=
  C65_priority_monotone debug64 nonNeg_tenth nonNeg_one (by decide) (by decide) (by decide) (by decide) (by decide) (by decide)
    (by decide)
example : relevanceF32 debug64 tenth (ofInt 1) 3 2 6 = 728 ∧ relevanceF32 debug64 tenth (ofInt 1) 3 5 4 = 1500 := by
  decide +kernel

/-- A negative factor inverts the formula, and negative values are cut off at 0. -/
example : relevanceF32 debug64 (fin (-(13421773 * 2 ^ 122))) (ofInt 1) 1 0 1 = 400 ∧
    relevanceF32 debug64 (fin (-(13421773 * 2 ^ 122))) (ofInt 1) 9 0 1 = 0 := by decide +kernel

/-- **C65** The same for the parameters that `Params::new` makes from a finite ratio that is not negative. -/
theorem C65_params_new_monotone (P : Plat) {ratio : F32} (hr : ratio.NonNeg) (a b c : Nat) {l l' : Nat} {s s' : Int} {e e' : Nat}
    (hl : l ≤ l') (hl' : l' ≤ 2 ^ 127) (hs0 : 0 ≤ s) (hs : s ≤ s') (hs' : s' ≤ 2 ^ 127) (he : e' ≤ e) (he' : e ≤ 2 ^ 127) :
    (Params.new P ratio a b c).relevance l s e ≤ (Params.new P ratio a b c).relevance l' s' e' :=
  relevanceF32_mono P hr nonNeg_one hl hl' hs0 hs hs' he he'

example : (Params.new debug64 tenth 500 100 500).relevance 0 0 3 ≤ (Params.new debug64 tenth 500 100 500).relevance 0 0 2 :=
  C65_params_new_monotone debug64 nonNeg_tenth 500 100 500 (by decide) (by decide) (by decide) (by decide) (by decide) (by decide)
    (by decide)

/-- **C65** The priority is the exact value of the formula up to one part in 2^20 and rounding down. The factors are zero or
between 2^-125 and 2^20, the counts at most 2^64, the value is below `usize::MAX`. -/
theorem C65_priority_accurate (P : Plat) {h q : Int} (hh : h = 0 ∨ 2 ^ 24 ≤ h) (hh' : h ≤ 2 ^ 169) (hq : q = 0 ∨ 2 ^ 24 ≤ q)
    (hq' : q ≤ 2 ^ 169) {l : Nat} {s : Int} {e : Nat} (hl : l ≤ 2 ^ 64) (hs0 : 0 ≤ s) (hs : s ≤ 2 ^ 64) (he : e ≤ 2 ^ 64)
    (hP : exactRelevance (val h) (val q) l s e * (1 + 1 / 2 ^ 20) < P.umax) :
    (relevanceF32 P (fin h) (fin q) l s e : ℚ) ≤ exactRelevance (val h) (val q) l s e * (1 + 1 / 2 ^ 20) ∧
    exactRelevance (val h) (val q) l s e * (1 - 1 / 2 ^ 20) < relevanceF32 P (fin h) (fin q) l s e + 1 :=
  relevanceF32_accurate P hh hh' hq hq' hl hs0 hs he hP

/-- **C65** The priorities of the default parameters are `1000 * (level / 10 + (shortcuts + 1) / (edges + 1))` up to one part in
2^19 and rounding down. -/
theorem C65_default_accurate (P : Plat) {l : Nat} {s : Int} {e : Nat} (hl : l ≤ 2 ^ 64) (hs0 : 0 ≤ s) (hs : s ≤ 2 ^ 64)
    (he : e ≤ 2 ^ 64) (hP : exactRelevance (1 / 10) 1 l s e * (1 + 1 / 2 ^ 19) < P.umax) :
    (defaultRelevance P l s e : ℚ) ≤ exactRelevance (1 / 10) 1 l s e * (1 + 1 / 2 ^ 19) ∧
    exactRelevance (1 / 10) 1 l s e * (1 - 1 / 2 ^ 19) < defaultRelevance P l s e + 1 := by
  have ht : val (13421773 * 2 ^ 122) = 13421773 / 134217728 := by unfold val; norm_num
  have h1 : val (2 ^ 149) = 1 := by unfold val; norm_num
  have hl0 : (0 : ℚ) ≤ l := Nat.cast_nonneg l
  have hf : (0 : ℚ) ≤ (s + 1) / (e + 1) := by
    have : (0 : ℚ) ≤ s := by exact_mod_cast hs0
    positivity
  have hlo : exactRelevance (1 / 10) 1 l s e ≤ exactRelevance (val (13421773 * 2 ^ 122)) (val (2 ^ 149)) l s e := by
    unfold exactRelevance
    rw [ht, h1]
    simp only [one_mul]
    nlinarith
  have hhi : exactRelevance (val (13421773 * 2 ^ 122)) (val (2 ^ 149)) l s e ≤ exactRelevance (1 / 10) 1 l s e * (1 + 1 / 2 ^ 24) := by
    unfold exactRelevance
    rw [ht, h1]
    simp only [one_mul]
    nlinarith
  have h0 : 0 ≤ exactRelevance (1 / 10) 1 l s e := by
    unfold exactRelevance
    simp only [one_mul]
    positivity
  have hc : exactRelevance (val (13421773 * 2 ^ 122)) (val (2 ^ 149)) l s e * (1 + 1 / 2 ^ 20) ≤
      exactRelevance (1 / 10) 1 l s e * (1 + 1 / 2 ^ 19) := by
    refine le_trans (mul_le_mul_of_nonneg_right hhi (by norm_num)) ?_
    rw [mul_assoc]
    exact mul_le_mul_of_nonneg_left (by norm_num) h0
  obtain ⟨k1, k2⟩ := relevanceF32_accurate P (h := 13421773 * 2 ^ 122) (q := 2 ^ 149) (Or.inr (by norm_num)) (by norm_num)
    (Or.inr (by norm_num)) (by norm_num) hl hs0 hs he (lt_of_le_of_lt hc hP)
  unfold defaultRelevance
  rw [tenth_eq, ofInt_one]
  refine ⟨le_trans k1 hc, lt_of_le_of_lt ?_ k2⟩
  refine le_trans ?_ (mul_le_mul_of_nonneg_right hlo (by norm_num))
  exact mul_le_mul_of_nonneg_left (by norm_num) h0

example : (defaultRelevance debug64 7 3 4 : ℚ) ≤ 1500 * (1 + 1 / 2 ^ 19) ∧ 1500 * (1 - 1 / 2 ^ 19) < (defaultRelevance debug64 7 3 4 : ℚ) + 1 := by
  have h := C65_default_accurate debug64 (l := 7) (s := 3) (e := 4) (by norm_num) (by norm_num) (by norm_num) (by norm_num)
    (by unfold exactRelevance debug64; norm_num)
  have : exactRelevance (1 / 10) 1 7 3 4 = 1500 := by unfold exactRelevance; norm_num
  rw [this] at h
  exact h
example : defaultRelevance debug64 7 3 4 = 1500 ∧ defaultRelevance debug64 3 0 6 = 442 := by decide +kernel

/-- **C65** A node without edges starts with the priority 1000, whatever the finite factors are. -/
theorem C65_isolated_node (P : Plat) (hP : 1000 ≤ P.umax) (h q : Int) : relevanceF32 P (fin h) (fin q) 0 0 0 = 1000 := by
  have e0 : ofInt 0 = fin 0 := ofRat_zero 1
  have m0 : ∀ k : Int, mul (fin k) (fin 0) = fin 0 := by
    intro k
    show ofRat (k * 0) one = fin 0
    rw [Int.mul_zero]; exact ofRat_zero _
  have hv : mul (add (fin 0) (div (add (fin 0) (ofInt 1)) (add (fin 0) (ofInt 1)))) (ofInt 1000) = fin (1000 * 2 ^ 149) := by
    decide +kernel
  unfold relevanceF32
  simp only [Nat.cast_zero]
  rw [e0, m0, m0, hv]
  show min ((1000 * 2 ^ 149 : Int).toNat / one) P.umax = 1000
  rw [show (1000 * 2 ^ 149 : Int).toNat / one = 1000 by decide +kernel]
  omega

example : relevanceF32 debug64 (fin (-5)) (fin (2 ^ 200)) 0 0 0 = 1000 :=
  C65_isolated_node debug64 (by decide) (-5) (2 ^ 200)

/-- **C65** If one of the factors is not a number, all nodes have the priority 0. -/
theorem C65_nan (P : Plat) (x : F32) (l : Nat) (s : Int) (e : Nat) :
    relevanceF32 P nan x l s e = 0 ∧ relevanceF32 P x nan l s e = 0 := by
  have a1 : ∀ y, add nan y = nan := fun y => by cases y <;> rfl
  have a2 : ∀ y, add y nan = nan := fun y => by cases y <;> rfl
  have m1 : ∀ y, mul nan y = nan := fun y => by cases y <;> rfl
  have d1 : ∀ y, div nan y = nan := fun y => by cases y <;> rfl
  unfold relevanceF32
  constructor
  · simp only [m1, a1]; rfl
  · simp only [m1, a1, a2, d1]; rfl

example : relevanceF32 debug64 nan (ofInt 1) 3 2 1 = 0 := (C65_nan debug64 (ofInt 1) 3 2 1).1

/-- **C65** An infinite ratio gives the priority 0 to the nodes of level 0 and the largest one to all others. -/
theorem C65_infinite_ratio (P : Plat) (a b c : Nat) {l : Nat} {s : Int} {e : Nat} (hl : l ≤ 2 ^ 64) (hs0 : 0 ≤ s) (hs : s ≤ 2 ^ 64)
    (he : e ≤ 2 ^ 64) :
    (Params.new P (inf false) a b c).relevance l s e = if l = 0 then 0 else P.umax := by
  show relevanceF32 P (inf false) (ofInt 1) l s e = _
  by_cases h0 : l = 0
  · subst h0
    rw [if_pos rfl]
    have e0 : ofInt ((0 : Nat) : Int) = fin 0 := ofRat_zero 1
    have m0 : mul (inf false) (fin 0) = nan := by decide +kernel
    have a1 : ∀ y, add nan y = nan := fun y => by cases y <;> rfl
    have m1 : ∀ y, mul nan y = nan := fun y => by cases y <;> rfl
    unfold relevanceF32
    simp only
    rw [e0, m0, a1, m1]
    rfl
  · rw [if_neg h0]
    obtain ⟨k, ek, k0, kn⟩ := ofInt_near (z := (l : Int)) (by omega) (by omega)
    have kp : 0 < k := by
      rcases Int.lt_or_eq_of_le k0 with h | h
      · exact h
      · subst h
        exfalso
        have h1 : (1 : ℚ) ≤ (l : ℚ) := by
          have : 1 ≤ l := by omega
          exact_mod_cast this
        have h2 := kn.1
        unfold val eps at h2
        norm_num at h2
        linarith
    obtain ⟨k', ek'⟩ := quotient_finite hs0 hs he
    unfold relevanceF32
    simp only
    rw [ek, mul_inf_pos false kp, ek']
    show toUsize P (mul (inf false) (ofInt 1000)) = P.umax
    have : ofInt 1000 = fin (1000 * 2 ^ 149) := by decide +kernel
    rw [this, mul_inf_pos false (by decide +kernel)]
    rfl

example : (Params.new debug64 (inf false) 500 100 500).relevance 2 3 4 = Ex.inv :=
  C65_infinite_ratio debug64 500 100 500 (l := 2) (by norm_num) (by norm_num) (by norm_num) (by norm_num)

/-- **C65** The comment on `edge_quotient_factor` (fast_graph_builder.rs:278-279, only the relation of the two factors plays a role)
is not right: dividing both factors by ten exchanges two nodes, because of the constant 1.0 in the formula. -/
theorem C65_only_the_relation_matters_false :
    let a := ofRat one 10
    let b := ofRat one 100
    relevanceF32 debug64 b a 0 1 3 < relevanceF32 debug64 b a 0 0 2 ∧
      relevanceF32 debug64 a (ofInt 1) 0 0 2 < relevanceF32 debug64 a (ofInt 1) 0 1 3 := by
  decide +kernel

/-- **C66** The number of shortcuts that goes into the priority of a node `v` is between the number of pairs of neighbors that need
a shortcut when `v` is removed, and the number of pairs connected over `v`; with a budget above the number of nodes it is the former.
The number of edges is the number of out-neighbors plus the number of in-neighbors. -/
theorem C66_relevance_counts {P : Plat} (hP : P.checked = true) {pq : PQ} {n : Nat} (hn : n ≤ P.umax) {g g' : PreparationGraph}
    (hg : PrepOk n g) {before : List WitnessCall} {ws ws' : WitnessSearch pq}
    (h₀ : runWitness P (WitnessSearch.new P pq n) before = .ok ws) {relevance : Nat → Int → Nat → Nat} {v level maxSettled p : Nat}
    (hv : v < n) (h : calcRelevance P relevance g ws v level maxSettled = .ok (g', ws', p)) :
    ∃ count : Nat, p = relevance level count (degree (prepEdges g) v) ∧
      (neededPairs P.umax (prepEdges g) v).ncard ≤ count ∧ count ≤ (throughPairs P.umax (prepEdges g) v).ncard ∧
      (n < maxSettled → count = (neededPairs P.umax (prepEdges g) v).ncard) := by
  obtain ⟨_, _, hc⟩ := (calcRelevance_value hP hn (prepOk_iff.1 hg) hv (runWitness_self (WRel.new P pq n) h₀).b₁).of_ok h
  exact hc

/-- In the example graph, removing node 2 needs two shortcuts (from 0 and from 1, both to 3). -/
example : (neededPairs debug64.umax (prepEdges exPrep) 2).ncard = 2 ∧ degree (prepEdges exPrep) 2 = 4 := by
  obtain ⟨c, h1, _, _, h2⟩ := C66_relevance_counts (before := []) (P := debug64) (pq := binaryHeap) (n := 5) rfl (by decide)
    exPrep_ok rfl (relevance := fun _ s _ => s.toNat) (v := 2) (level := 0) (maxSettled := 100) (p := 2) (by decide) rfl
  obtain ⟨d, h3, _⟩ := C66_relevance_counts (before := []) (P := debug64) (pq := binaryHeap) (n := 5) rfl (by decide)
    exPrep_ok rfl (relevance := fun _ _ e => e) (v := 2) (level := 0) (maxSettled := 100) (p := 4) (by decide) rfl
  have h4 := h2 (by decide)
  simp only [Int.toNat_natCast] at h1
  exact ⟨by omega, h3.symm⟩

/-- With a budget of one node a shortcut is counted for the detour 0 → 1 → 2 though it is not needed. -/
example : ∃ ws ws', calcRelevance debug64 (fun _ s _ => s.toNat) detour (WitnessSearch.new debug64 binaryHeap 4) 1 0 1 =
    .ok (detour, ws, 1) ∧
    calcRelevance debug64 (fun _ s _ => s.toNat) detour (WitnessSearch.new debug64 binaryHeap 4) 1 0 5 = .ok (detour, ws', 0) :=
  ⟨_, _, rfl, rfl⟩

/-- **C66** The node contracted first has the least priority of all nodes, where the priority is the formula applied to the number
of shortcuts its removal from the input graph needs and to the number of its neighbors (level 0): when the queue pops nodes of least
priority and the budget for the initial priorities is above the number of nodes. -/
theorem C66_first_node {P : Plat} (hP : P.checked = true) {ops : List Op} {ig : InputGraph} {fg : FastGraph}
    (hb : buildGraph P ops = .ok ig) (hf : ig.frozen = true) {pq : PQ} {nq : NodeQueue} {prio : nq.σ → Nat → Nat}
    (ho : Ordered nq prio) {params : Params} (hms : ig.numNodes < params.maxSettledInitialRelevance)
    (hp : prepareWithParams P pq nq ig params = .ok fg) {v : Nat} (hr : fg.ranks[v]? = some 0) {u : Nat} (hu : u < ig.numNodes) :
    params.relevance 0 (neededPairs P.umax (edgesOf (accepted ops)) v).ncard (degree (edgesOf (accepted ops)) v) ≤
    params.relevance 0 (neededPairs P.umax (edgesOf (accepted ops)) u).ncard (degree (edgesOf (accepted ops)) u) := by
  have hG := buildGraph_inv (Or.inl hP) hb
  have hF := hG.frozenOk hf
  have hv : v < ig.numNodes := by
    have hc : Client P ops ig fg := ⟨hb, hf, .params pq nq params hp⟩
    have := (hc.good hP).toShape.lenR
    have := (List.getElem?_eq_some_iff.1 hr).1
    omega
  have key := first_contracted hP hF ho hms hp hv hr u hu
  have h1 : ∀ a b w, edgesOf ig.edges a b w → edgesOf (accepted ops) a b w := fun a b w h => ((hG.mem_iff hf a b w).1 h).1
  have h2 : ∀ a b w, edgesOf (accepted ops) a b w → ∃ w' ≤ w, edgesOf ig.edges a b w' := by
    intro a b w h
    obtain ⟨w', hm⟩ := exists_minEdge h
    exact ⟨w', hm.2 _ h, (hG.mem_iff hf _ _ _).2 hm⟩
  rw [(needed_congr h1 h2 P.umax v).1, (needed_congr h1 h2 P.umax v).2, (needed_congr h1 h2 P.umax u).1,
    (needed_congr h1 h2 P.umax u).2] at key
  exact key

/-- The default parameters on the example graph: node 0 comes first. -/
example : defaultRelevance debug64 0 (neededPairs debug64.umax (edgesOf (accepted Ex.ops)) 0).ncard
      (degree (edgesOf (accepted Ex.ops)) 0) ≤
    defaultRelevance debug64 0 (neededPairs debug64.umax (edgesOf (accepted Ex.ops)) 2).ncard
      (degree (edgesOf (accepted Ex.ops)) 2) := by
  have hp : ∃ fg, prepareWithParams debug64 binaryHeap listQueue Ex.ig (.default (defaultRelevance debug64)) = .ok fg ∧
      fg.ranks[0]? = some 0 := by
    have h : (prepareWithParams debug64 binaryHeap listQueue Ex.ig (.default (defaultRelevance debug64))).toOption.map
        FastGraph.ranks = some [0, 4, 3, 1, 2] := by decide +kernel
    cases hr : prepareWithParams debug64 binaryHeap listQueue Ex.ig (.default (defaultRelevance debug64)) with
    | error e => rw [hr] at h; cases h
    | ok fg =>
      rw [hr] at h
      injection h with h
      exact ⟨fg, rfl, by rw [h]; rfl⟩
  obtain ⟨fg, h1, h2⟩ := hp
  generalize defaultRelevance debug64 = rel at *
  exact C66_first_node rfl Ex.built Ex.frozen listQueue_ordered (params := .default rel) (show 5 < 500 by decide) h1 h2
    (u := 2) (by decide)

/-- **C66** The counter is an `i32`: with overflow checks a count beyond `i32::MAX` panics, without them it is taken modulo 2^32. -/
theorem C66_counter {P : Plat} {g : PreparationGraph} {sc : Shortcut} {n : Int} (h1 : -(2 : Int) ^ 31 ≤ n) (h2 : n < (2 : Int) ^ 31) :
    countShortcut P g n sc =
      if P.checked = true ∧ n + 1 = (2 : Int) ^ 31 then .error .overflow else .ok (g, Int.bmod (n + 1) (2 ^ 32)) := by
  have hm : (I32_MAX : Int) = 2 ^ 31 - 1 := rfl
  unfold countShortcut
  rw [hm]
  by_cases hlt : n < 2 ^ 31 - 1
  · rw [if_pos hlt, if_neg (by omega), Int.bmod_eq_of_le (by omega) (by omega)]
  · have hn : n = 2 ^ 31 - 1 := by omega
    subst hn
    rw [if_neg (by omega)]
    cases P.checked <;> simp

example : countShortcut release64 exPrep (2 ^ 31 - 1) ⟨0, 1, 2, 3⟩ = .ok (exPrep, -2 ^ 31) := by
  rw [C66_counter (by decide) (by decide)]; rfl

end Props
end FP
