import Verif.Props.Witness
/-! # C105: a witness search looks no further than it must

The witness search only has to decide whether there is a path within the limit. It may stop at the first such path, settled nodes
count against its budget. -/
set_option autoImplicit false
namespace FP
namespace Props
open Spec

/-- **C105** The first search after `init(s, v)`: every settled node is within the weight limit, and when a settled node `u` has an
edge to the target that keeps within the limit, then no settled node is farther away than `u`: the search ended with `u`. The target itself is not
settled. -/
theorem C105_stops {P : Plat} (hP : P.checked = true) {pq : PQ} {n : Nat} {g : PreparationGraph} (hg : PrepOk n g)
    {before : List WitnessCall} {ws₀ ws₁ ws₂ : WitnessSearch pq} {s v target limit settledLimit r : Nat}
    (h₀ : runWitness P (WitnessSearch.new P pq n) before = .ok ws₀) (h₁ : ws₀.init P s v = .ok ws₁)
    (h₂ : ws₁.findMaxWeight P g target limit settledLimit = .ok (ws₂, r)) (hl : limit < P.umax) :
    (∀ x, ws₂.isSettled x = .ok true → ∃ d, IsDist (avoiding (prepEdges g) v) s x d ∧ d ≤ limit) ∧
    (∀ u x w du dx, ws₂.isSettled u = .ok true → ws₂.isSettled x = .ok true → avoiding (prepEdges g) v u target w →
      IsDist (avoiding (prepEdges g) v) s u du → IsDist (avoiding (prepEdges g) v) s x dx → du + w ≤ limit → dx ≤ du) ∧
    ws₂.isSettled target = .ok false := by
  have hb := (runWitness_self (WRel.new P pq n) h₀).b₁
  obtain ⟨hs, hsP, hne⟩ := init_args hb h₁
  obtain ⟨ws', e, hinv, _⟩ := WitnessSearch.init_ok hb hs hsP hne g
  rw [e] at h₁
  injection h₁ with h₁
  subst h₁
  have hci := WitnessSearch.init_CInv (g0 := g) (E := g.relNo v) hb hs e hsP hne
  have hlook := WitnessSearch.init_look hb hs e hsP hne
  have hfresh : ∀ u, ws'.settledB u = false := by
    intro u
    unfold WitnessSearch.settledB
    rw [hlook]
    by_cases h : u = s
    · rw [if_pos h]
    · rw [if_neg h]
  obtain ⟨ht, htv⟩ := find_args hinv hs h₂
  have hwf := prepOk_iff.1 hg
  obtain ⟨hi2, hc2, _⟩ := (WitnessSearch.findMaxWeight_complete hP hwf (fun a b w h => ⟨w, Nat.le_refl _, h⟩)
    (fun a b w h => h) hinv hci hsP ht htv).of_ok h₂
  have hset : ∀ x, ws₂.isSettled x = .ok true → ws₂.settledB x = true := by
    intro x h
    have hx : x < n := by
      by_contra hlt
      unfold WitnessSearch.isSettled at h
      rw [WitnessSearch.isValid_ge hi2.toBase hlt] at h
      cases h
    rw [WitnessSearch.isSettled_ok hi2.toBase hx] at h
    injection h
  have hdist : ∀ x, ws₂.settledB x = true → IsDist (avoiding (prepEdges g) v) s x (ws₂.wt P x) := by
    intro x hx
    cases hlx : ws₂.look x with
    | none => unfold WitnessSearch.settledB at hx; rw [hlx] at hx; cases hx
    | some d =>
      rw [WitnessSearch.settledB_some hlx] at hx
      rw [WitnessSearch.wt_some hlx]
      unfold IsDist
      simp only [avoiding_eq, hasWalk_iff]
      exact ⟨hc2.ex _ _ hlx, fun w hw => hc2.exact hi2 hlx hx hw⟩
  by_cases hts : target = s
  · have : ws₂ = ws' := by
      unfold WitnessSearch.findMaxWeight at h₂
      rw [assertM_of (by simp [hwf.num, hinv.num]), assertM_of (by simpa [hinv.start, Plat.INVALID_NODE] using hsP),
        assertM_of (by simp [hinv.start, hinv.avoid, hinv.ne, htv])] at h₂
      simp only [bind_okM] at h₂
      rw [if_pos (by simp [hinv.start, hts])] at h₂
      injection h₂ with h₂
      exact (congrArg Prod.fst h₂).symm
    subst this
    have hno : ∀ x, ws₂.isSettled x ≠ .ok true := by
      intro x hx
      have := hset x hx
      rw [hfresh x] at this
      cases this
    refine ⟨fun x hx => absurd hx (hno x), fun u _ _ _ _ hu => absurd hu (hno u), ?_⟩
    rw [WitnessSearch.isSettled_ok hi2.toBase ht, hfresh]
  have hst := (WitnessSearch.findMaxWeight_stopped hP hwf hinv hci hfresh hsP ht htv hts (by
    rw [WitnessSearch.wt_none (by rw [hlook, if_neg hts])]; exact hl)).of_ok h₂
  simp only at hi2 hc2 hst
  refine ⟨fun x hx => ⟨_, hdist x (hset x hx), hst.1 x (hset x hx)⟩, ?_, by rw [WitnessSearch.isSettled_ok hi2.toBase ht, hst.2.1]⟩
  intro u x w du dx hu hx hr hdu hdx hle
  have e1 : du = ws₂.wt P u := by
    have := hdist u (hset u hu)
    exact Nat.le_antisymm (hdu.2 _ this.1) (this.2 _ hdu.1)
  have e2 : dx = ws₂.wt P x := by
    have := hdist x (hset x hx)
    exact Nat.le_antisymm (hdx.2 _ this.1) (this.2 _ hdx.1)
  rw [avoiding_eq] at hr
  rcases hst.2.2 with h | ⟨c, h1, h2, h3⟩
  · have := hc2.done u target w (hset u hu) hr
    omega
  · by_cases huc : u = c
    · subst huc
      have := h2 x (hset x hx)
      omega
    · have := h3 u w (hset u hu) huc hr
      omega

/-- **C105, the target** No search settles its target, also when searches for other targets preceded it: the test
`curr.node_id == target` (witness_search.rs:145), the first reason to stop in the documentation of `find_max_weight`, is always
false. -/
theorem C105_target_not_settled {P : Plat} (hP : P.checked = true) {pq : PQ} {n : Nat} {g : PreparationGraph} (hg : PrepOk n g)
    {before : List WitnessCall} {ws₀ ws₁ ws₂ ws₃ : WitnessSearch pq} {s v target limit settledLimit r : Nat}
    {searches : List (Nat × Nat × Nat)}
    (h₀ : runWitness P (WitnessSearch.new P pq n) before = .ok ws₀) (h₁ : ws₀.init P s v = .ok ws₁)
    (h₂ : runWitness P ws₁ (searches.map (fun q => .find g q.1 q.2.1 q.2.2)) = .ok ws₂)
    (h₃ : ws₂.findMaxWeight P g target limit settledLimit = .ok (ws₃, r)) (hl : limit < P.umax) :
    ws₃.isSettled target = ws₂.isSettled target := by
  have hb := (runWitness_self (WRel.new P pq n) h₀).b₁
  obtain ⟨hs, hsP, hne⟩ := init_args hb h₁
  obtain ⟨ws', e, hinv, _⟩ := WitnessSearch.init_ok hb hs hsP hne g
  rw [e] at h₁
  injection h₁ with h₁
  subst h₁
  have hrefl : ∀ x, Improves v x x := fun x u y w h => ⟨w, Nat.le_refl _, h⟩
  have hci := WitnessSearch.init_CInv (g0 := g) (E := g.relNo v) hb hs e hsP hne
  have h₂' : runWitness P ws' ((searches.map (fun q => (g, q.1, q.2.1, q.2.2))).map
      (fun c : PreparationGraph × Nat × Nat × Nat => .find c.1 c.2.1 c.2.2.1 c.2.2.2)) = .ok ws₂ := by
    rw [List.map_map]; exact h₂
  obtain ⟨gl, hm, k1, k2⟩ := runFinds_ok hP hs hsP hinv hci (by
      intro c hc
      obtain ⟨q, _, rfl⟩ := List.mem_map.1 hc
      exact ⟨hg, hrefl g, fun a b w h => h⟩) (by
      rw [List.pairwise_cons, List.map_map]
      refine ⟨fun x hx => ?_, ?_⟩
      · obtain ⟨q, _, rfl⟩ := List.mem_map.1 hx
        exact hrefl g
      · rw [List.pairwise_map]
        exact List.pairwise_of_forall (fun _ _ => hrefl g)) h₂'
  have hgl : gl = g := by
    rcases List.mem_cons.1 hm with h | h
    · exact h
    · rw [List.map_map] at h
      obtain ⟨q, _, rfl⟩ := List.mem_map.1 h
      rfl
  subst hgl
  obtain ⟨ht, htv⟩ := find_args k1 hs h₃
  have hwf := prepOk_iff.1 hg
  obtain ⟨hi3, _⟩ := (WitnessSearch.findMaxWeight_complete hP hwf (fun a b w h => ⟨w, Nat.le_refl _, h⟩)
    (fun a b w h => h) k1 k2 hsP ht htv).of_ok h₃
  have := (WitnessSearch.findMaxWeight_target hP hwf (fun a b w h => ⟨w, Nat.le_refl _, h⟩)
    (fun a b w h => h) k1 k2 hsP ht htv hl).of_ok h₃
  rw [WitnessSearch.isSettled_ok hi3.toBase ht, WitnessSearch.isSettled_ok k1.toBase ht]
  exact congrArg _ this

/-- In the example graph the first search settles node 0 only, because of its edge to node 1. -/
example : ∃ ws₁ ws₂ : WitnessSearch binaryHeap, ∃ r, (WitnessSearch.new debug64 binaryHeap 5).init debug64 0 4 = .ok ws₁ ∧
    ws₁.findMaxWeight debug64 exPrep 1 20 100 = .ok (ws₂, r) ∧ ws₂.settledNodes = 1 ∧ ws₂.isSettled 0 = .ok true :=
  ⟨_, _, _, rfl, rfl, rfl, rfl⟩
example {ws₁ ws₂ : WitnessSearch binaryHeap} {r : Nat} (h₁ : (WitnessSearch.new debug64 binaryHeap 5).init debug64 0 4 = .ok ws₁)
    (h₂ : ws₁.findMaxWeight debug64 exPrep 1 20 100 = .ok (ws₂, r)) {x : Nat} (hx : ws₂.isSettled x = .ok true) :
    ∃ d, IsDist (avoiding (prepEdges exPrep) 4) 0 x d ∧ d ≤ 20 :=
  (C105_stops (P := debug64) rfl exPrep_ok (before := []) rfl h₁ h₂ (by decide)).1 x hx

/-- After a search for node 3 a second one, with a larger limit, for node 2: it was settled already. -/
example : ∃ ws₁ ws₂ ws₃ : WitnessSearch binaryHeap, ∃ r, (WitnessSearch.new debug64 binaryHeap 5).init debug64 0 4 = .ok ws₁ ∧
    runWitness debug64 ws₁ [.find exPrep 3 20 100] = .ok ws₂ ∧ ws₂.findMaxWeight debug64 exPrep 2 30 100 = .ok (ws₃, r) ∧
    ws₃.isSettled 2 = .ok true ∧ ws₃.isSettled 2 = ws₂.isSettled 2 :=
  ⟨_, _, _, _, rfl, rfl, rfl, rfl,
    C105_target_not_settled (P := debug64) (pq := binaryHeap) rfl exPrep_ok (before := []) (s := 0) (v := 4) rfl rfl
      (searches := [(3, 20, 100)]) (limit := 30) (settledLimit := 100) rfl rfl (by decide)⟩

end Props
end FP
