import Verif.Props.EndToEnd
/-!
# Which edges matter for a query
-/
set_option autoImplicit false
namespace FP
namespace Props
open Spec

/-- An edge from `u` to `v` would be on a walk from a source to a target. -/
def OnRoute (E : EdgeRel) (S T : List (Nat × Nat)) (u v : Nat) : Prop :=
  ∃ s ws t wt a b, (s, ws) ∈ S ∧ (t, wt) ∈ T ∧ HasWalk E s u a ∧ HasWalk E v t b

/-- Both answers are `None` or both have the same weight. -/
def SameWeight (r₁ r₂ : Option ShortestPath) : Prop := r₁.map ShortestPath.weight = r₂.map ShortestPath.weight

theorem sameWeight_of {r₁ r₂ : Option ShortestPath} (h1 : ∀ p, r₁ = some p → ∃ q, r₂ = some q ∧ q.weight ≤ p.weight)
    (h2 : ∀ p, r₂ = some p → ∃ q, r₁ = some q ∧ q.weight ≤ p.weight) : SameWeight r₁ r₂ := by
  unfold SameWeight
  cases r₁ with
  | none =>
    cases r₂ with
    | none => rfl
    | some q => obtain ⟨_, h, _⟩ := h2 q rfl; cases h
  | some p =>
    obtain ⟨q, rfl, h⟩ := h1 p rfl
    obtain ⟨p', e, h'⟩ := h2 q rfl
    cases e
    simp only [Option.map_some, Option.some.injEq]
    omega

theorem walk_moves {E F : EdgeRel} {S T : List (Nat × Nat)} {s ws t wt : Nat} (hs : (s, ws) ∈ S) (ht : (t, wt) ∈ T)
    (h : ∀ u v w, E u v w → OnRoute E S T u v → ∃ w' ≤ w, F u v w') {x w : Nat} (hk : Wk E x t w) : ∀ {a : Nat}, Wk E s x a →
    ∃ w' ≤ w, Wk F x t w' := by
  induction hk with
  | nil x => intro a _; exact ⟨0, Nat.le_refl _, .nil _⟩
  | @cons u v t x b e k ih =>
    intro a hp
    obtain ⟨y, hy, e'⟩ := h u v x e ⟨s, ws, t, wt, a, b, hs, ht, hasWalk_iff.2 hp, hasWalk_iff.2 k⟩
    obtain ⟨w', hw', k'⟩ := ih ht (hp.append (Wk.single e))
    exact ⟨y + w', by omega, .cons e' k'⟩

theorem routes_move {E F : EdgeRel} {S T : List (Nat × Nat)}
    (h : ∀ u v w, E u v w → OnRoute E S T u v → ∃ w' ≤ w, F u v w') {w : Nat} (hr : HasRoute E S T w) :
    ∃ w' ≤ w, HasRoute F S T w' := by
  obtain ⟨s, ws, t, wt, w, hs, ht, hk, rfl⟩ := hr
  obtain ⟨w', hw', k⟩ := walk_moves hs ht h (hasWalk_iff.1 hk) (.nil s)
  exact ⟨ws + w' + wt, by omega, s, ws, t, wt, w', hs, ht, hasWalk_iff.2 k, rfl⟩

/-- **C99** Only edges on walks from a source to a target matter: graphs that agree in these, up to parallel edges, give answers of the
same weight. They may have different numbers of nodes and be prepared in different ways. -/
theorem C99_edges_on_routes {P : Plat} (hP : P.checked = true) {ops₁ ops₂ : List Op} {ig₁ ig₂ : InputGraph} {fg₁ fg₂ : FastGraph}
    (hc₁ : Client P ops₁ ig₁ fg₁) (hc₂ : Client P ops₂ ig₂ fg₂) (pq₁ pq₂ : PQ) {S T : List (Nat × Nat)}
    (h12 : ∀ e ∈ accepted ops₁, OnRoute (edgesOf (accepted ops₁)) S T e.src e.dst →
      ∃ w ≤ e.weight, (⟨e.src, e.dst, w⟩ : Edge) ∈ accepted ops₂)
    (h21 : ∀ e ∈ accepted ops₂, OnRoute (edgesOf (accepted ops₂)) S T e.src e.dst →
      ∃ w ≤ e.weight, (⟨e.src, e.dst, w⟩ : Edge) ∈ accepted ops₁)
    {r₁ r₂ : Option ShortestPath} (q₁ : calcPathMulti P pq₁ fg₁ S T = .ok r₁) (q₂ : calcPathMulti P pq₂ fg₂ S T = .ok r₂) :
    SameWeight r₁ r₂ := by
  have a₁ := (query_answer hP hc₁ q₁).2.2
  have a₂ := (query_answer hP hc₂ q₂).2.2
  refine sameWeight_of (fun p hp => a₁.weight_le a₂ ?_ hp) (fun p hp => a₂.weight_le a₁ ?_ hp)
  · intro w _ hr
    exact routes_move (fun u v w he ho => h12 ⟨u, v, w⟩ he ho) hr
  · intro w _ hr
    exact routes_move (fun u v w he ho => h21 ⟨u, v, w⟩ he ho) hr

/-- **C99** Only edges that are not heavier than the answer matter. -/
theorem C99_light_edges {P : Plat} (hP : P.checked = true) {ops₁ ops₂ : List Op} {ig₁ ig₂ : InputGraph} {fg₁ fg₂ : FastGraph}
    (hc₁ : Client P ops₁ ig₁ fg₁) (hc₂ : Client P ops₂ ig₂ fg₂) (pq₁ pq₂ : PQ) {S T : List (Nat × Nat)} {p : ShortestPath}
    (h : ∀ e, e.weight ≤ p.weight → (e ∈ accepted ops₁ ↔ e ∈ accepted ops₂)) {r₂ : Option ShortestPath}
    (q₁ : calcPathMulti P pq₁ fg₁ S T = .ok (some p)) (q₂ : calcPathMulti P pq₂ fg₂ S T = .ok r₂) :
    ∃ q, r₂ = some q ∧ q.weight = p.weight := by
  have a₁ := (query_answer hP hc₁ q₁).2.2
  have a₂ := (query_answer hP hc₂ q₂).2.2
  have move : ∀ {E F : EdgeRel} {w : Nat}, (∀ u v x, x ≤ p.weight → E u v x → F u v x) → w ≤ p.weight → HasRoute E S T w →
      HasRoute F S T w := by
    rintro E F w hEF hw ⟨s, ws, t, wt, x, hs, ht, hk, rfl⟩
    refine ⟨s, ws, t, wt, x, hs, ht, hasWalk_iff.2 ?_, rfl⟩
    have hx : x ≤ p.weight := by omega
    replace hk := hasWalk_iff.1 hk
    clear hs ht hw
    induction hk with
    | nil s => exact .nil s
    | cons e k ih => exact .cons (hEF _ _ _ (by omega) e) (ih (by omega))
  have r1 := move (F := edgesOf (accepted ops₂)) (fun u v x hx he => (h ⟨u, v, x⟩ hx).1 he) (Nat.le_refl _) a₁.route
  cases r₂ with
  | none => have := a₂ _ r1; have := a₁.1; omega
  | some q =>
    have hle : q.weight ≤ p.weight := a₂.2.2 _ r1
    have r2 := move (F := edgesOf (accepted ops₁)) (fun u v x hx he => (h ⟨u, v, x⟩ hx).2 he) hle a₂.route
    exact ⟨q, rfl, Nat.le_antisymm hle (a₁.2.2 _ r2)⟩

/-- **C99** Parts without edges between them: queries between different parts give `None`, and queries within a part give the weight
the part alone gives. -/
theorem C99_parts {P : Plat} (hP : P.checked = true) {ops : List Op} {ig : InputGraph} {fg : FastGraph} (hc : Client P ops ig fg)
    (part : Nat → Nat) (hpart : ∀ e ∈ accepted ops, part e.src = part e.dst) (pq : PQ) {s t : Nat} {r : Option ShortestPath}
    (hq : calcPath P pq fg s t = .ok r) :
    (part s ≠ part t → r = none) ∧
    ∀ (ops' : List Op) (ig' : InputGraph) (fg' : FastGraph), Client P ops' ig' fg' →
      (∀ e, e ∈ accepted ops' ↔ e ∈ accepted ops ∧ part e.src = part s) →
      ∀ (pq' : PQ) (r' : Option ShortestPath), calcPath P pq' fg' s t = .ok r' → SameWeight r r' := by
  have stay : ∀ u v w, Wk (edgesOf (accepted ops)) u v w → part u = part v := by
    intro u v w k
    induction k with
    | nil s => rfl
    | cons e _ ih => exact (hpart _ e).trans ih
  constructor
  · intro hne
    cases r with
    | none => rfl
    | some p =>
      obtain ⟨k, _⟩ := C01_calc_path_is_minimal hP hc pq hq
      exact absurd (stay _ _ _ (hasWalk_iff.1 k)) hne
  · intro ops' ig' fg' hc' heq pq' r' hq'
    refine C99_edges_on_routes hP hc hc' pq pq' ?_ ?_ (query_single hq) (query_single hq')
    · rintro ⟨u, v, w⟩ he ⟨s', ws, t', wt, a, b, hs, ht, k, _⟩
      cases List.mem_singleton.1 hs
      exact ⟨w, Nat.le_refl _, (heq _).2 ⟨he, (stay _ _ _ (hasWalk_iff.1 k)).symm⟩⟩
    · rintro ⟨u, v, w⟩ he _
      exact ⟨w, Nat.le_refl _, ((heq _).1 he).1⟩

/-! ### Examples -/

/-- Two parts, 0, 1, 2 and 3, 4. -/
def partsOps : List Op := [.addEdge 0 1 2, .addEdge 1 2 2, .addEdgeBidir 3 4 1, .freeze]

/-- The first part with heavier edges. -/
def otherOps : List Op := [.addEdge 0 1 2, .addEdge 1 2 2, .addEdgeBidir 3 4 1, .addEdge 0 2 5, .addEdge 2 3 9, .freeze]

/-- The first part alone. -/
def partOps : List Op := [.addEdge 0 1 2, .addEdge 1 2 2, .freeze]

theorem partsClient : ∃ ig fg, Client debug64 partsOps ig fg ∧ calcPath debug64 binaryHeap fg 0 2 = .ok (some ⟨0, 2, 4, [0, 1, 2]⟩) ∧
    ∃ r, calcPath debug64 binaryHeap fg 1 3 = .ok r := by
  obtain ⟨ig, fg, r, h1, h2, h3, h4, h5, h6⟩ : ∃ ig fg r, buildGraph debug64 partsOps = .ok ig ∧ ig.frozen = true ∧ ig.numNodes = 5 ∧
    prepareWithOrder debug64 binaryHeap ig [1, 0, 2, 3, 4] = .ok (.ok fg) ∧
    calcPath debug64 binaryHeap fg 0 2 = .ok (some ⟨0, 2, 4, [0, 1, 2]⟩) ∧ calcPath debug64 binaryHeap fg 1 3 = .ok r :=
    ⟨_, _, _, rfl, rfl, rfl, rfl, rfl, rfl⟩
  exact ⟨ig, fg, ⟨h1, h2, .order binaryHeap [1, 0, 2, 3, 4] (by rw [h3]; decide) h4⟩, h5, r, h6⟩

theorem otherClient : ∃ ig fg r, Client debug64 otherOps ig fg ∧
    calcPathMulti debug64 binaryHeap fg [(0, 0)] [(2, 0)] = .ok r := by
  obtain ⟨ig, fg, r, h1, h2, h3, h4, h5⟩ : ∃ ig fg r, buildGraph debug64 otherOps = .ok ig ∧ ig.frozen = true ∧ ig.numNodes = 5 ∧
    prepareWithOrder debug64 binaryHeap ig [1, 0, 2, 3, 4] = .ok (.ok fg) ∧ calcPathMulti debug64 binaryHeap fg [(0, 0)] [(2, 0)] = .ok r :=
    ⟨_, _, _, rfl, rfl, rfl, rfl, rfl⟩
  exact ⟨ig, fg, r, ⟨h1, h2, .order binaryHeap [1, 0, 2, 3, 4] (by rw [h3]; decide) h4⟩, h5⟩

theorem partClient : ∃ ig fg r, Client debug64 partOps ig fg ∧ calcPath debug64 binaryHeap fg 0 2 = .ok r := by
  obtain ⟨ig, fg, r, h1, h2, h3, h4, h5⟩ : ∃ ig fg r, buildGraph debug64 partOps = .ok ig ∧ ig.frozen = true ∧ ig.numNodes = 3 ∧
    prepareWithOrder debug64 binaryHeap ig [1, 0, 2] = .ok (.ok fg) ∧ calcPath debug64 binaryHeap fg 0 2 = .ok r :=
    ⟨_, _, _, rfl, rfl, rfl, rfl, rfl⟩
  exact ⟨ig, fg, r, ⟨h1, h2, .order binaryHeap [1, 0, 2] (by rw [h3]; decide) h4⟩, h5⟩

/-- The heavier edges 0 → 2 and 2 → 3 do not change the weight 4. -/
example : ∃ ig fg q, Client debug64 otherOps ig fg ∧ calcPathMulti debug64 binaryHeap fg [(0, 0)] [(2, 0)] = .ok (some q) ∧ q.weight = 4 := by
  obtain ⟨ig, fg, hc, h1, _⟩ := partsClient
  obtain ⟨ig', fg', r, hc', h2⟩ := otherClient
  have k1 : ∀ e ∈ accepted partsOps, e ∈ accepted otherOps := by decide
  have k2 : ∀ e ∈ accepted otherOps, e.weight ≤ 4 → e ∈ accepted partsOps := by decide
  obtain ⟨q, rfl, hw⟩ := C99_light_edges rfl hc hc' binaryHeap binaryHeap (fun e hle => ⟨fun h => k1 e h, fun h => k2 e h hle⟩)
    (query_single h1) h2
  exact ⟨ig', fg', q, hc', h2, hw⟩

/-- Nothing leads from 1 to 3, and the first part alone gives the same weight. -/
example : ∃ ig fg ig' fg' r', Client debug64 partsOps ig fg ∧ calcPath debug64 binaryHeap fg 1 3 = .ok none ∧ Client debug64 partOps ig' fg' ∧
    calcPath debug64 binaryHeap fg' 0 2 = .ok r' ∧ SameWeight (some ⟨0, 2, 4, [0, 1, 2]⟩) r' := by
  obtain ⟨ig, fg, hc, h1, r, h2⟩ := partsClient
  obtain ⟨ig', fg', r', hc', h3⟩ := partClient
  have hp : ∀ e ∈ accepted partsOps, e.src / 3 = e.dst / 3 := by decide
  have hn := (C99_parts rfl hc (· / 3) hp binaryHeap h2).1 (by decide)
  subst hn
  refine ⟨ig, fg, ig', fg', r', hc, h2, hc', h3, (C99_parts rfl hc (· / 3) hp binaryHeap h1).2 _ _ _ hc' ?_ _ _ h3⟩
  have k1 : ∀ e ∈ accepted partOps, e ∈ accepted partsOps ∧ e.src / 3 = 0 / 3 := by decide
  have k2 : ∀ e ∈ accepted partsOps, e.src / 3 = 0 / 3 → e ∈ accepted partOps := by decide
  exact fun e => ⟨fun h => k1 e h, fun h => k2 e h.1 h.2⟩

end Props
end FP
