import Verif.Props.Query
import Verif.Proofs.Distance
/-!
# Changed graphs

How answers change when the graph changes: edges away from the returned path, one more edge, other weights that differ by a potential,
and the reduction of queries with several sources and targets to single queries in a larger graph. The two graphs may be prepared in
different ways and queried with different heaps.
-/
set_option autoImplicit false
namespace FP
namespace Props
open Spec

/-- **C86** If edges are removed or made heavier, but the returned path is still there with its weight, the query returns the same
weight. -/
theorem C86_changes_off_the_path {P : Plat} (hP : P.checked = true) {ops₁ ops₂ : List Op} {ig₁ ig₂ : InputGraph}
    {fg₁ fg₂ : FastGraph} (hc₁ : Client P ops₁ ig₁ fg₁) (hc₂ : Client P ops₂ ig₂ fg₂) (pq₁ pq₂ : PQ) {s t : Nat}
    {p : ShortestPath} {r : Option ShortestPath} (h₁ : calcPath P pq₁ fg₁ s t = .ok (some p))
    (hle : ∀ e ∈ accepted ops₂, ∃ w ≤ e.weight, (⟨e.src, e.dst, w⟩ : Edge) ∈ accepted ops₁)
    (hp : IsWalk (edgesOf (accepted ops₂)) p.nodes p.weight) (h₂ : calcPath P pq₂ fg₂ s t = .ok r) :
    ∃ q, r = some q ∧ q.weight = p.weight := by
  obtain ⟨k1, _, _, _, k2, k3, _, _⟩ := (query_answer hP hc₁ h₁).2.2.single.2 p rfl
  have hw : HasWalk (edgesOf (accepted ops₂)) s t p.weight := ⟨_, hp, k2, k3⟩
  cases r with
  | none =>
    have := (query_answer hP hc₂ h₂).2.2.single.1 rfl _ hw
    omega
  | some q =>
    refine ⟨q, rfl, Nat.le_antisymm ?_ ?_⟩
    · exact ((query_answer hP hc₂ h₂).2.2.single.2 q rfl).2.2.2.2.2.2.2 _ hw
    · obtain ⟨p', e, h⟩ := C39_more_edges_never_longer hP hc₂ hc₁ hle pq₂ pq₁ h₂ h₁
      cases e
      exact h

/-- The example without the edges from 0 to 2 and from 3 to 2, and with a heavier edge from 4 to 1. -/
def Ex.fewerOps : List Op := [.addEdge 0 1 3, .addEdge 1 2 4, .addEdge 2 3 1, .addEdge 3 4 5, .addEdge 4 1 9, .freeze]

/-- a concrete case: the path from 0 to 4 keeps its weight -/
example : ∃ ig fg r, Client debug64 Ex.fewerOps ig fg ∧ calcPath debug64 binaryHeap fg 0 4 = .ok r ∧
    ∃ q, r = some q ∧ q.weight = 13 := by
  refine ⟨_, _, _, ⟨rfl, rfl, .default binaryHeap listQueue Ex.rel rfl⟩, rfl, ?_⟩
  exact C86_changes_off_the_path (ops₂ := Ex.fewerOps) rfl exampleClient ⟨rfl, rfl, .default binaryHeap listQueue Ex.rel rfl⟩
    binaryHeap binaryHeap (s := 0) (t := 4) Ex.query
    (by
      intro e he
      have : e ∈ [(⟨0, 1, 3⟩ : Edge), ⟨1, 2, 4⟩, ⟨2, 3, 1⟩, ⟨3, 4, 5⟩, ⟨4, 1, 9⟩] := he
      simp only [List.mem_cons, List.not_mem_nil, or_false] at this
      rcases this with rfl | rfl | rfl | rfl | rfl
      · exact ⟨3, by decide, by decide⟩
      · exact ⟨4, by decide, by decide⟩
      · exact ⟨1, by decide, by decide⟩
      · exact ⟨5, by decide, by decide⟩
      · exact ⟨2, by decide, by decide⟩)
    ⟨3, 10, by unfold edgesOf; decide, ⟨4, 6, by unfold edgesOf; decide, ⟨1, 5, by unfold edgesOf; decide,
      ⟨5, 0, by unfold edgesOf; decide, rfl, rfl⟩, rfl⟩, rfl⟩, rfl⟩ rfl

/-- The weight of an answer, `usize::MAX` if there is none. -/
def weightOr (P : Plat) (r : Option ShortestPath) : Nat := (r.map (·.weight)).getD P.umax

private theorem weightOr_spec {P : Plat} {E : EdgeRel} {S T : List (Nat × Nat)} {r : Option ShortestPath} (h : Answer P E S T r) :
    weightOr P r ≤ P.umax ∧ (∀ w, HasRoute E S T w → min w P.umax ≥ weightOr P r) ∧ (weightOr P r < P.umax → HasRoute E S T (weightOr P r)) := by
  cases r with
  | none =>
    refine ⟨Nat.le_refl _, ?_, fun h => absurd h (Nat.lt_irrefl _)⟩
    intro w hw
    have := h w hw
    simp only [weightOr, Option.map_none, Option.getD_none]
    omega
  | some p =>
    refine ⟨Nat.le_of_lt h.1, ?_, fun _ => h.route⟩
    intro w hw
    have := h.2.2 w hw
    have := h.1
    simp only [weightOr, Option.map_some, Option.getD_some]
    omega

private theorem weightOr_single {P : Plat} {E : EdgeRel} {s t : Nat} {r : Option ShortestPath}
    (h : Answer P E [(s, 0)] [(t, 0)] r) :
    weightOr P r ≤ P.umax ∧ (∀ w, Wk E s t w → min w P.umax ≥ weightOr P r) ∧ (weightOr P r < P.umax → Wk E s t (weightOr P r)) := by
  obtain ⟨h1, h2, h3⟩ := weightOr_spec h
  exact ⟨h1, fun w hw => h2 w (hasRoute_single.2 (hasWalk_iff.2 hw)), fun h => hasWalk_iff.1 (hasRoute_single.1 (h3 h))⟩

private theorem walk_one_more {E F : EdgeRel} {u v w : Nat} (hF : ∀ a b x, F a b x → E a b x ∨ (a = u ∧ b = v ∧ x = w)) {s t x : Nat}
    (h : Wk F s t x) : Wk E s t x ∨ ∃ a b, Wk E s u a ∧ Wk E v t b ∧ a + w + b ≤ x := by
  induction h with
  | nil s => exact Or.inl (.nil s)
  | cons he _ ih =>
    rcases hF _ _ _ he with he | ⟨rfl, rfl, rfl⟩
    · rcases ih with h | ⟨a, b, h1, h2, h3⟩
      · exact Or.inl (.cons he h)
      · exact Or.inr ⟨_, b, .cons he h1, h2, by omega⟩
    · rcases ih with h | ⟨a, b, h1, h2, h3⟩
      · exact Or.inr ⟨0, _, .nil _, h, by omega⟩
      · exact Or.inr ⟨0, b, .nil _, h2, by omega⟩

/-- **C87** One more edge, from `u` to `v` of weight `w`: the new weight is the minimum of the old one and the weight of the best
route over the new edge, which is known from two old queries. -/
theorem C87_one_more_edge {P : Plat} (hP : P.checked = true) {ops₁ ops₂ : List Op} {ig₁ ig₂ : InputGraph}
    {fg₁ fg₂ : FastGraph} (hc₁ : Client P ops₁ ig₁ fg₁) (hc₂ : Client P ops₂ ig₂ fg₂) {u v w : Nat}
    (hadd : ∀ e, e ∈ accepted ops₂ ↔ e ∈ accepted ops₁ ∨ e = ⟨u, v, w⟩) (pq₁ pq₂ : PQ) {s t : Nat} {r₁ ru rv r₂ : Option ShortestPath}
    (h₁ : calcPath P pq₁ fg₁ s t = .ok r₁) (hu : calcPath P pq₁ fg₁ s u = .ok ru) (hv : calcPath P pq₁ fg₁ v t = .ok rv)
    (h₂ : calcPath P pq₂ fg₂ s t = .ok r₂) :
    weightOr P r₂ = min (weightOr P r₁) (weightOr P ru + w + weightOr P rv) := by
  obtain ⟨a1, a2, a3⟩ := weightOr_single (query_answer hP hc₁ h₁).2.2
  obtain ⟨b1, b2, b3⟩ := weightOr_single (query_answer hP hc₁ hu).2.2
  obtain ⟨c1, c2, c3⟩ := weightOr_single (query_answer hP hc₁ hv).2.2
  obtain ⟨d1, d2, d3⟩ := weightOr_single (query_answer hP hc₂ h₂).2.2
  have hmono : ∀ a b x, edgesOf (accepted ops₁) a b x → edgesOf (accepted ops₂) a b x := fun a b x h => (hadd _).2 (Or.inl h)
  have hnew : edgesOf (accepted ops₂) u v w := (hadd _).2 (Or.inr rfl)
  have low : weightOr P r₂ ≤ min (weightOr P r₁) (weightOr P ru + w + weightOr P rv) := by
    have l1 : weightOr P r₂ ≤ weightOr P r₁ := by
      by_cases h : weightOr P r₁ < P.umax
      · have := d2 _ ((a3 h).mono hmono)
        omega
      · omega
    have l2 : weightOr P r₂ ≤ weightOr P ru + w + weightOr P rv := by
      by_cases h : weightOr P ru < P.umax ∧ weightOr P rv < P.umax
      · have := d2 _ ((((b3 h.1).mono hmono).snoc hnew).append ((c3 h.2).mono hmono))
        omega
      · omega
    omega
  by_cases h : weightOr P r₂ < P.umax
  · have hs : ∀ a b x, edgesOf (accepted ops₂) a b x → edgesOf (accepted ops₁) a b x ∨ (a = u ∧ b = v ∧ x = w) := by
      intro a b x hx
      rcases (hadd _).1 hx with h | h
      · exact Or.inl h
      · injection h with e1 e2 e3
        exact Or.inr ⟨e1, e2, e3⟩
    rcases walk_one_more hs (d3 h) with k | ⟨a, b, k1, k2, k3⟩
    · have := a2 _ k
      omega
    · have := b2 _ k1
      have := c2 _ k2
      omega
  · omega

/-- The example with a new edge from 2 to 4. -/
def Ex.moreOps : List Op := Ex.ops.dropLast ++ [.addEdge 2 4 3, .freeze]

/-- a concrete case: the new edge makes the way from 0 to 4 shorter -/
example : ∃ ig fg r₂, Client debug64 Ex.moreOps ig fg ∧ calcPath debug64 binaryHeap fg 0 4 = .ok r₂ ∧
    weightOr debug64 r₂ = min 13 (7 + 3 + 0) := by
  refine ⟨_, _, _, ⟨rfl, rfl, .default binaryHeap listQueue Ex.rel rfl⟩, rfl, ?_⟩
  exact C87_one_more_edge (ops₂ := Ex.moreOps) (u := 2) (v := 4) (w := 3) (s := 0) (t := 4) rfl exampleClient
    ⟨rfl, rfl, .default binaryHeap listQueue Ex.rel rfl⟩
    (by
      intro e
      have h : accepted Ex.moreOps = accepted Ex.ops ++ [⟨2, 4, 3⟩] := by decide
      rw [h, List.mem_append, List.mem_singleton])
    binaryHeap binaryHeap Ex.query (ru := some ⟨0, 2, 7, [0, 1, 2]⟩) (rv := some ⟨4, 4, 0, [4]⟩) rfl rfl rfl

/-! ### Potentials -/

/-- **C88** If every weight from `a` to `b` is changed by `π b - π a`, the weights of answers change by `π t - π s`, and the same paths
are shortest. (Answers of weight `usize::MAX` and more are `None`, hence the bound.) -/
theorem C88_potentials {P : Plat} (hP : P.checked = true) {ops₁ ops₂ : List Op} {ig₁ ig₂ : InputGraph}
    {fg₁ fg₂ : FastGraph} (hc₁ : Client P ops₁ ig₁ fg₁) (hc₂ : Client P ops₂ ig₂ fg₂) {π : Nat → Nat}
    (h12 : ∀ e ∈ accepted ops₁, ∃ w, (⟨e.src, e.dst, w⟩ : Edge) ∈ accepted ops₂ ∧ w + π e.src = e.weight + π e.dst)
    (h21 : ∀ e ∈ accepted ops₂, ∃ w, (⟨e.src, e.dst, w⟩ : Edge) ∈ accepted ops₁ ∧ e.weight + π e.src = w + π e.dst)
    (pq₁ pq₂ : PQ) {s t : Nat} {p : ShortestPath} {r : Option ShortestPath} (h₁ : calcPath P pq₁ fg₁ s t = .ok (some p))
    (hb : p.weight + π t < P.umax + π s) (h₂ : calcPath P pq₂ fg₂ s t = .ok r) :
    ∃ q, r = some q ∧ q.weight + π s = p.weight + π t ∧ IsWalk (edgesOf (accepted ops₂)) p.nodes q.weight := by
  obtain ⟨_, _, _, k1, k2, k3, k4, k5⟩ := (query_answer hP hc₁ h₁).2.2.single.2 p rfl
  have down : ∀ y, HasWalk (edgesOf (accepted ops₂)) s t y → ∃ x, HasWalk (edgesOf (accepted ops₁)) s t x ∧ y + π s = x + π t := by
    intro y hy
    have hz : ∀ (a b x : Nat), edgesOf (accepted ops₂) a b x → ∃ z, edgesOf (accepted ops₁) a b z ∧ x + π a = z + π b :=
      fun a b x h => h21 ⟨a, b, x⟩ h
    have : ∀ {s t y : Nat}, Wk (edgesOf (accepted ops₂)) s t y → ∃ x, Wk (edgesOf (accepted ops₁)) s t x ∧ y + π s = x + π t := by
      intro s t y h
      induction h with
      | nil s => exact ⟨0, .nil s, rfl⟩
      | cons he _ ih =>
        obtain ⟨x, h1, h2⟩ := ih
        obtain ⟨z, h3, h4⟩ := hz _ _ _ he
        exact ⟨_, .cons h3 h1, by omega⟩
    obtain ⟨x, h1, h2⟩ := this (hasWalk_iff.1 hy)
    exact ⟨x, hasWalk_iff.2 h1, h2⟩
  have nodesUp : ∀ (l : List Nat) (x a b : Nat), IsWalk (edgesOf (accepted ops₁)) l x → l.head? = some a → l.getLast? = some b →
      ∃ y, IsWalk (edgesOf (accepted ops₂)) l y ∧ y + π a = x + π b := by
    intro l
    induction l with
    | nil => intro x a b h; exact h.elim
    | cons c l ih =>
      intro x a b h ha hb
      cases l with
      | nil =>
        injection ha with ha
        injection hb with hb
        subst ha hb
        exact ⟨0, rfl, by rw [show x = 0 from h]; rfl⟩
      | cons d l =>
        injection ha with ha
        subst ha
        obtain ⟨x1, x2, g1, g2, rfl⟩ := h
        obtain ⟨y2, i1, i2⟩ := ih x2 d b g2 rfl (by rw [List.getLast?_cons_cons] at hb; exact hb)
        obtain ⟨y1, j1, j2⟩ := h12 ⟨_, _, _⟩ g1
        exact ⟨y1 + y2, ⟨y1, y2, j1, i1, rfl⟩, by simp only at j2; omega⟩
  obtain ⟨y, hy, hy2⟩ := nodesUp _ _ _ _ k1 k2 k3
  have hyw : HasWalk (edgesOf (accepted ops₂)) s t y := ⟨_, hy, k2, k3⟩
  cases r with
  | none =>
    have := (query_answer hP hc₂ h₂).2.2.single.1 rfl _ hyw
    omega
  | some q =>
    obtain ⟨_, _, _, _, _, _, m4, m5⟩ := (query_answer hP hc₂ h₂).2.2.single.2 q rfl
    have e1 := m5 _ hyw
    obtain ⟨x, hx, hx2⟩ := down _ m4
    have e2 := k5 _ hx
    have e3 : q.weight = y := by omega
    exact ⟨q, rfl, by omega, by rw [e3]; exact hy⟩

/-- The example with weights that differ by the potential `2, 1, 3, 3, 0` of the nodes. -/
def Ex.shiftedOps : List Op :=
  [.addEdge 0 1 2, .addEdge 1 2 6, .addEdge 0 2 10, .addEdgeBidir 2 3 1, .addEdge 3 4 2, .addEdge 4 1 3, .addEdge 0 1 7, .freeze]

/-- a concrete case: `11 + 2 = 13 + 0` -/
example : ∃ ig fg r, Client debug64 Ex.shiftedOps ig fg ∧ calcPath debug64 binaryHeap fg 0 4 = .ok r ∧
    ∃ q, r = some q ∧ q.weight + 2 = 13 + 0 ∧ IsWalk (edgesOf (accepted Ex.shiftedOps)) [0, 1, 2, 3, 4] q.weight := by
  refine ⟨_, _, _, ⟨rfl, rfl, .default binaryHeap listQueue Ex.rel rfl⟩, rfl, ?_⟩
  refine C88_potentials (ops₂ := Ex.shiftedOps) (π := fun u => [2, 1, 3, 3, 0].getD u 0) (s := 0) (t := 4) rfl exampleClient
    ⟨rfl, rfl, .default binaryHeap listQueue Ex.rel rfl⟩ ?_ ?_ binaryHeap binaryHeap Ex.query (by decide) rfl
  · intro e he
    have : e ∈ [(⟨0, 1, 3⟩ : Edge), ⟨1, 2, 4⟩, ⟨0, 2, 9⟩, ⟨2, 3, 1⟩, ⟨3, 2, 1⟩, ⟨3, 4, 5⟩, ⟨4, 1, 2⟩, ⟨0, 1, 8⟩] := he
    simp only [List.mem_cons, List.not_mem_nil, or_false] at this
    rcases this with rfl | rfl | rfl | rfl | rfl | rfl | rfl | rfl
    · exact ⟨2, by decide, rfl⟩
    · exact ⟨6, by decide, rfl⟩
    · exact ⟨10, by decide, rfl⟩
    · exact ⟨1, by decide, rfl⟩
    · exact ⟨1, by decide, rfl⟩
    · exact ⟨2, by decide, rfl⟩
    · exact ⟨3, by decide, rfl⟩
    · exact ⟨7, by decide, rfl⟩
  · intro e he
    have : e ∈ [(⟨0, 1, 2⟩ : Edge), ⟨1, 2, 6⟩, ⟨0, 2, 10⟩, ⟨2, 3, 1⟩, ⟨3, 2, 1⟩, ⟨3, 4, 2⟩, ⟨4, 1, 3⟩, ⟨0, 1, 7⟩] := he
    simp only [List.mem_cons, List.not_mem_nil, or_false] at this
    rcases this with rfl | rfl | rfl | rfl | rfl | rfl | rfl | rfl
    · exact ⟨3, by decide, rfl⟩
    · exact ⟨4, by decide, rfl⟩
    · exact ⟨9, by decide, rfl⟩
    · exact ⟨1, by decide, rfl⟩
    · exact ⟨1, by decide, rfl⟩
    · exact ⟨5, by decide, rfl⟩
    · exact ⟨2, by decide, rfl⟩
    · exact ⟨8, by decide, rfl⟩

/-! ### Several sources and targets -/

/-- `E₂` is `E₁` with a new node `z` from which the sources can be reached and a new node `y` that can be reached from the targets. The
initial weights are the weights of the new edges. -/
def Joined (E₁ E₂ : List Edge) (z y : Nat) (S T : List (Nat × Nat)) : Prop :=
  ∀ e, e ∈ E₂ ↔ e ∈ E₁ ∨ (e.src = z ∧ (e.dst, e.weight) ∈ S) ∨ (e.dst = y ∧ (e.src, e.weight) ∈ T)

/-- **C89** A query with several sources and targets gives the same weight as a single query between two new nodes that are joined to
the sources and the targets by edges with the initial weights. -/
theorem C89_joined {P : Plat} (hP : P.checked = true) {ops₁ ops₂ : List Op} {ig₁ ig₂ : InputGraph}
    {fg₁ fg₂ : FastGraph} (hc₁ : Client P ops₁ ig₁ fg₁) (hc₂ : Client P ops₂ ig₂ fg₂) {z y : Nat} {S T : List (Nat × Nat)}
    (hz : ig₁.numNodes ≤ z) (hy : ig₁.numNodes ≤ y) (hzy : z ≠ y) (hj : Joined (accepted ops₁) (accepted ops₂) z y S T)
    (pq₁ pq₂ : PQ) {r₁ r₂ : Option ShortestPath} (h₁ : calcPathMulti P pq₁ fg₁ S T = .ok r₁)
    (h₂ : calcPath P pq₂ fg₂ z y = .ok r₂) : r₁.map (·.weight) = r₂.map (·.weight) := by
  obtain ⟨ha, _, a₁⟩ := query_answer hP hc₁ h₁
  have hin : ∀ e ∈ accepted ops₁, e.src < ig₁.numNodes ∧ e.dst < ig₁.numNodes := by
    have hi := buildGraph_inv (Or.inl hP) hc₁.built
    intro e he
    rw [hi.num]
    exact nodeCount_gt e he
  have tail : ∀ {s x : Nat}, Wk (edgesOf (accepted ops₂)) s y x → s < ig₁.numNodes →
      ∃ t wt w, (t, wt) ∈ T ∧ Wk (edgesOf (accepted ops₁)) s t w ∧ x = w + wt := by
    intro s x h
    induction h with
    | nil s => intro hs; omega
    | @cons s v t a b he hr ih =>
      intro hs
      rcases (hj _).1 he with h1 | ⟨h1, _⟩ | ⟨h1, h2⟩
      · obtain ⟨t, wt, w, k1, k2, k3⟩ := ih hy hzy hj h₂ (hin _ h1).2
        exact ⟨t, wt, a + w, k1, .cons h1 k2, by omega⟩
      · simp only at h1
        omega
      · simp only at h1 h2
        subst h1
        cases hr with
        | nil => exact ⟨s, a, 0, h2, .nil _, by omega⟩
        | cons he' _ =>
          exfalso
          rcases (hj _).1 he' with h3 | ⟨h3, _⟩ | ⟨h3, h4⟩
          · have := (hin _ h3).1
            simp only at this
            omega
          · exact hzy h3.symm
          · have := ha.el _ h4
            simp only at this
            omega
  refine a₁.weight_eq (query_answer hP hc₂ h₂).2.2 ?_ ?_
  · rintro w _ ⟨s, ws, t, wt, x, k1, k2, k3, rfl⟩
    refine ⟨_, Nat.le_refl _, hasRoute_single.2 (hasWalk_iff.2 ?_)⟩
    have e1 : edgesOf (accepted ops₂) z s ws := (hj _).2 (Or.inr (Or.inl ⟨rfl, k1⟩))
    have e2 : edgesOf (accepted ops₂) t y wt := (hj _).2 (Or.inr (Or.inr ⟨rfl, k2⟩))
    have e3 : Wk (edgesOf (accepted ops₂)) s t x := (hasWalk_iff.1 k3).mono (fun a b c h => (hj _).2 (Or.inl h))
    exact ((Wk.single e1).append e3).snoc e2
  · intro w _ h
    cases hasWalk_iff.1 (hasRoute_single.1 h) with
    | nil => exact absurd rfl hzy
    | @cons _ v _ a b he hr =>
      rcases (hj _).1 he with h1 | ⟨_, h2⟩ | ⟨_, h2⟩
      · have := (hin _ h1).1
        simp only at this
        omega
      · obtain ⟨t, wt, x, k1, k2, k3⟩ := tail hr (ha.sl _ h2)
        exact ⟨_, Nat.le_refl _, v, a, t, wt, x, h2, k1, hasWalk_iff.2 k2, by omega⟩
      · have := ha.el _ h2
        simp only at this
        omega

/-- The example with new nodes 5 and 6 for the sources `(0, 2), (3, 9)` and the targets `(4, 1), (1, 20)`. -/
def Ex.joinedOps : List Op := Ex.ops.dropLast ++ [.addEdge 5 0 2, .addEdge 5 3 9, .addEdge 4 6 1, .addEdge 1 6 20, .freeze]

/-- a concrete case: both queries have weight 15 -/
example : ∃ ig fg r₁ r₂, Client debug64 Ex.joinedOps ig fg ∧
    calcPathMulti debug64 binaryHeap Ex.fg [(0, 2), (3, 9)] [(4, 1), (1, 20)] = .ok r₁ ∧
    calcPath debug64 binaryHeap fg 5 6 = .ok r₂ ∧ r₁.map (·.weight) = r₂.map (·.weight) ∧ r₁.map (·.weight) = some 15 := by
  refine ⟨_, _, _, _, ⟨rfl, rfl, .default binaryHeap listQueue Ex.rel rfl⟩, rfl, rfl, ?_, rfl⟩
  refine C89_joined (ops₂ := Ex.joinedOps) (z := 5) (y := 6) (S := [(0, 2), (3, 9)]) (T := [(4, 1), (1, 20)]) rfl exampleClient
    ⟨rfl, rfl, .default binaryHeap listQueue Ex.rel rfl⟩ (by decide) (by decide) (by decide) ?_ binaryHeap binaryHeap rfl rfl
  intro e
  have h : accepted Ex.joinedOps = accepted Ex.ops ++ [⟨5, 0, 2⟩, ⟨5, 3, 9⟩, ⟨4, 6, 1⟩, ⟨1, 6, 20⟩] := by decide
  obtain ⟨a, b, c⟩ := e
  rw [h]
  simp only [List.mem_append, List.mem_cons, List.not_mem_nil, or_false, Edge.mk.injEq, Prod.mk.injEq]
  refine or_congr Iff.rfl ?_
  omega

end Props
end FP
