import Verif.Props.Query
set_option autoImplicit false
/-! # Routes across a border -/
namespace FP.Props
open Spec

/-- Every edge of the list that leaves the region ends at a node of `B`. -/
def IsBorder (es : List Edge) (region : Nat → Prop) (B : List Nat) : Prop :=
  ∀ e ∈ es, region e.src → ¬region e.dst → e.dst ∈ B

/-- A walk out of the region has a first node outside; up to there it uses only edges that start in the region. -/
theorem IsBorder.cross' {es inner : List Edge} {region : Nat → Prop} {B : List Nat} (hB : IsBorder es region B)
    (hin : ∀ e ∈ es, region e.src → e ∈ inner) {s t w : Nat} (hs : region s) (ht : ¬region t)
    (h : HasWalk (edgesOf es) s t w) :
    ∃ b ∈ B, ∃ x y, HasWalk (edgesOf inner) s b x ∧ HasWalk (edgesOf es) b t y ∧ w = x + y := by
  rw [hasWalk_iff] at h
  suffices H : ∃ b ∈ B, ∃ x y, Wk (edgesOf inner) s b x ∧ Wk (edgesOf es) b t y ∧ w = x + y by
    obtain ⟨b, hb, x, y, h1, h2, h3⟩ := H
    exact ⟨b, hb, x, y, hasWalk_iff.2 h1, hasWalk_iff.2 h2, h3⟩
  induction h with
  | nil => exact absurd hs ht
  | @cons s v t a c e h ih =>
    by_cases hv : region v
    · obtain ⟨b, hb, x, y, h1, h2, h3⟩ := ih hv ht
      exact ⟨b, hb, a + x, y, .cons (hin _ e hs) h1, h2, by omega⟩
    · exact ⟨v, hB _ e hs hv, a, c, .single (hin _ e hs), h, rfl⟩

theorem IsBorder.cross {es : List Edge} {region : Nat → Prop} {B : List Nat} (hB : IsBorder es region B) {s t w : Nat}
    (hs : region s) (ht : ¬region t) (h : HasWalk (edgesOf es) s t w) :
    ∃ b ∈ B, ∃ x y, HasWalk (edgesOf es) s b x ∧ HasWalk (edgesOf es) b t y ∧ w = x + y :=
  hB.cross' (fun _ h _ => h) hs ht h

/-- **C106** If every edge that leaves a region ends at one of the nodes `B`, a lightest path from inside to outside is found by
trying the nodes `B`: its weight is the least sum of the answers from the source to a node of `B` and from there to the target.
In particular no path is found iff for no node of `B` both are found with a sum that is a weight. -/
theorem C106_across_a_border {P : Plat} (hP : P.checked = true) {ops : List Op} {ig : InputGraph} {fg : FastGraph}
    (hc : Client P ops ig fg) {region : Nat → Prop} {B : List Nat} (hB : IsBorder (accepted ops) region B) {s t : Nat}
    (hs : region s) (ht : ¬region t) (pq₁ pq₂ pq₃ : PQ) {r : Option ShortestPath} (h : calcPath P pq₁ fg s t = .ok r)
    {to_ from_ : Nat → Option ShortestPath} (hto : ∀ b ∈ B, calcPath P pq₂ fg s b = .ok (to_ b))
    (hfrom : ∀ b ∈ B, calcPath P pq₃ fg b t = .ok (from_ b)) :
    (∀ p, r = some p → ∃ b ∈ B, ∃ x y, to_ b = some x ∧ from_ b = some y ∧ p.weight = x.weight + y.weight) ∧
    ∀ b ∈ B, ∀ x y, to_ b = some x → from_ b = some y → x.weight + y.weight < P.umax →
      ∃ p, r = some p ∧ p.weight ≤ x.weight + y.weight := by
  constructor
  · rintro p rfl
    have hp := (query_answer hP hc h).2.2.single.2 p rfl
    obtain ⟨b, hb, x, y, h1, h2, h3⟩ := hB.cross hs ht hp.2.2.2.2.2.2.1
    have k1 := (query_answer hP hc (hto b hb)).2.2.single
    have k2 := (query_answer hP hc (hfrom b hb)).2.2.single
    have hlt := hp.1
    cases e1 : to_ b with
    | none => have := k1.1 e1 _ h1; omega
    | some q₁ =>
      cases e2 : from_ b with
      | none => have := k2.1 e2 _ h2; omega
      | some q₂ =>
        refine ⟨b, hb, q₁, q₂, e1, e2, ?_⟩
        obtain ⟨-, -, -, -, -, -, d1, m1⟩ := k1.2 _ e1
        obtain ⟨-, -, -, -, -, -, d2, m2⟩ := k2.2 _ e2
        have n1 := m1 _ h1
        have n2 := m2 _ h2
        have n3 := hp.2.2.2.2.2.2.2 _ (hasWalk_iff.2 ((hasWalk_iff.1 d1).append (hasWalk_iff.1 d2)))
        omega
  · intro b hb x y e1 e2 hlt
    have h1 := hto b hb
    have h2 := hfrom b hb
    rw [e1] at h1
    rw [e2] at h2
    exact C38_triangle hP hc pq₂ pq₃ pq₁ h1 h2 hlt h

/-- **C106** The same in two stages, with two graphs: the first graph only has edges of the whole graph and at least those that
start in the region. The weights it finds from the source to the nodes of the border are the start weights of a query to the
whole graph; its answer has the weight of the direct query. -/
theorem C106_two_stages {P : Plat} (hP : P.checked = true) {ops : List Op} {ig : InputGraph} {fg : FastGraph}
    (hc : Client P ops ig fg) {ops' : List Op} {ig' : InputGraph} {fg' : FastGraph} (hc' : Client P ops' ig' fg')
    {region : Nat → Prop} {B : List Nat} (hB : IsBorder (accepted ops) region B)
    (hsub : ∀ e ∈ accepted ops', e ∈ accepted ops) (hin : ∀ e ∈ accepted ops, region e.src → e ∈ accepted ops') {s t : Nat}
    (hs : region s) (ht : ¬region t) (pq₁ pq₂ pq₃ : PQ) {r : Option ShortestPath} (h : calcPath P pq₁ fg s t = .ok r)
    {to_ : Nat → Option ShortestPath} (hto : ∀ b ∈ B, calcPath P pq₂ fg' s b = .ok (to_ b)) {S : List (Nat × Nat)}
    (hS : ∀ b w, (b, w) ∈ S ↔ b ∈ B ∧ (to_ b).map (·.weight) = some w) {r' : Option ShortestPath}
    (h' : calcPathMulti P pq₃ fg S [(t, 0)] = .ok r') : r'.map (·.weight) = r.map (·.weight) := by
  have ha := (query_answer hP hc h).2.2
  have hb := (query_answer hP hc h').2.2
  have sound : ∀ w, HasRoute (edgesOf (accepted ops)) S [(t, 0)] w → HasWalk (edgesOf (accepted ops)) s t w := by
    rintro w ⟨b, wb, t', wt, x, m1, m2, hw, rfl⟩
    simp at m2
    obtain ⟨rfl, rfl⟩ := m2
    obtain ⟨m, e⟩ := (hS _ _).1 m1
    cases q : to_ b with
    | none => rw [q] at e; cases e
    | some y =>
      rw [q] at e
      cases e
      obtain ⟨-, -, -, -, -, -, d1, -⟩ := (query_answer hP hc' (hto b m)).2.2.single.2 _ q
      have d2 : Wk (edgesOf (accepted ops)) s b y.weight := (hasWalk_iff.1 d1).mono (fun _ _ _ h => hsub _ h)
      simpa using hasWalk_iff.2 (d2.append (hasWalk_iff.1 hw))
  have compl : ∀ w < P.umax, HasWalk (edgesOf (accepted ops)) s t w →
      ∃ w' ≤ w, HasRoute (edgesOf (accepted ops)) S [(t, 0)] w' := by
    intro w hw hk
    obtain ⟨b, m, x, y, h1, h2, rfl⟩ := hB.cross' hin hs ht hk
    have k1 := (query_answer hP hc' (hto b m)).2.2.single
    cases q : to_ b with
    | none => have := k1.1 q _ h1; omega
    | some z =>
      obtain ⟨-, -, -, -, -, -, d1, m1⟩ := k1.2 _ q
      have := m1 _ h1
      exact ⟨z.weight + y, by omega, b, z.weight, t, 0, y, (hS _ _).2 ⟨m, by rw [q]; rfl⟩, by simp, h2, rfl⟩
  cases r with
  | none =>
    cases r' with
    | none => rfl
    | some p' =>
      exfalso
      obtain ⟨hlt, ⟨ws, wt, w, k1, k2, k3, k4, k5, k6⟩, -⟩ := hb
      have := ha.single.1 rfl _ (sound _ ⟨_, ws, _, wt, w, k1, k2, ⟨_, k3, k4, k5⟩, k6⟩)
      omega
  | some p =>
    obtain ⟨hlt, -, -, -, -, -, d, hmin⟩ := ha.single.2 p rfl
    obtain ⟨w', hw', hr⟩ := compl _ hlt d
    cases r' with
    | none => have := hb w' hr; omega
    | some p' =>
      obtain ⟨hlt', ⟨ws, wt, w, k1, k2, k3, k4, k5, k6⟩, hmin'⟩ := hb
      have n1 := hmin _ (sound _ ⟨_, ws, _, wt, w, k1, k2, ⟨_, k3, k4, k5⟩, k6⟩)
      have n2 := hmin' _ hr
      have : p'.weight = p.weight := by omega
      simp [this]

theorem Ex.border : IsBorder (accepted Ex.ops) (· = 0) [1, 2] := by
  intro e he
  have : e ∈ [(⟨0, 1, 3⟩ : Edge), ⟨1, 2, 4⟩, ⟨0, 2, 9⟩, ⟨2, 3, 1⟩, ⟨3, 2, 1⟩, ⟨3, 4, 5⟩, ⟨4, 1, 2⟩, ⟨0, 1, 8⟩] := he
  simp only [List.mem_cons, List.not_mem_nil, or_false] at this
  rcases this with rfl | rfl | rfl | rfl | rfl | rfl | rfl | rfl <;> simp

/-- a concrete case: from 0 to 4 over 1 or 2 -/
example : ∃ b ∈ [1, 2], ∃ x y : ShortestPath, (fun b => if b = 1 then some (⟨0, 1, 3, [0, 1]⟩ : ShortestPath) else
      some ⟨0, 2, 7, [0, 1, 2]⟩) b = some x ∧
    (fun b => if b = 1 then some (⟨1, 4, 10, [1, 2, 3, 4]⟩ : ShortestPath) else some ⟨2, 4, 6, [2, 3, 4]⟩) b = some y ∧
    Ex.path.weight = x.weight + y.weight :=
  (C106_across_a_border rfl exampleClient Ex.border rfl (by decide) binaryHeap binaryHeap binaryHeap Ex.query
    (by intro b hb; simp only [List.mem_cons, List.not_mem_nil, or_false] at hb; rcases hb with rfl | rfl <;> rfl)
    (by intro b hb; simp only [List.mem_cons, List.not_mem_nil, or_false] at hb; rcases hb with rfl | rfl <;> rfl)).1 _ rfl

/-- the calls of the example that concern edges which start at node 0 -/
def Ex.innerOps : List Op := [.addEdge 0 1 3, .addEdge 0 2 9, .addEdge 0 1 8, .freeze]

/-- a concrete case: the first graph consists of the edges that start at node 0, it finds 3 and 9 -/
example : ∃ ig fg', Client debug64 Ex.innerOps ig fg' ∧ calcPath debug64 binaryHeap fg' 0 2 = .ok (some ⟨0, 2, 9, [0, 2]⟩) ∧
    ∃ r', calcPathMulti debug64 binaryHeap Ex.fg [(1, 3), (2, 9)] [(4, 0)] = .ok r' ∧
      r'.map (·.weight) = (some Ex.path).map (·.weight) := by
  refine ⟨_, _, ⟨rfl, rfl, .default binaryHeap listQueue Ex.rel rfl⟩, rfl, some ⟨1, 4, 13, [1, 2, 3, 4]⟩, rfl, ?_⟩
  refine C106_two_stages (ops' := Ex.innerOps) rfl exampleClient ⟨rfl, rfl, .default binaryHeap listQueue Ex.rel rfl⟩ Ex.border
    (by unfold Ex.innerOps; decide) ?_ rfl (by decide) binaryHeap binaryHeap binaryHeap Ex.query
    (to_ := fun b => if b = 1 then some ⟨0, 1, 3, [0, 1]⟩ else some ⟨0, 2, 9, [0, 2]⟩) (S := [(1, 3), (2, 9)]) ?_ ?_ rfl
  · intro e he
    have : e ∈ [(⟨0, 1, 3⟩ : Edge), ⟨1, 2, 4⟩, ⟨0, 2, 9⟩, ⟨2, 3, 1⟩, ⟨3, 2, 1⟩, ⟨3, 4, 5⟩, ⟨4, 1, 2⟩, ⟨0, 1, 8⟩] := he
    simp only [List.mem_cons, List.not_mem_nil, or_false] at this
    rcases this with rfl | rfl | rfl | rfl | rfl | rfl | rfl | rfl <;> first | (intro _; decide) | (intro h; cases h)
  · intro b hb
    simp only [List.mem_cons, List.not_mem_nil, or_false] at hb
    rcases hb with rfl | rfl <;> rfl
  · intro b w
    simp only [List.mem_cons, List.not_mem_nil, or_false, Prod.mk.injEq]
    constructor
    · rintro (⟨rfl, rfl⟩ | ⟨rfl, rfl⟩) <;> simp
    · rintro ⟨rfl | rfl, h⟩
      · simp at h; omega
      · simp at h; omega

end FP.Props
