import Verif.Proofs.Reorder
set_option autoImplicit false
/-! # Two preparations with different queues and formulas, side by side -/
namespace FP

variable {pq : PQ} {nq nq' : NodeQueue} {P : Plat}

/-- Two queues that hand out the same nodes as long as they are given corresponding priorities. -/
structure SameQueues (nq nq' : NodeQueue) (T : Nat → Nat → Prop) (S : nq.σ → nq'.σ → Prop) : Prop where
  empty : S nq.empty nq'.empty
  push : ∀ q q' k p p', S q q' → T p p' → S (nq.push k p q) (nq'.push k p' q')
  change : ∀ q q' k p p', S q q' → T p p' → S (nq.change k p q) (nq'.change k p' q')
  pop : ∀ q q', S q q' → (nq.pop q = none ∧ nq'.pop q' = none) ∨
    ∃ k r r', nq.pop q = some (k, r) ∧ nq'.pop q' = some (k, r') ∧ S r r'

variable {T : Nat → Nat → Prop} {S : nq.σ → nq'.σ → Prop}

theorem calcRelevance_lockstep {r r' : Nat → Int → Nat → Nat} (hr : ∀ l c d, T (r l c d) (r' l c d)) (g : PreparationGraph)
    (ws : WitnessSearch pq) (node level ms : Nat) :
    RelM (fun x y : PreparationGraph × WitnessSearch pq × Nat => x.1 = y.1 ∧ x.2.1 = y.2.1 ∧ T x.2.2 y.2.2)
      (calcRelevance P r g ws node level ms) (calcRelevance P r' g ws node level ms) := by
  unfold calcRelevance
  refine RelM.bind (RelM.of_eq rfl) ?_
  rintro st _ rfl
  refine RelM.bind (RelM.of_eq rfl) ?_
  rintro outs _ rfl
  refine RelM.bind (RelM.of_eq rfl) ?_
  rintro ins _ rfl
  exact ⟨rfl, rfl, hr _ _ _⟩

/-- The states agree except for the queues. -/
def Lockstep (S : nq.σ → nq'.σ → Prop) (s : QState pq nq) (t : QState pq nq') : Prop :=
  s.b = t.b ∧ s.levels = t.levels ∧ S s.queue t.queue

theorem initialPriority_lockstep (hS : SameQueues nq nq' T S) {params : Params} {r' : Nat → Int → Nat → Nat}
    (hr : ∀ l c d, T (params.relevance l c d) (r' l c d)) (s : QState pq nq) (t : QState pq nq') (i : Nat) (h : Lockstep S s t) :
    RelM (Lockstep S) (initialPriority P params s i) (initialPriority P { params with relevance := r' } t i) := by
  obtain ⟨b, lv, q⟩ := s
  obtain ⟨b', lv', q'⟩ := t
  obtain ⟨h1, h2, h3⟩ := h
  simp only at h1 h2 h3
  subst h1 h2
  unfold initialPriority
  refine RelM.bind (calcRelevance_lockstep hr _ _ _ _ _) ?_
  rintro ⟨g, ws, p⟩ ⟨_, _, p'⟩ ⟨rfl, rfl, hp⟩
  exact ⟨rfl, rfl, hS.push _ _ _ _ _ h3 hp⟩

theorem updateNeighbor_lockstep (hS : SameQueues nq nq' T S) {params : Params} {r' : Nat → Int → Nat → Nat}
    (hr : ∀ l c d, T (params.relevance l c d) (r' l c d)) (node : Nat) (s : QState pq nq) (t : QState pq nq') (i : Nat)
    (h : Lockstep S s t) :
    RelM (Lockstep S) (updateNeighbor P params node s i) (updateNeighbor P { params with relevance := r' } node t i) := by
  obtain ⟨b, lv, q⟩ := s
  obtain ⟨b', lv', q'⟩ := t
  obtain ⟨h1, h2, h3⟩ := h
  simp only at h1 h2 h3
  subst h1 h2
  unfold updateNeighbor
  refine RelM.bind (RelM.of_eq rfl) ?_
  rintro ln _ rfl
  refine RelM.bind (RelM.of_eq rfl) ?_
  rintro lv _ rfl
  refine RelM.bind (RelM.of_eq rfl) ?_
  rintro lv1 _ rfl
  refine RelM.bind (RelM.of_eq rfl) ?_
  rintro levels _ rfl
  refine RelM.bind (RelM.of_eq rfl) ?_
  rintro l _ rfl
  refine RelM.bind (calcRelevance_lockstep hr _ _ _ _ _) ?_
  rintro ⟨g, ws, p⟩ ⟨_, _, p'⟩ ⟨rfl, rfl, hp⟩
  exact ⟨rfl, rfl, hS.change _ _ _ _ _ h3 hp⟩

theorem contractionLoop_lockstep (hS : SameQueues nq nq' T S) {params : Params} {r' : Nat → Int → Nat → Nat}
    (hr : ∀ l c d, T (params.relevance l c d) (r' l c d)) : ∀ (fuel rank : Nat) (s : QState pq nq) (t : QState pq nq'), Lockstep S s t →
    RelM (Lockstep S) (contractionLoop P params fuel rank s) (contractionLoop P { params with relevance := r' } fuel rank t)
  | 0, _, _, _, _ => rfl
  | fuel + 1, rank, ⟨b, lv, q⟩, ⟨b', lv', q'⟩, h => by
    obtain ⟨h1, h2, h3⟩ := h
    simp only at h1 h2 h3
    subst h1 h2
    unfold contractionLoop
    rcases hS.pop _ _ h3 with ⟨e1, e2⟩ | ⟨k, r, r', e1, e2, hr'⟩
    · simp only [e1, e2]
      exact ⟨rfl, rfl, h3⟩
    · simp only [e1, e2]
      refine RelM.bind (RelM.of_eq rfl) ?_
      rintro outs _ rfl
      refine RelM.bind (RelM.of_eq rfl) ?_
      rintro ins _ rfl
      refine RelM.bind (RelM.of_eq rfl) ?_
      rintro b' _ rfl
      refine RelM.bind (RelM.forM (R := Lockstep S) (fun s t i _ hR => updateNeighbor_lockstep hS hr k s t i hR) ⟨rfl, rfl, hr'⟩) ?_
      intro s t hR
      exact contractionLoop_lockstep hS hr _ _ _ _ hR

theorem prepare_lockstep (hS : SameQueues nq nq' T S) {params : Params} {r' : Nat → Int → Nat → Nat}
    (hr : ∀ l c d, T (params.relevance l c d) (r' l c d)) (ig : InputGraph) :
    buildWithParams P pq nq ig params = buildWithParams P pq nq' ig { params with relevance := r' } := by
  apply RelM.eq
  unfold buildWithParams
  refine RelM.bind (RelM.of_eq rfl) ?_
  rintro n _ rfl
  unfold runContraction
  refine RelM.bind (RelM.of_eq rfl) ?_
  rintro fg _ rfl
  refine RelM.bind (RelM.of_eq rfl) ?_
  rintro pg _ rfl
  refine RelM.bind (RelM.forM (R := Lockstep S) (fun s t i _ hR => initialPriority_lockstep hS hr s t i hR)
    ⟨rfl, rfl, hS.empty⟩) ?_
  intro s t hR
  refine RelM.bind (contractionLoop_lockstep hS hr _ _ _ _ hR) ?_
  intro s t hR
  exact RelM.of_eq (by rw [hR.1])

end FP
