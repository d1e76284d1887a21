import Verif.Proofs.Comparisons
import Verif.Proofs.Lockstep
import Verif.Props.Structures
import Verif.Props.NoTies
set_option autoImplicit false
/-! # Only comparisons of priorities matter

The formula for the priorities has a factor 1000 and is cut off to an integer. Values that compare alike lead to the same graph, even
if there are ties. -/
namespace FP.Props
open Spec

/-- The queue decides by comparing priorities: if it is given other priorities that compare alike, it hands out the same nodes. `S`
relates the queues during the two runs. -/
def Comparing (nq : NodeQueue) : Prop :=
  ∀ T : Nat → Nat → Prop, (∀ p q p' q', T p p' → T q q' → (p ≤ q ↔ p' ≤ q')) → ∃ S : nq.σ → nq.σ → Prop,
    S nq.empty nq.empty ∧
    (∀ q q' k p p', S q q' → T p p' → S (nq.push k p q) (nq.push k p' q')) ∧
    (∀ q q' k p p', S q q' → T p p' → S (nq.change k p q) (nq.change k p' q')) ∧
    ∀ q q', S q q' → (nq.pop q = none ∧ nq.pop q' = none) ∨
      ∃ k r r', nq.pop q = some (k, r) ∧ nq.pop q' = some (k, r') ∧ S r r'

/-- **C131** The algorithm of `priority_queue` is such a queue. -/
theorem C131_priority_queue : Comparing prioQueue := by
  intro T hT
  refine ⟨fun q q' => PrioQueue.ItemsRel T q.1 q'.1, .nil, fun q q' k p p' h hp => h.push hT k hp,
    fun q q' k p p' h hp => h.change hT k hp, fun q q' h => ?_⟩
  have of : ∀ {q : prioQueue.σ} {r : Option (Nat × List HeapItem)}, PrioQueue.pop q.1 = r →
      (r = none → prioQueue.pop q = none) ∧ ∀ k l, r = some (k, l) → ∃ q', prioQueue.pop q = some (k, q') ∧ q'.1 = l := by
    intro q r hr
    cases hp : prioQueue.pop q with
    | none =>
      have := (prioQueue.pop_none q).1 hp
      have : q.1 = [] := List.map_eq_nil_iff.1 this
      rw [this] at hr
      subst hr
      exact ⟨fun _ => rfl, fun k l e => by cases e⟩
    | some x =>
      obtain ⟨k, q'⟩ := x
      rw [prioQueue_pop hp] at hr
      subst hr
      exact ⟨fun e => by (cases e), fun k l e => by cases e; exact ⟨q', rfl, rfl⟩⟩
  rcases h.pop hT with ⟨h1, h2⟩ | ⟨k, r, r', h1, h2, h3⟩
  · exact .inl ⟨(of h1).1 rfl, (of h2).1 rfl⟩
  · obtain ⟨s, a1, rfl⟩ := (of h1).2 _ _ rfl
    obtain ⟨s', b1, rfl⟩ := (of h2).2 _ _ rfl
    exact .inr ⟨k, s, s', a1, b1, h3⟩

/-- **C131** If two formulas for the priorities compare alike, `prepare_with_params` does the same with both: it returns the same
prepared graph, ties included, or panics with both. -/
theorem C131_formulas (P : Plat) (pq : PQ) {nq : NodeQueue} (hc : Comparing nq) (ig : InputGraph) (params : Params)
    {formula : Nat → Int → Nat → Nat}
    (h : ∀ l c d l' c' d', params.relevance l c d ≤ params.relevance l' c' d' ↔ formula l c d ≤ formula l' c' d') :
    prepareWithParams P pq nq ig { params with relevance := formula } = prepareWithParams P pq nq ig params := by
  obtain ⟨S, s1, s2, s3, s4⟩ := hc (fun p p' => ∃ l c d, p = params.relevance l c d ∧ p' = formula l c d) (by
    rintro p q p' q' ⟨l, c, d, rfl, rfl⟩ ⟨l', c', d', rfl, rfl⟩
    exact h l c d l' c' d')
  exact (prepare_lockstep ⟨s1, s2, s3, s4⟩ (fun l c d => ⟨l, c, d, rfl, rfl⟩) ig).symm

/-- **C131** In particular the priorities may be scaled. -/
theorem C131_scaled (P : Plat) (pq : PQ) {nq : NodeQueue} (hc : Comparing nq) (ig : InputGraph) (params : Params) {k : Nat} (hk : 0 < k)
    (s : Nat) : prepareWithParams P pq nq ig { params with relevance := fun l c d => k * params.relevance l c d + s } =
    prepareWithParams P pq nq ig params :=
  C131_formulas P pq hc ig params (fun l c d l' c' d' => by
    rw [Nat.add_le_add_iff_right, Nat.mul_le_mul_left_iff hk])

/-- a concrete case: the graph with a tie between nodes 0 and 2 of C130, with other priorities that compare alike -/
example : prepareWithParams debug64 binaryHeap prioQueue Ties.ig' ⟨fun level _ degree => 1000 * (level + 10 * degree) + 1, 500, 100, 500⟩ =
    prepareWithParams debug64 binaryHeap prioQueue Ties.ig' (.default Ties.rel) :=
  C131_scaled debug64 binaryHeap C131_priority_queue Ties.ig' (.default Ties.rel) (by decide) 1

/-- and cutting off digits does matter: without them there are only ties -/
example : (prepareWithParams debug64 binaryHeap prioQueue Ex.ig ⟨fun level _ degree => (level + 10 * degree) / 100, 500, 100, 500⟩).toOption.map
      (·.ranks) ≠ (prepareWithParams debug64 binaryHeap prioQueue Ex.ig (.default Ties.rel)).toOption.map (·.ranks) := by
  decide +kernel

end FP.Props
