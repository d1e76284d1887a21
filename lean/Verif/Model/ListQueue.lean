import Verif.Model.Heap
/-!
# A concrete node queue

`priority_queue::PriorityQueue<NodeId, Reverse<Weight>>` (fast_graph_builder.rs:88) is an external crate; the theorems
hold for every `NodeQueue`. This instance keeps the (key, priority) pairs in a list and pops a pair of least priority,
which is what the crate documents. It serves to evaluate examples.
-/
namespace FP
namespace ListQueue

/-- Remove and return a pair of least priority (the first one). -/
def popMin : List (Nat × Nat) → Option ((Nat × Nat) × List (Nat × Nat))
  | [] => none
  | x :: xs =>
    match popMin xs with
    | none => some (x, [])
    | some (m, r) => if x.2 ≤ m.2 then some (x, xs) else some (m, x :: r)

theorem popMin_none : ∀ {l : List (Nat × Nat)}, popMin l = none ↔ l = []
  | [] => by simp [popMin]
  | x :: xs => by
    unfold popMin
    constructor
    · intro h
      split at h
      · cases h
      · split at h <;> cases h
    · intro h; cases h

theorem popMin_some : ∀ {l : List (Nat × Nat)} {m : Nat × Nat} {r : List (Nat × Nat)}, popMin l = some (m, r) →
    l.Perm (m :: r)
  | [], _, _, h => by cases h
  | x :: xs, m, r, h => by
    unfold popMin at h
    split at h
    · next h' =>
      cases h
      rw [popMin_none.1 h']
    · next m' r' h' =>
      split at h
      · cases h; exact .refl _
      · cases h
        exact ((popMin_some h').cons x).trans (List.Perm.swap m x r')

theorem popMin_least : ∀ {l : List (Nat × Nat)} {m : Nat × Nat} {r : List (Nat × Nat)}, popMin l = some (m, r) →
    ∀ y ∈ l, m.2 ≤ y.2
  | [], _, _, h => by cases h
  | x :: xs, m, r, h => by
    unfold popMin at h
    intro y hy
    split at h
    · next h' =>
      cases h
      rw [popMin_none.1 h'] at hy
      simp at hy
      rw [hy]; exact Nat.le_refl _
    · next m' r' h' =>
      have ih := popMin_least h'
      split at h
      · next hc =>
        cases h
        rcases List.mem_cons.1 hy with rfl | hy
        · exact Nat.le_refl _
        · exact Nat.le_trans hc (ih y hy)
      · next hc =>
        cases h
        rcases List.mem_cons.1 hy with rfl | hy
        · omega
        · exact ih y hy

end ListQueue

/-- The list queue. -/
def listQueue : NodeQueue where
  σ := List (Nat × Nat)
  empty := []
  push k p q := (k, p) :: q.filter (fun x => x.1 != k)
  pop q := (ListQueue.popMin q).map (fun r => (r.1.1, r.2))
  change k p q := q.map (fun x => if x.1 == k then (k, p) else x)
  keys q := q.map Prod.fst
  keys_empty := rfl
  keys_push k p q h := by
    have : q.filter (fun x => x.1 != k) = q := by
      rw [List.filter_eq_self]
      rintro ⟨a, b⟩ hab
      have : a ≠ k := by rintro rfl; exact h (List.mem_map.2 ⟨_, hab, rfl⟩)
      simpa using this
    rw [this]
    exact .refl _
  pop_none q := by
    rw [Option.map_eq_none_iff, ListQueue.popMin_none]
    simp
  pop_some q k q' h := by
    rw [Option.map_eq_some_iff] at h
    obtain ⟨⟨m, r⟩, h1, h2⟩ := h
    cases h2
    exact (ListQueue.popMin_some h1).map Prod.fst
  keys_change k p q := by
    have : (q.map (fun x => if x.1 == k then (k, p) else x)).map Prod.fst = q.map Prod.fst := by
      rw [List.map_map]
      apply List.map_congr_left
      rintro ⟨a, b⟩ _
      simp only [Function.comp]
      by_cases hk : a = k
      · subst hk; simp
      · rw [if_neg (by simpa using hk)]
    rw [this]

end FP
