import Verif.Proofs.PriorityQueue
set_option autoImplicit false
/-! # The queue only compares priorities: helper lemmas for C131 -/
namespace FP
namespace PrioQueue
open BinHeap

/-- The two arrays hold the same nodes at the same places, and their priorities correspond. -/
def ItemsRel (T : Nat → Nat → Prop) (l l' : List HeapItem) : Prop :=
  List.Forall₂ (fun x y => x.nodeId = y.nodeId ∧ T x.weight y.weight) l l'

variable {T : Nat → Nat → Prop} {l l' : List HeapItem}

theorem ItemsRel.get (h : ItemsRel T l l') (i : Nat) :
    (l[i]? = none ∧ l'[i]? = none) ∨ ∃ x y, l[i]? = some x ∧ l'[i]? = some y ∧ x.nodeId = y.nodeId ∧ T x.weight y.weight := by
  unfold ItemsRel at h
  induction h generalizing i with
  | nil => exact .inl ⟨rfl, rfl⟩
  | cons h _ ih =>
    cases i with
    | zero => exact .inr ⟨_, _, rfl, rfl, h⟩
    | succ i => simpa using ih i

theorem ItemsRel.length (h : ItemsRel T l l') : l'.length = l.length := (List.Forall₂.length_eq h).symm

theorem ItemsRel.set (h : ItemsRel T l l') (i : Nat) {x y : HeapItem} (hx : x.nodeId = y.nodeId) (ht : T x.weight y.weight) :
    ItemsRel T (l.set i x) (l'.set i y) := by
  unfold ItemsRel at h ⊢
  induction h generalizing i with
  | nil => exact .nil
  | cons h hs ih =>
    cases i with
    | zero => exact .cons ⟨hx, ht⟩ hs
    | succ i => exact .cons h (ih i)

theorem ItemsRel.swap (h : ItemsRel T l l') (i j : Nat) : ItemsRel T (swap l i j) (swap l' i j) := by
  unfold BinHeap.swap
  rcases h.get i with ⟨a, b⟩ | ⟨x, y, a, b, c, d⟩
  · rw [a, b]; exact h
  · rcases h.get j with ⟨a', b'⟩ | ⟨x', y', a', b', c', d'⟩
    · rw [a, b, a', b']; exact h
    · rw [a, b, a', b']
      exact (h.set i c' d').set j c d

/-- Corresponding priorities compare alike. -/
def Alike (T : Nat → Nat → Prop) : Prop := ∀ p q p' q', T p p' → T q q' → (p ≤ q ↔ p' ≤ q')

variable (hT : Alike T)
include hT

theorem ItemsRel.leAt (h : ItemsRel T l l') (i j : Nat) : leAt l' i j = leAt l i j := by
  unfold BinHeap.leAt
  rcases h.get i with ⟨a, b⟩ | ⟨x, y, a, b, c, d⟩
  · rw [a, b]
  · rcases h.get j with ⟨a', b'⟩ | ⟨x', y', a', b', c', d'⟩
    · rw [a, b, a', b']
    · rw [a, b, a', b']
      have := hT _ _ _ _ d' d
      simp only
      rw [Bool.eq_iff_iff, le_iff, le_iff]
      exact this.symm

theorem ItemsRel.bubbleUp : ∀ (fuel : Nat) (l l' : List HeapItem) (pos : Nat), ItemsRel T l l' →
    ItemsRel T (bubbleUp fuel l pos).1 (bubbleUp fuel l' pos).1 ∧ (bubbleUp fuel l' pos).2 = (bubbleUp fuel l pos).2
  | 0, _, _, _, h => ⟨h, rfl⟩
  | fuel + 1, l, l', pos, h => by
    unfold PrioQueue.bubbleUp
    rw [h.leAt hT]
    split
    · exact ⟨h, rfl⟩
    · split
      · exact ⟨h, rfl⟩
      · exact ItemsRel.bubbleUp fuel _ _ _ (h.swap _ _)

theorem ItemsRel.largest (h : ItemsRel T l l') (i : Nat) : largest l' i = largest l i := by
  unfold PrioQueue.largest
  simp only [h.length, h.leAt hT]

theorem ItemsRel.heapify : ∀ (fuel : Nat) (l l' : List HeapItem) (i : Nat), ItemsRel T l l' →
    ItemsRel T (heapify fuel l i) (heapify fuel l' i)
  | 0, _, _, _, h => h
  | fuel + 1, l, l', i, h => by
    unfold PrioQueue.heapify
    rw [h.largest hT]
    split
    · exact h
    · exact ItemsRel.heapify fuel _ _ _ (h.swap _ _)

theorem ItemsRel.upHeapify (h : ItemsRel T l l') (i : Nat) : ItemsRel T (upHeapify l i) (upHeapify l' i) := by
  unfold PrioQueue.upHeapify
  obtain ⟨h1, h2⟩ := ItemsRel.bubbleUp hT (i + 1) l l' i h
  simp only [h2]
  have h3 : ItemsRel T (if i ≠ (PrioQueue.bubbleUp (i + 1) l i).2 then
        PrioQueue.heapify (PrioQueue.bubbleUp (i + 1) l i).1.length (PrioQueue.bubbleUp (i + 1) l i).1 i
        else (PrioQueue.bubbleUp (i + 1) l i).1)
      (if i ≠ (PrioQueue.bubbleUp (i + 1) l i).2 then
        PrioQueue.heapify (PrioQueue.bubbleUp (i + 1) l' i).1.length (PrioQueue.bubbleUp (i + 1) l' i).1 i
        else (PrioQueue.bubbleUp (i + 1) l' i).1) := by
    split
    · rw [h1.length]; exact ItemsRel.heapify hT _ _ _ _ h1
    · exact h1
  rw [h3.length]
  exact ItemsRel.heapify hT _ _ _ _ h3

omit hT in
theorem ItemsRel.findIdx (h : ItemsRel T l l') (k : Nat) :
    l'.findIdx? (fun x => x.nodeId == k) = l.findIdx? (fun x => x.nodeId == k) := by
  unfold ItemsRel at h
  induction h with
  | nil => rfl
  | cons h _ ih => rw [List.findIdx?_cons, List.findIdx?_cons, h.1, ih]

theorem ItemsRel.change (h : ItemsRel T l l') (k : Nat) {p p' : Nat} (hp : T p p') : ItemsRel T (change k p l) (change k p' l') := by
  unfold PrioQueue.change
  rw [h.findIdx]
  split
  · exact h
  · exact (h.set _ (by rfl) hp).upHeapify hT _

theorem ItemsRel.push (h : ItemsRel T l l') (k : Nat) {p p' : Nat} (hp : T p p') : ItemsRel T (push k p l) (push k p' l') := by
  unfold PrioQueue.push
  rw [h.findIdx, h.length]
  split
  · exact (h.set _ (by rfl) hp).upHeapify hT _
  · exact (ItemsRel.bubbleUp hT _ _ _ _ (List.rel_append h (.cons (a := ⟨p, k⟩) (b := ⟨p', k⟩) ⟨rfl, hp⟩ .nil))).1

theorem ItemsRel.pop (h : ItemsRel T l l') : (pop l = none ∧ pop l' = none) ∨
    ∃ k r r', pop l = some (k, r) ∧ pop l' = some (k, r') ∧ ItemsRel T r r' := by
  cases h with
  | nil => exact .inl ⟨rfl, rfl⟩
  | @cons x y xs ys h hs =>
    right
    have hs : ItemsRel T xs ys := hs
    unfold PrioQueue.pop
    simp only [List.getLast?_eq_getElem?, hs.length]
    rcases hs.get (xs.length - 1) with ⟨a, b⟩ | ⟨u, v, a, b, c, d⟩
    · rw [a, b]
      exact ⟨x.nodeId, [], [], rfl, by rw [h.1], .nil⟩
    · rw [a, b]
      refine ⟨x.nodeId, _, _, rfl, by rw [h.1], ?_⟩
      refine ItemsRel.heapify hT _ _ _ _ (.cons ⟨c, d⟩ ?_)
      rw [List.dropLast_eq_take, List.dropLast_eq_take, hs.length]
      exact List.forall₂_take _ hs

end PrioQueue
end FP
