import Verif.Proofs.Comparisons
import Verif.Proofs.BinaryHeap
set_option autoImplicit false
/-! # The heap of the searches only compares weights: helper lemmas for C133 -/
namespace FP
namespace BinHeap
open PrioQueue (ItemsRel Alike)

variable {T : Nat → Nat → Prop} (hT : Alike T)
include hT

theorem rel_siftUp : ∀ (fuel : Nat) (l l' : List HeapItem) (pos : Nat), ItemsRel T l l' → ItemsRel T (siftUp fuel l pos) (siftUp fuel l' pos)
  | 0, _, _, _, h => h
  | fuel + 1, l, l', pos, h => by
    unfold siftUp
    rw [h.leAt hT]
    split
    · exact h
    · split
      · exact h
      · exact rel_siftUp fuel _ _ _ (h.swap _ _)

theorem rel_siftDown : ∀ (fuel : Nat) (l l' : List HeapItem) (pos : Nat), ItemsRel T l l' →
    ItemsRel T (siftDown fuel l pos).1 (siftDown fuel l' pos).1 ∧ (siftDown fuel l' pos).2 = (siftDown fuel l pos).2
  | 0, _, _, _, h => ⟨h, rfl⟩
  | fuel + 1, l, l', pos, h => by
    unfold siftDown
    rw [h.leAt hT, h.length]
    split
    · exact rel_siftDown fuel _ _ _ (h.swap _ _)
    · split
      · exact ⟨h.swap _ _, rfl⟩
      · exact ⟨h, rfl⟩

theorem rel_push {l l' : List HeapItem} (h : ItemsRel T l l') {x y : HeapItem} (hn : x.nodeId = y.nodeId) (hw : T x.weight y.weight) :
    ItemsRel T (push x l) (push y l') := by
  unfold push
  rw [h.length]
  exact rel_siftUp hT _ _ _ _ (List.rel_append h (.cons ⟨hn, hw⟩ .nil))

theorem rel_pop {l l' : List HeapItem} (h : ItemsRel T l l') : (pop l = none ∧ pop l' = none) ∨
    ∃ x y r r', pop l = some (x, r) ∧ pop l' = some (y, r') ∧ x.nodeId = y.nodeId ∧ T x.weight y.weight ∧ ItemsRel T r r' := by
  unfold pop
  rw [List.getLast?_eq_getElem?, List.getLast?_eq_getElem?, h.length]
  rcases h.get (l.length - 1) with ⟨a, b⟩ | ⟨u, v, a, b, c, d⟩
  · rw [a, b]; exact .inl ⟨rfl, rfl⟩
  · rw [a, b]
    right
    have hd : ItemsRel T l.dropLast l'.dropLast := by
      rw [List.dropLast_eq_take, List.dropLast_eq_take, h.length]
      exact List.forall₂_take _ h
    simp only
    revert hd
    generalize l.dropLast = m
    generalize l'.dropLast = m'
    intro hd
    cases hd with
    | nil => exact ⟨u, v, [], [], rfl, rfl, c, d, .nil⟩
    | @cons x y xs ys e es =>
      have hl : ys.length = xs.length := (List.Forall₂.length_eq es).symm
      have hs := rel_siftDown hT (xs.length + 2) (u :: xs) (v :: ys) 0 (.cons ⟨c, d⟩ es)
      simp only [hl, hs.2]
      exact ⟨x, y, _, _, rfl, rfl, e.1, e.2, rel_siftUp hT _ _ _ _ hs.1⟩

end BinHeap

theorem binaryHeap_pop_eq {q q' : binaryHeap.σ} {x : HeapItem} (h : binaryHeap.pop q = some (x, q')) :
    BinHeap.pop q.1 = some (x, q'.1) := by
  simp only [binaryHeap] at h
  split at h
  · cases h
  · next h' => cases h; exact h'

/-- Two runs of a heap with corresponding weights hand out the same nodes. -/
structure SameHeaps (pq : PQ) (T : Nat → Nat → Prop) (S : pq.σ → pq.σ → Prop) : Prop where
  empty : S pq.empty pq.empty
  push : ∀ q q' n w w', S q q' → T w w' → S (pq.push ⟨w, n⟩ q) (pq.push ⟨w', n⟩ q')
  pop : ∀ q q', S q q' → (pq.pop q = none ∧ pq.pop q' = none) ∨
    ∃ n w w' r r', pq.pop q = some (⟨w, n⟩, r) ∧ pq.pop q' = some (⟨w', n⟩, r') ∧ T w w' ∧ S r r'
  items : ∀ q q', S q q' → (pq.items q').length = (pq.items q).length

theorem binaryHeap_same {T : Nat → Nat → Prop} (hT : PrioQueue.Alike T) :
    SameHeaps binaryHeap T (fun q q' => PrioQueue.ItemsRel T q.1 q'.1) where
  empty := .nil
  push q q' n w w' h hw := BinHeap.rel_push hT h rfl hw
  items q q' h := h.length
  pop q q' h := by
    have of : ∀ {q : binaryHeap.σ} {r : Option (HeapItem × List HeapItem)}, BinHeap.pop q.1 = r →
        (r = none → binaryHeap.pop q = none) ∧ ∀ k l, r = some (k, l) → ∃ q', binaryHeap.pop q = some (k, q') ∧ q'.1 = l := by
      intro q r hr
      cases hp : binaryHeap.pop q with
      | none =>
        have : q.1 = [] := (binaryHeap.pop_none q).1 hp
        rw [this] at hr
        subst hr
        exact ⟨fun _ => rfl, fun k l e => by cases e⟩
      | some x =>
        obtain ⟨k, q'⟩ := x
        rw [binaryHeap_pop_eq hp] at hr
        subst hr
        exact ⟨fun e => by (cases e), fun k l e => by cases e; exact ⟨q', rfl, rfl⟩⟩
    rcases BinHeap.rel_pop hT h with ⟨h1, h2⟩ | ⟨x, y, r, r', h1, h2, h3, h4, h5⟩
    · exact .inl ⟨(of h1).1 rfl, (of h2).1 rfl⟩
    · obtain ⟨s, a1, rfl⟩ := (of h1).2 _ _ rfl
      obtain ⟨s', b1, rfl⟩ := (of h2).2 _ _ rfl
      obtain ⟨w, n⟩ := x
      obtain ⟨w', n'⟩ := y
      simp only at h3
      subst h3
      exact .inr ⟨n, w, w', s, s', a1, b1, h4, h5⟩

end FP
