import Verif.Model.Base
/-! # Model of src/heap_item.rs and of the priority queues the code relies on -/
namespace FP

/-- heap_item.rs:26-29 `struct HeapItem` -/
structure HeapItem where
  weight : Nat
  nodeId : Nat
  deriving DecidableEq, Repr

/-- heap_item.rs:43-47 `impl Ord for HeapItem` (`PartialOrd`, 37-41, delegates to it). The order is reversed, so the
maximum is the item of least weight. -/
def HeapItem.cmp (self other : HeapItem) : Ordering :=
  (compare self.weight other.weight).swap

/-- `std::collections::BinaryHeap<HeapItem>` as far as the code relies on it: a max-heap with respect to
`HeapItem::cmp`. `pop` may return any maximal item, so every theorem about a `PQ` holds for whatever tie-breaking the
standard library implements. `peek` (used once, witness_search.rs:117) returns the item that `pop` would return.
Instance: the array heap `binaryHeap` of `Verif.Proofs.BinaryHeap` (algorithm in `Verif.Model.BinaryHeap`). -/
structure PQ where
  σ : Type
  empty : σ
  push : HeapItem → σ → σ
  pop : σ → Option (HeapItem × σ)
  items : σ → List HeapItem
  items_empty : items empty = []
  items_push : ∀ x q, (items (push x q)).Perm (x :: items q)
  pop_none : ∀ q, pop q = none ↔ items q = []
  pop_some : ∀ q x q', pop q = some (x, q') →
    (items q).Perm (x :: items q') ∧ ∀ y ∈ items q, HeapItem.cmp y x ≠ .gt

/-- `BinaryHeap::is_empty` -/
def PQ.isEmpty (pq : PQ) (q : pq.σ) : Bool := (pq.pop q).isNone

/-- `priority_queue::PriorityQueue<NodeId, Reverse<Weight>>` as far as the code relies on it: a set of keys from which
`pop` removes one. That the popped key has least priority is not needed for any theorem, so it is not assumed. -/
structure NodeQueue where
  σ : Type
  empty : σ
  push : Nat → Nat → σ → σ
  pop : σ → Option (Nat × σ)
  change : Nat → Nat → σ → σ
  keys : σ → List Nat
  keys_empty : keys empty = []
  keys_push : ∀ k p q, k ∉ keys q → (keys (push k p q)).Perm (k :: keys q)
  pop_none : ∀ q, pop q = none ↔ keys q = []
  pop_some : ∀ q k q', pop q = some (k, q') → (keys q).Perm (k :: keys q')
  keys_change : ∀ k p q, (keys (change k p q)).Perm (keys q)

/-- `PriorityQueue::is_empty` -/
def NodeQueue.isEmpty (nq : NodeQueue) (q : nq.σ) : Bool := (nq.pop q).isNone

end FP
