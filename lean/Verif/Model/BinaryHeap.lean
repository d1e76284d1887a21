import Verif.Model.Heap
/-!
# `std::collections::BinaryHeap<HeapItem>`

The standard library's array heap (alloc/src/collections/binary_heap/mod.rs), used by witness_search.rs:32 and
path_calculator.rs:38-39 with the order of heap_item.rs:37-47. The standard library is not part of /repo; this is its
published algorithm: `push` appends and sifts up, `pop` moves the last item to the root, sifts it down to the bottom
along the greater children and then up. `Hole::move_to` is modelled as a swap (the element in the hole is logically
stored at the hole's position).
-/
namespace FP
namespace BinHeap

/-- `a <= b` on `HeapItem` (heap_item.rs:37-47): `cmp` does not return `Greater`. -/
def le (a b : HeapItem) : Bool := HeapItem.cmp a b != .gt

/-- `Hole::move_to` seen as exchange of two slots -/
def swap (l : List HeapItem) (i j : Nat) : List HeapItem :=
  match l[i]?, l[j]? with
  | some a, some b => (l.set i b).set j a
  | _, _ => l

/-- `get(i) <= get(j)`; false outside the array (never evaluated there) -/
def leAt (l : List HeapItem) (i j : Nat) : Bool :=
  match l[i]?, l[j]? with
  | some a, some b => le a b
  | _, _ => false

/-- `BinaryHeap::sift_up(0, pos)`; the first argument bounds the loop, `pos` halves each time. -/
def siftUp : Nat → List HeapItem → Nat → List HeapItem
  | 0, l, _ => l
  | fuel + 1, l, pos =>
    if pos = 0 then l
    else if leAt l pos ((pos - 1) / 2) then l
    else siftUp fuel (swap l pos ((pos - 1) / 2)) ((pos - 1) / 2)

/-- The loop of `BinaryHeap::sift_down_to_bottom(0)`: returns the array and the final position of the hole. -/
def siftDown : Nat → List HeapItem → Nat → List HeapItem × Nat
  | 0, l, pos => (l, pos)
  | fuel + 1, l, pos =>
    if 2 * pos + 2 < l.length then
      let child := if leAt l (2 * pos + 1) (2 * pos + 2) then 2 * pos + 2 else 2 * pos + 1
      siftDown fuel (swap l pos child) child
    else if 2 * pos + 1 < l.length then (swap l pos (2 * pos + 1), 2 * pos + 1)
    else (l, pos)

/-- `BinaryHeap::push` -/
def push (x : HeapItem) (l : List HeapItem) : List HeapItem :=
  siftUp (l.length + 1) (l ++ [x]) l.length

/-- `BinaryHeap::pop` -/
def pop (l : List HeapItem) : Option (HeapItem × List HeapItem) :=
  match l.getLast? with
  | none => none
  | some item =>
    match l.dropLast with
    | [] => some (item, [])
    | root :: rest =>
      let r := siftDown (rest.length + 2) (item :: rest) 0
      some (root, siftUp (r.2 + 1) r.1 r.2)

/-- `BinaryHeap::peek` -/
def peek (l : List HeapItem) : Option HeapItem := l.head?

/-- Every item is at least as heavy as its parent. -/
def IsHeap (l : List HeapItem) : Prop :=
  ∀ (i : Nat) (a b : HeapItem), 0 < i → l[i]? = some a → l[(i - 1) / 2]? = some b → b.weight ≤ a.weight

end BinHeap
end FP
