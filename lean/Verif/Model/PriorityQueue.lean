import Verif.Model.BinaryHeap
/-!
# `priority_queue::PriorityQueue<NodeId, Reverse<Weight>>`

The crate `priority-queue` 2.0.2 (Cargo.toml:22), used by fast_graph_builder.rs:88-149. It is not part of /repo; this is its
published algorithm. The crate keeps an index map from keys to priorities, an array heap of indices into that map and the inverse of this
array. Here the heap holds the pairs of key and priority themselves (`HeapItem`s: the order of heap_item.rs is the one of
`Reverse<Weight>`), and the inverse array is a search for the key.
-/
namespace FP
namespace PrioQueue
open BinHeap

/-- `PriorityQueue::bubble_up`: returns the array and the final position; the first argument bounds the loop. -/
def bubbleUp : Nat → List HeapItem → Nat → List HeapItem × Nat
  | 0, l, pos => (l, pos)
  | fuel + 1, l, pos =>
    if pos = 0 then (l, pos)
    else if leAt l pos ((pos - 1) / 2) then (l, pos)
    else bubbleUp fuel (swap l pos ((pos - 1) / 2)) ((pos - 1) / 2)

/-- The position of the largest priority among `i` and its children; the node itself wins ties, then the left child. -/
def largest (l : List HeapItem) (i : Nat) : Nat :=
  if 2 * i + 1 < l.length then
    let m := if leAt l (2 * i + 1) i then i else 2 * i + 1
    if 2 * i + 2 < l.length && !leAt l (2 * i + 2) m then 2 * i + 2 else m
  else i

/-- `PriorityQueue::heapify`; the first argument bounds the loop, the position grows each time. -/
def heapify : Nat → List HeapItem → Nat → List HeapItem
  | 0, l, _ => l
  | fuel + 1, l, i => if largest l i = i then l else heapify fuel (swap l i (largest l i)) (largest l i)

/-- `PriorityQueue::up_heapify` -/
def upHeapify (l : List HeapItem) (i : Nat) : List HeapItem :=
  let r := bubbleUp (i + 1) l i
  let l := if i ≠ r.2 then heapify r.1.length r.1 i else r.1
  heapify l.length l r.2

/-- `PriorityQueue::change_priority`; a key that is not there is ignored -/
def change (key priority : Nat) (l : List HeapItem) : List HeapItem :=
  match l.findIdx? (fun x => x.nodeId == key) with
  | none => l
  | some i => upHeapify (l.set i ⟨priority, key⟩) i

/-- `PriorityQueue::push`; a key that is there gets the new priority -/
def push (key priority : Nat) (l : List HeapItem) : List HeapItem :=
  match l.findIdx? (fun x => x.nodeId == key) with
  | some i => upHeapify (l.set i ⟨priority, key⟩) i
  | none => (bubbleUp (l.length + 1) (l ++ [⟨priority, key⟩]) l.length).1

/-- `PriorityQueue::pop`: the last item takes the place of the first one (`swap_remove`) and sinks -/
def pop (l : List HeapItem) : Option (Nat × List HeapItem) :=
  match l with
  | [] => none
  | root :: rest =>
    match rest.getLast? with
    | none => some (root.nodeId, [])
    | some last => some (root.nodeId, heapify rest.length (last :: rest.dropLast) 0)

end PrioQueue
end FP
