import Verif.Proofs.ValidFlags
import Verif.Proofs.BinaryHeap
import Verif.Proofs.PriorityQueue
/-!
# Data structures

The visited marks (`ValidFlags`) as a set and the heap as a priority queue.
-/
set_option autoImplicit false
namespace FP
namespace Props

/-- Calls on `ValidFlags`. -/
inductive FlagOp where
  | set (node : Nat)
  | test (node : Nat)
  | reset

/-- The node a call needs. -/
def FlagOp.below (n : Nat) : FlagOp → Prop
  | .set i => i < n
  | .test i => i < n
  | .reset => True

/-- Run the calls, collecting the answers of the tests. -/
def runFlags (f : ValidFlags) : List FlagOp → M (List Bool)
  | [] => .ok []
  | .set i :: r => do
    let f ← f.setValid i
    runFlags f r
  | .test i :: r => do
    let a ← f.isValid i
    let rest ← runFlags f r
    .ok (a :: rest)
  | .reset :: r => runFlags f.invalidateAll r

/-- The same calls on a mathematical set of nodes. -/
def runSet (s : Nat → Bool) : List FlagOp → List Bool
  | [] => []
  | .set i :: r => runSet (fun j => j == i || s j) r
  | .test i :: r => s i :: runSet s r
  | .reset :: r => runSet (fun _ => false) r

/-- The flags answer like the set they stand for. -/
theorem flags_refine_set {n : Nat} (ops : List FlagOp) : ∀ {f : ValidFlags}, f.Ok n → (∀ op ∈ ops, op.below n) →
    ∀ s : Nat → Bool, (∀ i < n, s i = decide (f.has i)) → runFlags f ops = .ok (runSet s ops) := by
  induction ops with
  | nil => intro f _ _ s _; rfl
  | cons op ops ih =>
    intro f hf hop s hs
    have hop' : ∀ op ∈ ops, op.below n := fun o ho => hop o (List.mem_cons_of_mem _ ho)
    have h0 := hop op List.mem_cons_self
    cases op with
    | set i =>
      obtain ⟨f', h1, h2, h3⟩ := ValidFlags.setValid_ok hf (i := i) h0
      simp only [runFlags, runSet]
      rw [h1]
      simp only [bind_okM]
      refine ih h2 hop' _ ?_
      intro j hj
      rw [hs j hj]
      by_cases hji : j = i <;> simp [h3, hji]
    | test i =>
      simp only [runFlags, runSet]
      rw [ValidFlags.isValid_ok hf (i := i) h0]
      simp only [bind_okM]
      rw [ih hf hop' s hs]
      simp only [bind_okM]
      rw [hs i h0]
    | reset =>
      simp only [runFlags, runSet]
      obtain ⟨h1, h2⟩ := ValidFlags.invalidateAll_ok hf
      refine ih h1 hop' _ ?_
      intro j _
      simp [h2 j]

/-- **C34** For every number of nodes and every sequence of calls with nodes in range, of any length, the marks behave
like a set that `invalidate_all` empties. -/
theorem C34_flags_are_a_set (n : Nat) (ops : List FlagOp) (h : ∀ op ∈ ops, op.below n) :
    runFlags (ValidFlags.new n) ops = .ok (runSet (fun _ => false) ops) :=
  flags_refine_set ops (ValidFlags.Ok.new n) h _ (fun i _ => by simp [ValidFlags.not_has_new])

example : runFlags (ValidFlags.new 3) [.set 2, .test 2, .test 1, .reset, .test 2, .set 1, .test 1] =
    .ok [true, false, false, true] := C34_flags_are_a_set 3 _ (by simp [FlagOp.below])

/-- `k` resets -/
def resets (f : ValidFlags) : Nat → ValidFlags
  | 0 => f
  | k + 1 => (resets f k).invalidateAll

/-- After `k` resets of an otherwise unused instance the counter is `1 + k` modulo `2 ^ 32 - 1`, so it wraps. -/
theorem C34_counter_wraps (n k : Nat) :
    (resets (ValidFlags.new n) k).validFlag = k % U32_MAX + 1 := by
  induction k with
  | zero => simp [resets, ValidFlags.new]
  | succ k ih =>
    rw [resets]
    unfold ValidFlags.invalidateAll
    have hlt : k % U32_MAX < U32_MAX := Nat.mod_lt _ (by decide)
    by_cases h : k % U32_MAX + 1 = U32_MAX
    · rw [if_pos (by rw [ih]; simpa using h)]
      simp only
      have : (k + 1) % U32_MAX = 0 := by
        rw [Nat.add_mod, Nat.mod_eq_of_lt (show 1 < U32_MAX by decide), h, Nat.mod_self]
      omega
    · rw [if_neg (by rw [ih]; simpa using h)]
      simp only
      rw [ih, Nat.add_mod, Nat.mod_eq_of_lt (show 1 < U32_MAX by decide), Nat.mod_eq_of_lt (show k % U32_MAX + 1 < U32_MAX by omega)]

/-- The step at which the counter wraps: all marks are cleared although one has the largest possible mark. -/
example : (ValidFlags.mk [U32_MAX, 7, 1] U32_MAX).invalidateAll = ⟨[0, 0, 0], 1⟩ := rfl

/-- States of the heap a client can reach from the empty heap. -/
inductive HeapState : List HeapItem → Prop where
  | empty : HeapState []
  | push {l : List HeapItem} (x : HeapItem) (h : HeapState l) : HeapState (BinHeap.push x l)
  | pop {l l' : List HeapItem} {x : HeapItem} (h : HeapState l) (hp : BinHeap.pop l = some (x, l')) : HeapState l'

theorem HeapState.isHeap {l : List HeapItem} (h : HeapState l) : BinHeap.IsHeap l := by
  induction h with
  | empty => intro i a b _ ha; simp at ha
  | push x _ ih => exact (BinHeap.push_spec ih x).2
  | pop _ hp ih => exact (BinHeap.pop_spec ih hp).2.1

/-- **C48** After any sequence of pushes and pops the binary heap keeps exactly its items: `push` adds one, `pop` removes
one, which has minimal weight and is the one `peek` shows; `pop` gives `None` iff there are no items. -/
theorem C48_binary_heap_contract {l : List HeapItem} (h : HeapState l) :
    (∀ x, (BinHeap.push x l).Perm (x :: l)) ∧ (BinHeap.pop l = none ↔ l = []) ∧
    ∀ x l', BinHeap.pop l = some (x, l') → l.Perm (x :: l') ∧ BinHeap.peek l = some x ∧ ∀ y ∈ l, x.weight ≤ y.weight := by
  have hh := h.isHeap
  refine ⟨fun x => (BinHeap.push_spec hh x).1, BinHeap.pop_none, ?_⟩
  intro x l' hp
  obtain ⟨h1, _, h3, h4⟩ := BinHeap.pop_spec hh hp
  exact ⟨h1, h3, h4⟩

example : HeapState (BinHeap.push ⟨1, 7⟩ (BinHeap.push ⟨9, 2⟩ (BinHeap.push ⟨4, 5⟩ []))) ∧
    (BinHeap.pop (BinHeap.push ⟨1, 7⟩ (BinHeap.push ⟨9, 2⟩ (BinHeap.push ⟨4, 5⟩ [])))).map Prod.fst = some ⟨1, 7⟩ :=
  ⟨.push _ (.push _ (.push _ .empty)), rfl⟩

/-- Any sequence of calls on the queue of `run_contraction` (fast_graph_builder.rs:88-149), starting with `PriorityQueue::new()`, next to
the map from nodes to priorities it stands for. -/
inductive QueueRun : List HeapItem → (Nat → Option Nat) → Prop where
  | empty : QueueRun [] (fun _ => none)
  | push {l : List HeapItem} {m : Nat → Option Nat} (k p : Nat) (h : QueueRun l m) :
      QueueRun (PrioQueue.push k p l) (fun x => if x = k then some p else m x)
  | change {l : List HeapItem} {m : Nat → Option Nat} (k p : Nat) (h : QueueRun l m) :
      QueueRun (PrioQueue.change k p l) (fun x => if x = k ∧ m k ≠ none then some p else m x)
  | pop {l l' : List HeapItem} {m : Nat → Option Nat} {k : Nat} (h : QueueRun l m) (hp : PrioQueue.pop l = some (k, l')) :
      QueueRun l' (fun x => if x = k then none else m x)

theorem QueueRun.good {l : List HeapItem} {m : Nat → Option Nat} (h : QueueRun l m) :
    PrioQueue.Good l ∧ ∀ k p, m k = some p ↔ k ∈ PrioQueue.keys l ∧ PrioQueue.prio l k = p := by
  have hchange : ∀ {l : List HeapItem} {m : Nat → Option Nat} (k p : Nat), PrioQueue.Good l →
      (∀ k p, m k = some p ↔ k ∈ PrioQueue.keys l ∧ PrioQueue.prio l k = p) → k ∈ PrioQueue.keys l → ∀ k' p',
      (if k' = k then some p else m k') = some p' ↔
        k' ∈ PrioQueue.keys (PrioQueue.change k p l) ∧ PrioQueue.prio (PrioQueue.change k p l) k' = p' := by
    intro l m k p hg hm hk k' p'
    rw [(PrioQueue.change_spec hg.1 k p).2.mem_iff]
    by_cases e : k' = k
    · subst e
      rw [if_pos rfl, PrioQueue.change_prio hg hk hk, if_pos rfl]
      simp [hk]
    · rw [if_neg e, hm]
      constructor
      · rintro ⟨h1, h2⟩
        refine ⟨h1, ?_⟩
        rw [PrioQueue.change_prio hg hk h1, if_neg e]; exact h2
      · rintro ⟨h1, h2⟩
        refine ⟨h1, ?_⟩
        rw [PrioQueue.change_prio hg hk h1, if_neg e] at h2; exact h2
  induction h with
  | empty => exact ⟨.empty, by intro k p; simp [PrioQueue.keys]⟩
  | @push l m k p _ ih =>
    obtain ⟨hg, hm⟩ := ih
    refine ⟨hg.push k p, fun k' p' => ?_⟩
    beta_reduce
    by_cases hk : k ∈ PrioQueue.keys l
    · rw [PrioQueue.push_old p hk]
      exact hchange k p hg hm hk k' p'
    · have hmem : k' ∈ PrioQueue.keys (PrioQueue.push k p l) ↔ k' = k ∨ k' ∈ PrioQueue.keys l := by
        unfold PrioQueue.keys
        rw [((PrioQueue.push_new hg.1 p hk).1.map HeapItem.nodeId).mem_iff]
        exact List.mem_cons
      rw [hmem]
      by_cases e : k' = k
      · rw [if_pos e, PrioQueue.push_prio hg hk (Or.inl e), if_pos e]
        simp [e]
      · rw [if_neg e, hm]
        constructor
        · rintro ⟨h1, h2⟩
          exact ⟨Or.inr h1, by rw [PrioQueue.push_prio hg hk (Or.inr h1), if_neg e]; exact h2⟩
        · rintro ⟨h1, h2⟩
          rw [PrioQueue.push_prio hg hk h1, if_neg e] at h2
          exact ⟨h1.resolve_left e, h2⟩
  | @change l m k p _ ih =>
    obtain ⟨hg, hm⟩ := ih
    refine ⟨hg.change k p, fun k' p' => ?_⟩
    beta_reduce
    by_cases hk : k ∈ PrioQueue.keys l
    · have hne : m k ≠ none := by rw [(hm k _).2 ⟨hk, rfl⟩]; simp
      rw [← hchange k p hg hm hk k' p']
      simp [hne]
    · have hnone : m k = none := by
        cases hmk : m k with
        | none => rfl
        | some q => exact absurd ((hm k q).1 hmk).1 hk
      rw [if_neg (by rintro ⟨_, h⟩; exact h hnone), hm]
      unfold PrioQueue.change
      rw [PrioQueue.findIdx_none.2 hk]
  | @pop l l' m k _ hp ih =>
    obtain ⟨hg, hm⟩ := ih
    refine ⟨hg.pop hp, fun k' p' => ?_⟩
    beta_reduce
    have hpr := (PrioQueue.pop_prio hg hp).2
    obtain ⟨x, rfl, h1, _⟩ := PrioQueue.pop_spec hg.1 hp
    have hnd := ((h1.map HeapItem.nodeId).nodup_iff).1 hg.2
    have hmem : k' ∈ PrioQueue.keys l ↔ k' = x.nodeId ∨ k' ∈ PrioQueue.keys l' := by
      unfold PrioQueue.keys
      rw [(h1.map HeapItem.nodeId).mem_iff]
      exact List.mem_cons
    by_cases e : k' = x.nodeId
    · rw [if_pos e]
      have : k' ∉ PrioQueue.keys l' := by rw [e]; exact (List.nodup_cons.1 hnd).1
      simp [this]
    · rw [if_neg e, hm, hmem]
      constructor
      · rintro ⟨h2, h3⟩
        have h2' := h2.resolve_left e
        exact ⟨h2', by rw [hpr k' h2']; exact h3⟩
      · rintro ⟨h2, h3⟩
        exact ⟨Or.inr h2, by rw [← hpr k' h2]; exact h3⟩

/-- **C79** After any sequence of calls the node queue stands for the map a client expects: `pop` gives `None` exactly when the map is empty;
otherwise it removes a node that is in the map and no other node has a smaller priority. -/
theorem C79_node_queue_contract {l : List HeapItem} {m : Nat → Option Nat} (h : QueueRun l m) :
    (PrioQueue.pop l = none ↔ ∀ k, m k = none) ∧
    ∀ k l', PrioQueue.pop l = some (k, l') → ∃ p, m k = some p ∧ ∀ k' p', m k' = some p' → p ≤ p' := by
  obtain ⟨hg, hm⟩ := h.good
  refine ⟨?_, ?_⟩
  · rw [PrioQueue.pop_none]
    constructor
    · rintro rfl k
      cases hmk : m k with
      | none => rfl
      | some p => exact absurd ((hm k p).1 hmk).1 (by simp [PrioQueue.keys])
    · intro hall
      cases l with
      | nil => rfl
      | cons x r =>
        have := (hm x.nodeId _).2 ⟨List.mem_cons_self, rfl⟩
        rw [hall] at this
        cases this
  · intro k l' hp
    obtain ⟨x, hx, h1, _⟩ := PrioQueue.pop_spec hg.1 hp
    have hk : k ∈ PrioQueue.keys l := List.mem_map.2 ⟨x, h1.mem_iff.2 List.mem_cons_self, hx⟩
    refine ⟨_, (hm k _).2 ⟨hk, rfl⟩, ?_⟩
    intro k' p' hk'
    obtain ⟨h2, h3⟩ := (hm k' p').1 hk'
    rw [← h3]
    exact (PrioQueue.pop_prio hg hp).1 k' h2

/-- Three nodes, one of which gets a smaller priority and one of which gets a larger one. -/
example : ∃ m, QueueRun (PrioQueue.change 5 9 (PrioQueue.change 2 1 (PrioQueue.push 7 4 (PrioQueue.push 2 6 (PrioQueue.push 5 3 []))))) m ∧
    m 2 = some 1 ∧ m 5 = some 9 ∧ m 7 = some 4 ∧ m 0 = none :=
  ⟨_, .change 5 9 (.change 2 1 (.push 7 4 (.push 2 6 (.push 5 3 .empty)))), by decide, by decide, by decide, by decide⟩

example : PrioQueue.pop (PrioQueue.change 5 9 (PrioQueue.change 2 1 (PrioQueue.push 7 4 (PrioQueue.push 2 6 (PrioQueue.push 5 3 []))))) =
    some (2, [⟨4, 7⟩, ⟨9, 5⟩]) := by decide

/-- **C79** The crate's queue meets the assumption of the theorems on the order of contraction (C66, C69), which are about any ordered queue (example
at the end of `Props/Order`). -/
theorem C79_node_queue_ordered : Spec.Ordered prioQueue (fun q k => PrioQueue.prio q.1 k) := prioQueue_ordered

end Props
end FP
