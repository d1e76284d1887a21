import Verif.Model.PriorityQueue
import Verif.Proofs.BinaryHeap
import Verif.SpecPriority
/-! # The queue of the contraction loop is a node queue -/
namespace FP
namespace PrioQueue
open BinHeap

theorem bubbleUp_fst : ∀ (fuel : Nat) (l : List HeapItem) (pos : Nat), (bubbleUp fuel l pos).1 = siftUp fuel l pos
  | 0, _, _ => rfl
  | fuel + 1, l, pos => by
    unfold bubbleUp siftUp
    split
    · rfl
    · split
      · rfl
      · exact bubbleUp_fst fuel _ _

/-- Heap up to the slot `pos`, which may be heavier than its children. -/
structure SinkInv (l : List HeapItem) (pos : Nat) : Prop where
  lt : pos < l.length
  par : ∀ i, 0 < i → i < l.length → (i - 1) / 2 ≠ pos → W l ((i - 1) / 2) ≤ W l i
  gp : 0 < pos → ∀ i, 0 < i → i < l.length → (i - 1) / 2 = pos → W l ((pos - 1) / 2) ≤ W l i

theorem SinkInv.step {l : List HeapItem} {pos c : Nat} (h : SinkInv l pos) (hc : c < l.length) (h0 : 0 < c)
    (hcp : (c - 1) / 2 = pos) (hlt' : W l c < W l pos)
    (hmin : ∀ i, 0 < i → i < l.length → (i - 1) / 2 = pos → W l c ≤ W l i) : SinkInv (swap l pos c) c := by
  have hlt := h.lt
  refine ⟨by rw [swap_length]; exact hc, ?_, ?_⟩
  · intro i hi hl hpc
    rw [swap_length] at hl
    rw [W_swap hlt hc, W_swap hlt hc, if_neg hpc]
    by_cases e1 : (i - 1) / 2 = pos
    · rw [if_pos e1]
      by_cases e2 : i = c
      · rw [if_pos e2]; omega
      · rw [if_neg e2, if_neg (by omega)]
        exact hmin i hi hl e1
    · rw [if_neg e1, if_neg (by rintro rfl; exact e1 hcp)]
      by_cases e2 : i = pos
      · rw [if_pos e2]
        subst e2
        exact h.gp hi c h0 hc hcp
      · rw [if_neg e2]
        exact h.par i hi hl e1
  · intro _ i hi hl hip
    rw [swap_length] at hl
    rw [W_swap hlt hc, W_swap hlt hc, if_neg (by omega), if_pos hcp, if_neg (by omega), if_neg (by omega)]
    have := h.par i hi hl (by omega)
    rw [hip] at this; exact this

theorem largest_spec {l : List HeapItem} {i : Nat} (hi : i < l.length) :
    largest l i < l.length ∧ (largest l i = i ∨ ((largest l i - 1) / 2 = i ∧ 0 < largest l i ∧ W l (largest l i) < W l i)) ∧
      W l (largest l i) ≤ W l i ∧ ∀ j, 0 < j → j < l.length → (j - 1) / 2 = i → W l (largest l i) ≤ W l j := by
  have hch : ∀ j, 0 < j → (j - 1) / 2 = i → j = 2 * i + 1 ∨ j = 2 * i + 2 := by intro j; omega
  unfold largest
  by_cases h1 : 2 * i + 1 < l.length
  · rw [if_pos h1]
    simp only
    obtain ⟨m, hm⟩ : ∃ m, m = if leAt l (2 * i + 1) i = true then i else 2 * i + 1 := ⟨_, rfl⟩
    rw [← hm]
    have hm' : m < l.length ∧ (m = i ∨ (m = 2 * i + 1 ∧ W l m < W l i)) ∧ W l m ≤ W l i ∧ W l m ≤ W l (2 * i + 1) := by
      by_cases hle : leAt l (2 * i + 1) i = true
      · rw [if_pos hle] at hm
        subst hm
        exact ⟨hi, Or.inl rfl, Nat.le_refl _, (leAt_iff h1 hi).1 hle⟩
      · rw [if_neg hle] at hm
        have := mt (leAt_iff h1 hi).2 hle
        subst hm
        exact ⟨h1, Or.inr ⟨rfl, by omega⟩, by omega, Nat.le_refl _⟩
    obtain ⟨a1, a2, a3, a4⟩ := hm'
    by_cases h2 : 2 * i + 2 < l.length
    · by_cases hle : leAt l (2 * i + 2) m = true
      · rw [if_neg (by simp [hle])]
        have := (leAt_iff h2 a1).1 hle
        refine ⟨a1, ?_, a3, ?_⟩
        · rcases a2 with e | ⟨e, e'⟩
          · exact Or.inl e
          · exact Or.inr ⟨by omega, by omega, e'⟩
        · intro j hj _ hji
          rcases hch j hj hji with rfl | rfl
          · exact a4
          · exact this
      · rw [if_pos (by simp [hle, h2])]
        have := mt (leAt_iff h2 a1).2 hle
        refine ⟨h2, Or.inr ⟨by omega, by omega, by omega⟩, by omega, ?_⟩
        intro j hj _ hji
        rcases hch j hj hji with rfl | rfl
        · omega
        · exact Nat.le_refl _
    · rw [if_neg (by simp [h2])]
      refine ⟨a1, ?_, a3, ?_⟩
      · rcases a2 with e | ⟨e, e'⟩
        · exact Or.inl e
        · exact Or.inr ⟨by omega, by omega, e'⟩
      · intro j hj hjl hji
        rcases hch j hj hji with rfl | rfl
        · exact a4
        · omega
  · rw [if_neg h1]
    refine ⟨hi, Or.inl rfl, Nat.le_refl _, ?_⟩
    intro j hj hjl hji
    rcases hch j hj hji with rfl | rfl <;> omega

theorem heapify_spec : ∀ (fuel : Nat) (l : List HeapItem) (pos : Nat), SinkInv l pos → l.length ≤ fuel + pos →
    (heapify fuel l pos).Perm l ∧ IsHeap (heapify fuel l pos)
  | 0, l, pos, h, hf => by have := h.lt; omega
  | fuel + 1, l, pos, h, hf => by
    unfold heapify
    obtain ⟨a1, a2, a3, a4⟩ := largest_spec h.lt
    by_cases hc : largest l pos = pos
    · rw [if_pos hc]
      rw [hc] at a4
      refine ⟨.refl _, isHeap_iff.2 (fun i hi hl => ?_)⟩
      by_cases e : (i - 1) / 2 = pos
      · rw [e]; exact a4 i hi hl e
      · exact h.par i hi hl e
    · rw [if_neg hc]
      rcases a2 with e | ⟨b1, b2, b3⟩
      · exact absurd e hc
      have hs := h.step a1 b2 b1 b3 a4
      obtain ⟨k1, k2⟩ := heapify_spec fuel _ _ hs (by rw [swap_length]; omega)
      exact ⟨k1.trans (swap_perm _ _ _), k2⟩

theorem heapify_heap (fuel : Nat) {l : List HeapItem} (h : IsHeap l) (pos : Nat) (hp : pos < l.length) :
    heapify fuel l pos = l := by
  cases fuel with
  | zero => rfl
  | succ fuel =>
    unfold heapify
    obtain ⟨a1, a2, a3, a4⟩ := largest_spec hp
    rw [if_pos]
    rcases a2 with e | ⟨b1, b2, b3⟩
    · exact e
    · exfalso
      have := isHeap_iff.1 h _ b2 a1
      rw [b1] at this
      omega

theorem bubbleUp_snd_lt : ∀ (fuel : Nat) (l : List HeapItem) (pos : Nat), (bubbleUp fuel l pos).2 ≤ pos
  | 0, _, _ => Nat.le_refl _
  | fuel + 1, l, pos => by
    unfold bubbleUp
    split
    · exact Nat.le_refl _
    · split
      · exact Nat.le_refl _
      · exact Nat.le_trans (bubbleUp_snd_lt fuel _ _) (by omega)

theorem upHeapify_spec {l : List HeapItem} {i : Nat} (h : DownInv l i) :
    (upHeapify l i).Perm l ∧ IsHeap (upHeapify l i) := by
  have hlt := h.lt
  unfold upHeapify
  simp only
  by_cases hlow : 0 < i ∧ W l i < W l ((i - 1) / 2)
  · have hup : UpInv l i := by
      refine ⟨hlt, ?_, h.gp⟩
      intro j hj hl hne
      by_cases e : (j - 1) / 2 = i
      · have := h.gp hlow.1 j hj hl e
        rw [e]; omega
      · exact h.par j hj hl hne e
    obtain ⟨k1, k2⟩ := siftUp_spec _ _ _ hup (Nat.lt_succ_self i)
    rw [← bubbleUp_fst] at k1 k2
    have hle := bubbleUp_snd_lt (i + 1) l i
    have hlen := k1.length_eq
    have e1 : (if i ≠ (bubbleUp (i + 1) l i).2 then heapify (bubbleUp (i + 1) l i).1.length (bubbleUp (i + 1) l i).1 i
        else (bubbleUp (i + 1) l i).1) = (bubbleUp (i + 1) l i).1 := by
      split
      · exact heapify_heap _ k2 _ (by omega)
      · rfl
    rw [e1, heapify_heap _ k2 _ (by omega)]
    exact ⟨k1, k2⟩
  · have hb : bubbleUp (i + 1) l i = (l, i) := by
      unfold bubbleUp
      by_cases h0 : i = 0
      · rw [if_pos h0]
      · rw [if_neg h0, if_pos]
        exact (leAt_iff hlt (by omega)).2 (by omega)
    rw [hb]
    simp only [ne_eq, not_true_eq_false, if_false]
    refine heapify_spec _ _ _ ⟨hlt, ?_, h.gp⟩ (by omega)
    intro j hj hl hne
    by_cases e : j = i
    · subst e; omega
    · exact h.par j hj hl e hne

theorem downInv_set {l : List HeapItem} (h : IsHeap l) {i : Nat} (hi : i < l.length) (x : HeapItem) : DownInv (l.set i x) i := by
  have hW : ∀ j, j ≠ i → W (l.set i x) j = W l j := by
    intro j hj; unfold W; rw [List.getElem?_set_ne (fun e => hj e.symm)]
  rw [isHeap_iff] at h
  refine ⟨by simpa using hi, ?_, ?_⟩
  · intro j hj hl hne hp
    rw [hW _ hp, hW _ hne]
    exact h j hj (by simpa using hl)
  · intro h0 j hj hl hp
    have hl' : j < l.length := by simpa using hl
    rw [hW _ (by omega), hW _ (by omega)]
    have h1 := h j hj hl'
    have h2 := h i h0 hi
    rw [hp] at h1
    omega

/-- The keys that are in the queue. -/
def keys (l : List HeapItem) : List Nat := l.map HeapItem.nodeId

theorem findIdx_none {l : List HeapItem} {k : Nat} : l.findIdx? (fun x => x.nodeId == k) = none ↔ k ∉ keys l := by
  rw [List.findIdx?_eq_none_iff]
  constructor
  · intro h hk
    obtain ⟨x, hx, rfl⟩ := List.mem_map.1 hk
    simpa using h x hx
  · intro h x hx
    have : x.nodeId ≠ k := fun e => h (List.mem_map.2 ⟨x, hx, e⟩)
    simpa using this

theorem findIdx_some {l : List HeapItem} {k i : Nat} (h : l.findIdx? (fun x => x.nodeId == k) = some i) :
    ∃ hi : i < l.length, l[i].nodeId = k := by
  obtain ⟨hi, h1, _⟩ := List.findIdx?_eq_some_iff_getElem.1 h
  exact ⟨hi, by simpa using h1⟩

/-- Set the priority of the entry `i`. -/
theorem setPrio_spec {l : List HeapItem} (h : IsHeap l) {k i : Nat} (p : Nat)
    (hf : l.findIdx? (fun x => x.nodeId == k) = some i) :
    (upHeapify (l.set i ⟨p, k⟩) i).Perm (l.set i ⟨p, k⟩) ∧ IsHeap (upHeapify (l.set i ⟨p, k⟩) i) ∧
      keys (l.set i ⟨p, k⟩) = keys l := by
  obtain ⟨hi, hk⟩ := findIdx_some hf
  have hd := upHeapify_spec (downInv_set h hi ⟨p, k⟩)
  refine ⟨hd.1, hd.2, ?_⟩
  unfold keys
  rw [List.map_set]
  apply List.ext_getElem (by simp)
  intro j h1 h2
  rw [List.getElem_set]
  split
  · next e => subst e; simp [hk]
  · rfl

theorem change_spec {l : List HeapItem} (h : IsHeap l) (k p : Nat) :
    IsHeap (change k p l) ∧ (keys (change k p l)).Perm (keys l) := by
  unfold change
  split
  · exact ⟨h, .refl _⟩
  · next i hf =>
    obtain ⟨h1, h2, h3⟩ := setPrio_spec h p hf
    exact ⟨h2, (h1.map HeapItem.nodeId).trans (by show (keys _).Perm _; rw [h3])⟩

theorem push_new {l : List HeapItem} (h : IsHeap l) {k : Nat} (p : Nat) (hk : k ∉ keys l) :
    (push k p l).Perm (⟨p, k⟩ :: l) ∧ IsHeap (push k p l) := by
  unfold push
  rw [findIdx_none.2 hk]
  simp only
  rw [bubbleUp_fst]
  exact BinHeap.push_spec h ⟨p, k⟩

theorem push_old {l : List HeapItem} {k : Nat} (p : Nat) (hk : k ∈ keys l) : push k p l = change k p l := by
  unfold push change
  cases hf : l.findIdx? (fun x => x.nodeId == k) with
  | none => exact absurd hk (findIdx_none.1 hf)
  | some i => rfl

theorem push_heap {l : List HeapItem} (h : IsHeap l) (k p : Nat) : IsHeap (push k p l) := by
  by_cases hk : k ∈ keys l
  · rw [push_old p hk]; exact (change_spec h k p).1
  · exact (push_new h p hk).2

theorem pop_none {l : List HeapItem} : pop l = none ↔ l = [] := by
  unfold pop
  cases l with
  | nil => simp
  | cons root rest =>
    simp only [reduceCtorEq, iff_false]
    split <;> simp

theorem pop_spec {l : List HeapItem} (h : IsHeap l) {k : Nat} {l' : List HeapItem} (hp : pop l = some (k, l')) :
    ∃ x : HeapItem, x.nodeId = k ∧ l.Perm (x :: l') ∧ IsHeap l' ∧ ∀ y ∈ l, x.weight ≤ y.weight := by
  cases l with
  | nil => cases hp
  | cons root rest =>
    refine ⟨root, ?_⟩
    have hmin : ∀ y ∈ root :: rest, root.weight ≤ y.weight := by
      intro y hy
      obtain ⟨i, hi⟩ := List.getElem?_of_mem hy
      have hil : i < (root :: rest).length := (List.getElem?_eq_some_iff.1 hi).1
      have := root_min h i hil
      simpa [W, hi] using this
    unfold pop at hp
    simp only at hp
    cases hl : rest.getLast? with
    | none =>
      rw [hl] at hp
      simp only [Option.some.injEq, Prod.mk.injEq] at hp
      obtain ⟨h1, h2⟩ := hp
      subst h2
      rw [List.getLast?_eq_none_iff.1 hl]
      exact ⟨h1, .refl _, fun i a b _ ha => by simp at ha, by rw [List.getLast?_eq_none_iff.1 hl] at hmin; exact hmin⟩
    | some last =>
      rw [hl] at hp
      simp only [Option.some.injEq, Prod.mk.injEq] at hp
      obtain ⟨h1, h2⟩ := hp
      have hne : rest ≠ [] := by rintro rfl; cases hl
      have hsplit : rest = rest.dropLast ++ [last] := by
        rw [List.getLast?_eq_some_getLast hne] at hl
        injection hl with hl
        rw [← hl]; exact (List.dropLast_append_getLast hne).symm
      have hlen : rest.length = rest.dropLast.length + 1 := by
        conv_lhs => rw [hsplit]
        simp
      have hW : ∀ i, 0 < i → i < (last :: rest.dropLast).length → W (last :: rest.dropLast) i = W (root :: rest) i := by
        intro i h0 hi
        conv_rhs => rw [hsplit]
        unfold W
        obtain ⟨j, rfl⟩ : ∃ j, i = j + 1 := ⟨i - 1, by omega⟩
        simp only [List.length_cons] at hi
        simp only [List.getElem?_cons_succ]
        rw [List.getElem?_append_left (by omega)]
      have hinv : SinkInv (last :: rest.dropLast) 0 := by
        refine ⟨by simp, ?_, fun h0 => absurd h0 (by omega)⟩
        intro i hi hil hpar
        rw [hW _ (by omega) (by omega), hW i hi hil]
        exact isHeap_iff.1 h i hi (by simp only [List.length_cons] at hil ⊢; omega)
      obtain ⟨k1, k2⟩ := heapify_spec rest.length _ _ hinv (by simp only [List.length_cons]; omega)
      rw [h2] at k1 k2
      refine ⟨h1, ?_, k2, hmin⟩
      refine List.Perm.cons _ ?_
      refine List.Perm.trans ?_ k1.symm
      conv_lhs => rw [hsplit]
      exact List.perm_append_singleton last rest.dropLast

/-- The priority of a key. -/
def prio (l : List HeapItem) (k : Nat) : Nat := ((l.find? (fun x => x.nodeId == k)).map HeapItem.weight).getD 0

theorem prio_mem {l : List HeapItem} (hnd : (keys l).Nodup) {x : HeapItem} (hx : x ∈ l) : prio l x.nodeId = x.weight := by
  unfold prio
  have hs : (l.find? (fun y => y.nodeId == x.nodeId)).isSome := by
    rw [List.find?_isSome]; exact ⟨x, hx, by simp⟩
  obtain ⟨y, hy⟩ := Option.isSome_iff_exists.1 hs
  rw [hy]
  have h1 : y ∈ l := List.mem_of_find?_eq_some hy
  have h2 : y.nodeId = x.nodeId := by simpa using List.find?_some hy
  have : y = x := List.inj_on_of_nodup_map hnd h1 hx h2
  rw [this]; rfl

theorem prio_perm {l l' : List HeapItem} (hp : l.Perm l') (hnd : (keys l).Nodup) {k : Nat} (hk : k ∈ keys l) :
    prio l k = prio l' k := by
  obtain ⟨x, hx, rfl⟩ := List.mem_map.1 hk
  rw [prio_mem hnd hx, prio_mem (((hp.map HeapItem.nodeId).nodup_iff).1 hnd) (hp.mem_iff.1 hx)]

end PrioQueue

namespace PrioQueue

/-- What holds for the array after any sequence of calls. -/
def Good (l : List HeapItem) : Prop := BinHeap.IsHeap l ∧ (keys l).Nodup

theorem Good.empty : Good [] := ⟨fun i a b _ ha => by simp at ha, List.nodup_nil⟩

theorem Good.push {l : List HeapItem} (h : Good l) (k p : Nat) : Good (push k p l) := by
  refine ⟨push_heap h.1 k p, ?_⟩
  by_cases hk : k ∈ keys l
  · rw [push_old p hk]; exact ((change_spec h.1 k p).2.nodup_iff).2 h.2
  · exact (((push_new h.1 p hk).1.map HeapItem.nodeId).nodup_iff).2 (List.nodup_cons.2 ⟨hk, h.2⟩)

theorem Good.change {l : List HeapItem} (h : Good l) (k p : Nat) : Good (change k p l) :=
  ⟨(change_spec h.1 k p).1, ((change_spec h.1 k p).2.nodup_iff).2 h.2⟩

theorem Good.pop {l l' : List HeapItem} (h : Good l) {k : Nat} (hp : pop l = some (k, l')) : Good l' := by
  obtain ⟨x, _, h1, h2, _⟩ := pop_spec h.1 hp
  exact ⟨h2, (List.nodup_cons.1 (((h1.map HeapItem.nodeId).nodup_iff).1 h.2)).2⟩

theorem change_prio {l : List HeapItem} (h : Good l) {k p k' : Nat} (hk : k ∈ keys l) (hk' : k' ∈ keys l) :
    prio (change k p l) k' = if k' = k then p else prio l k' := by
  have hg := h.change k p
  unfold change at hg ⊢
  cases hf : l.findIdx? (fun x => x.nodeId == k) with
  | none => exact absurd hk (findIdx_none.1 hf)
  | some i =>
    rw [hf] at hg
    simp only at hg ⊢
    obtain ⟨h1, h2, h3⟩ := setPrio_spec h.1 p hf
    obtain ⟨hi, hik⟩ := findIdx_some hf
    have hnd : (keys (l.set i ⟨p, k⟩)).Nodup := by rw [h3]; exact h.2
    rw [prio_perm h1 hg.2 (((h1.map HeapItem.nodeId).mem_iff).2 (by show k' ∈ keys _; rw [h3]; exact hk'))]
    split
    · next e =>
      subst e
      exact prio_mem (x := ⟨p, k'⟩) hnd (List.mem_set hi _)
    · next e =>
      obtain ⟨x, hx, rfl⟩ := List.mem_map.1 hk'
      obtain ⟨j, hj, rfl⟩ := List.getElem_of_mem hx
      have hji : i ≠ j := by rintro rfl; exact e hik
      have hm : l[j] ∈ l.set i ⟨p, k⟩ := by
        have : (l.set i ⟨p, k⟩)[j]'(by simpa using hj) = l[j] := List.getElem_set_ne hji _
        rw [← this]; exact List.getElem_mem _
      rw [prio_mem hnd hm, prio_mem h.2 hx]

theorem push_prio {l : List HeapItem} (h : Good l) {k p k' : Nat} (hk : k ∉ keys l) (hk' : k' = k ∨ k' ∈ keys l) :
    prio (push k p l) k' = if k' = k then p else prio l k' := by
  obtain ⟨h1, _⟩ := push_new h.1 p hk
  have hnd : (keys (⟨p, k⟩ :: l)).Nodup := List.nodup_cons.2 ⟨hk, h.2⟩
  have hm : k' ∈ keys (⟨p, k⟩ :: l) := by
    rcases hk' with e | e
    · rw [e]; exact List.mem_cons_self
    · exact List.mem_cons_of_mem _ e
  rw [prio_perm h1 (h.push k p).2 (((h1.map HeapItem.nodeId).mem_iff).2 hm)]
  split
  · next e => subst e; exact prio_mem (x := ⟨p, k'⟩) hnd List.mem_cons_self
  · next e =>
    obtain ⟨x, hx, rfl⟩ := List.mem_map.1 (hk'.resolve_left e)
    rw [prio_mem hnd (List.mem_cons_of_mem _ hx), prio_mem h.2 hx]

theorem pop_prio {l l' : List HeapItem} (h : Good l) {k : Nat} (hp : pop l = some (k, l')) :
    (∀ k' ∈ keys l, prio l k ≤ prio l k') ∧ ∀ k' ∈ keys l', prio l' k' = prio l k' := by
  have hg := h.pop hp
  obtain ⟨x, rfl, h1, _, h3⟩ := pop_spec h.1 hp
  have hx : x ∈ l := h1.mem_iff.2 List.mem_cons_self
  constructor
  · intro k' hk'
    obtain ⟨y, hy, rfl⟩ := List.mem_map.1 hk'
    rw [prio_mem h.2 hx, prio_mem h.2 hy]
    exact h3 y hy
  · intro k' hk'
    obtain ⟨y, hy, rfl⟩ := List.mem_map.1 hk'
    rw [prio_mem hg.2 hy, prio_mem h.2 (h1.mem_iff.2 (List.mem_cons_of_mem _ hy))]

end PrioQueue

/-- The queue of the crate `priority-queue` as a node queue. -/
def prioQueue : NodeQueue where
  σ := { l : List HeapItem // PrioQueue.Good l }
  empty := ⟨[], PrioQueue.Good.empty⟩
  push k p q := ⟨PrioQueue.push k p q.1, q.2.push k p⟩
  pop q := match h : PrioQueue.pop q.1 with
    | none => none
    | some (k, l) => some (k, ⟨l, q.2.pop h⟩)
  change k p q := ⟨PrioQueue.change k p q.1, q.2.change k p⟩
  keys q := PrioQueue.keys q.1
  keys_empty := rfl
  keys_push k p q h := (PrioQueue.push_new q.2.1 p h).1.map HeapItem.nodeId
  pop_none q := by
    constructor
    · intro h
      split at h
      · next h' => rw [PrioQueue.pop_none.1 h']; rfl
      · cases h
    · intro h
      split
      · rfl
      · next k l h' =>
        rw [PrioQueue.pop_none.2 (List.map_eq_nil_iff.1 h)] at h'
        cases h'
  pop_some q k q' h := by
    split at h
    · cases h
    · next k2 l h' =>
      injection h with h
      injection h with h1 h2
      subst h1 h2
      obtain ⟨x, rfl, hx, _⟩ := PrioQueue.pop_spec q.2.1 h'
      exact hx.map HeapItem.nodeId
  keys_change k p q := (PrioQueue.change_spec q.2.1 k p).2

theorem prioQueue_pop {q q' : prioQueue.σ} {k : Nat} (h : prioQueue.pop q = some (k, q')) : PrioQueue.pop q.1 = some (k, q'.1) := by
  unfold prioQueue at h
  simp only at h
  split at h
  · cases h
  · next h' =>
    injection h with h
    injection h with h1 h2
    subst h1 h2
    exact h'

/-- The queue of the crate is ordered. -/
theorem prioQueue_ordered : Spec.Ordered prioQueue (fun q k => PrioQueue.prio q.1 k) where
  push_self k p q h := by
    show PrioQueue.prio (PrioQueue.push k p q.1) k = p
    rw [PrioQueue.push_prio q.2 h (Or.inl rfl), if_pos rfl]
  push_other k p q k' h h' := by
    show PrioQueue.prio (PrioQueue.push k p q.1) k' = _
    rw [PrioQueue.push_prio q.2 h (Or.inr h'), if_neg (by rintro rfl; exact h h')]
  pop_least q k q' _ h := (PrioQueue.pop_prio q.2 (prioQueue_pop h)).1
  pop_other q k q' _ h := (PrioQueue.pop_prio q.2 (prioQueue_pop h)).2
  change_self k p q _ h := by
    show PrioQueue.prio (PrioQueue.change k p q.1) k = p
    rw [PrioQueue.change_prio q.2 h h, if_pos rfl]
  change_other k p q k' _ h hne := by
    show PrioQueue.prio (PrioQueue.change k p q.1) k' = _
    by_cases hk : k ∈ PrioQueue.keys q.1
    · rw [PrioQueue.change_prio q.2 hk h, if_neg hne]
    · unfold PrioQueue.change
      rw [PrioQueue.findIdx_none.2 hk]

end FP
