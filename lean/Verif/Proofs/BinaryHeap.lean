import Verif.Model.BinaryHeap
import Mathlib.Data.List.Basic
import Mathlib.Data.List.Perm.Basic
/-! # The array heap is a priority queue -/
namespace FP
namespace BinHeap

theorem le_iff {a b : HeapItem} : le a b = true ↔ b.weight ≤ a.weight := by
  unfold le HeapItem.cmp
  rcases Nat.lt_trichotomy a.weight b.weight with h | h | h
  · rw [Nat.compare_eq_lt.2 h]; simp [Ordering.swap]; omega
  · rw [Nat.compare_eq_eq.2 h]; simp [Ordering.swap]; omega
  · rw [Nat.compare_eq_gt.2 h]; simp [Ordering.swap]; omega

theorem cmp_ne_gt {a b : HeapItem} : HeapItem.cmp a b ≠ .gt ↔ b.weight ≤ a.weight := by
  rw [← le_iff]; unfold le; simp

/-- weight in slot `i` -/
def W (l : List HeapItem) (i : Nat) : Nat := ((l[i]?).map HeapItem.weight).getD 0

theorem W_eq {l : List HeapItem} {i : Nat} (h : i < l.length) : W l i = l[i].weight := by simp [W, h]

theorem isHeap_iff {l : List HeapItem} : IsHeap l ↔ ∀ i, 0 < i → i < l.length → W l ((i - 1) / 2) ≤ W l i := by
  constructor
  · intro h i hi hl
    have hp : (i - 1) / 2 < l.length := by omega
    rw [W_eq hl, W_eq hp]
    exact h i _ _ hi (by simp [hl]) (by simp [hp])
  · intro h i a b hi ha hb
    have hl : i < l.length := (List.getElem?_eq_some_iff.1 ha).1
    have := h i hi hl
    simpa [W, ha, hb] using this

theorem leAt_iff {l : List HeapItem} {i j : Nat} (hi : i < l.length) (hj : j < l.length) :
    leAt l i j = true ↔ W l j ≤ W l i := by
  unfold leAt
  rw [List.getElem?_eq_getElem hi, List.getElem?_eq_getElem hj, W_eq hi, W_eq hj]
  exact le_iff

theorem swap_eq {l : List HeapItem} {i j : Nat} (hi : i < l.length) (hj : j < l.length) :
    swap l i j = (l.set i l[j]).set j l[i] := by
  unfold swap
  rw [List.getElem?_eq_getElem hi, List.getElem?_eq_getElem hj]

theorem swap_length (l : List HeapItem) (i j : Nat) : (swap l i j).length = l.length := by
  unfold swap
  split <;> simp

theorem swap_perm (l : List HeapItem) (i j : Nat) : (swap l i j).Perm l := by
  by_cases hi : i < l.length
  · by_cases hj : j < l.length
    · rw [swap_eq hi hj]; exact List.set_set_perm hi hj
    · unfold swap
      rw [List.getElem?_eq_none (Nat.le_of_not_lt hj)]
      split
      · next h => cases h
      · exact .refl _
  · unfold swap
    rw [List.getElem?_eq_none (Nat.le_of_not_lt hi)]

theorem W_swap {l : List HeapItem} {i j : Nat} (hi : i < l.length) (hj : j < l.length) (k : Nat) :
    W (swap l i j) k = if k = j then W l i else if k = i then W l j else W l k := by
  rw [swap_eq hi hj]
  by_cases h1 : k = j
  · subst h1
    rw [if_pos rfl, W_eq hi]
    simp [W, hj]
  · rw [if_neg h1]
    by_cases h2 : k = i
    · subst h2
      rw [if_pos rfl, W_eq hj]
      unfold W
      rw [List.getElem?_set_ne (fun h => h1 h.symm), List.getElem?_set_self hi]
      rfl
    · rw [if_neg h2]
      simp [W, List.getElem?_set_ne (fun h => h1 h.symm), List.getElem?_set_ne (fun h => h2 h.symm)]

/-- Heap up to the slot `pos`, which may be lighter than its parent. -/
structure UpInv (l : List HeapItem) (pos : Nat) : Prop where
  lt : pos < l.length
  par : ∀ i, 0 < i → i < l.length → i ≠ pos → W l ((i - 1) / 2) ≤ W l i
  gp : 0 < pos → ∀ i, 0 < i → i < l.length → (i - 1) / 2 = pos → W l ((pos - 1) / 2) ≤ W l i

theorem siftUp_spec : ∀ (fuel : Nat) (l : List HeapItem) (pos : Nat), UpInv l pos → pos < fuel →
    (siftUp fuel l pos).Perm l ∧ IsHeap (siftUp fuel l pos)
  | 0, _, _, _, h => by omega
  | fuel + 1, l, pos, h, hf => by
    unfold siftUp
    have hlt := h.lt
    by_cases h0 : pos = 0
    · rw [if_pos h0]
      refine ⟨.refl _, isHeap_iff.2 (fun i hi hl => h.par i hi hl (by omega))⟩
    rw [if_neg h0]
    obtain ⟨p, hp⟩ : ∃ p, p = (pos - 1) / 2 := ⟨_, rfl⟩
    have hpl : p < l.length := by omega
    rw [← hp]
    by_cases hc : leAt l pos p = true
    · rw [if_pos hc]
      have hle := (leAt_iff hlt hpl).1 hc
      refine ⟨.refl _, isHeap_iff.2 (fun i hi hl => ?_)⟩
      by_cases hip : i = pos
      · subst hip; rw [← hp]; exact hle
      · exact h.par i hi hl hip
    · rw [if_neg hc]
      have hlt' : W l pos < W l p := by
        have := mt (leAt_iff hlt hpl).2 hc
        omega
      have hinv : UpInv (swap l pos p) p := by
        refine ⟨by rw [swap_length]; exact hpl, ?_, ?_⟩
        · intro i hi hl hip
          rw [swap_length] at hl
          rw [W_swap hlt hpl, W_swap hlt hpl, if_neg hip]
          by_cases e1 : (i - 1) / 2 = p
          · rw [if_pos e1]
            by_cases e2 : i = pos
            · rw [if_pos e2]; omega
            · rw [if_neg e2]
              have := h.par i hi hl e2
              rw [e1] at this; omega
          · rw [if_neg e1]
            by_cases e2 : (i - 1) / 2 = pos
            · rw [if_pos e2, if_neg (by omega)]
              rw [hp]; exact h.gp (by omega) i hi hl e2
            · rw [if_neg e2, if_neg (by intro e; subst e; exact e1 hp.symm)]
              exact h.par i hi hl (by intro e; subst e; exact e1 hp.symm)
        · intro hp0 i hi hl hip
          rw [swap_length] at hl
          have hpp := h.par p hp0 hpl (by omega)
          rw [W_swap hlt hpl, W_swap hlt hpl, if_neg (by omega), if_neg (by omega), if_neg (by omega)]
          by_cases e2 : i = pos
          · rw [if_pos e2]; exact hpp
          · rw [if_neg e2]
            have := h.par i hi hl e2
            rw [hip] at this; omega
      obtain ⟨k1, k2⟩ := siftUp_spec fuel (swap l pos p) p hinv (by omega)
      exact ⟨k1.trans (swap_perm _ _ _), k2⟩

/-- Heap up to the slot `pos`, whose content is unrelated to its parent and its children. -/
structure DownInv (l : List HeapItem) (pos : Nat) : Prop where
  lt : pos < l.length
  par : ∀ i, 0 < i → i < l.length → i ≠ pos → (i - 1) / 2 ≠ pos → W l ((i - 1) / 2) ≤ W l i
  gp : 0 < pos → ∀ i, 0 < i → i < l.length → (i - 1) / 2 = pos → W l ((pos - 1) / 2) ≤ W l i

theorem DownInv.step {l : List HeapItem} {pos c : Nat} (h : DownInv l pos) (hc : c < l.length) (h0 : 0 < c)
    (hcp : (c - 1) / 2 = pos) (hmin : ∀ i, 0 < i → i < l.length → (i - 1) / 2 = pos → W l c ≤ W l i) :
    DownInv (swap l pos c) c := by
  have hlt := h.lt
  refine ⟨by rw [swap_length]; exact hc, ?_, ?_⟩
  · intro i hi hl hic hpc
    rw [swap_length] at hl
    rw [W_swap hlt hc, W_swap hlt hc, if_neg hpc, if_neg hic]
    by_cases e1 : (i - 1) / 2 = pos
    · rw [if_pos e1, if_neg (by omega)]
      exact hmin i hi hl e1
    · rw [if_neg e1]
      by_cases e2 : i = pos
      · rw [if_pos e2]
        subst e2
        exact h.gp hi c h0 hc hcp
      · rw [if_neg e2]
        exact h.par i hi hl e2 e1
  · intro _ i hi hl hip
    rw [swap_length] at hl
    rw [W_swap hlt hc, W_swap hlt hc, if_neg (by omega), if_pos hcp, if_neg (by omega), if_neg (by omega)]
    have := h.par i hi hl (by omega) (by omega)
    rw [hip] at this; exact this

theorem DownInv.up {l : List HeapItem} {pos : Nat} (h : DownInv l pos) (hn : l.length ≤ 2 * pos + 1) : UpInv l pos :=
  ⟨h.lt, fun i hi hl hip => h.par i hi hl hip (by omega), fun _ i hi hl hip => by omega⟩

theorem siftDown_spec : ∀ (fuel : Nat) (l : List HeapItem) (pos : Nat), DownInv l pos → l.length < fuel + pos →
    (siftDown fuel l pos).1.Perm l ∧ UpInv (siftDown fuel l pos).1 (siftDown fuel l pos).2
  | 0, l, pos, h, hf => by have := h.lt; omega
  | fuel + 1, l, pos, h, hf => by
    unfold siftDown
    by_cases h2 : 2 * pos + 2 < l.length
    · rw [if_pos h2]
      simp only
      obtain ⟨c, hc⟩ : ∃ c, c = if leAt l (2 * pos + 1) (2 * pos + 2) = true then 2 * pos + 2 else 2 * pos + 1 := ⟨_, rfl⟩
      rw [← hc]
      have hcc : c = 2 * pos + 1 ∨ c = 2 * pos + 2 := by
        rw [hc]; split
        · exact Or.inr rfl
        · exact Or.inl rfl
      have hmin : ∀ i, 0 < i → i < l.length → (i - 1) / 2 = pos → W l c ≤ W l i := by
        intro i hi hl hip
        have hi2 : i = 2 * pos + 1 ∨ i = 2 * pos + 2 := by omega
        by_cases hle : leAt l (2 * pos + 1) (2 * pos + 2) = true
        · rw [if_pos hle] at hc
          have := (leAt_iff (by omega) h2).1 hle
          rcases hi2 with rfl | rfl
          · rw [hc]; exact this
          · rw [hc]; exact Nat.le_refl _
        · rw [if_neg hle] at hc
          have := mt (leAt_iff (by omega) h2).2 hle
          rcases hi2 with rfl | rfl
          · rw [hc]; exact Nat.le_refl _
          · rw [hc]; omega
      have hs := h.step (c := c) (by omega) (by omega) (by omega) hmin
      obtain ⟨k1, k2⟩ := siftDown_spec fuel (swap l pos c) c hs (by rw [swap_length]; omega)
      exact ⟨k1.trans (swap_perm _ _ _), k2⟩
    · rw [if_neg h2]
      by_cases h1 : 2 * pos + 1 < l.length
      · rw [if_pos h1]
        have hs := h.step (c := 2 * pos + 1) h1 (by omega) (by omega) (by
          intro i hi hl hip
          have : i = 2 * pos + 1 := by omega
          rw [this]; exact Nat.le_refl _)
        exact ⟨swap_perm _ _ _, hs.up (by rw [swap_length]; omega)⟩
      · rw [if_neg h1]
        exact ⟨.refl _, h.up (by omega)⟩

theorem push_spec {l : List HeapItem} (h : IsHeap l) (x : HeapItem) : (push x l).Perm (x :: l) ∧ IsHeap (push x l) := by
  unfold push
  have hW : ∀ i, i < l.length → W (l ++ [x]) i = W l i := by
    intro i hi; unfold W; rw [List.getElem?_append_left hi]
  have hinv : UpInv (l ++ [x]) l.length := by
    refine ⟨by simp, ?_, ?_⟩
    · intro i hi hl hne
      have hl' : i < l.length := by simp at hl; omega
      rw [hW _ (by omega), hW i hl']
      exact isHeap_iff.1 h i hi hl'
    · intro _ i hi hl hp
      simp at hl; omega
  obtain ⟨k1, k2⟩ := siftUp_spec _ _ _ hinv (Nat.lt_succ_self _)
  exact ⟨k1.trans (List.perm_append_singleton x l), k2⟩

theorem root_min {l : List HeapItem} (h : IsHeap l) : ∀ i, i < l.length → W l 0 ≤ W l i := by
  intro i
  induction i using Nat.strongRecOn with
  | _ i ih =>
    intro hi
    by_cases h0 : i = 0
    · subst h0; exact Nat.le_refl _
    · exact Nat.le_trans (ih ((i - 1) / 2) (by omega) (by omega)) (isHeap_iff.1 h i (by omega) hi)

theorem pop_none {l : List HeapItem} : pop l = none ↔ l = [] := by
  unfold pop
  constructor
  · intro h
    cases hl : l.getLast? with
    | none => exact List.getLast?_eq_none_iff.1 hl
    | some x =>
      rw [hl] at h
      simp only at h
      split at h <;> cases h
  · rintro rfl; rfl

theorem pop_spec {l : List HeapItem} (h : IsHeap l) {x : HeapItem} {l' : List HeapItem} (hp : pop l = some (x, l')) :
    l.Perm (x :: l') ∧ IsHeap l' ∧ peek l = some x ∧ ∀ y ∈ l, x.weight ≤ y.weight := by
  have key : l.Perm (x :: l') ∧ IsHeap l' ∧ peek l = some x := by
    unfold pop at hp
    cases hl : l.getLast? with
    | none => rw [hl] at hp; cases hp
    | some item =>
      rw [hl] at hp
      simp only at hp
      have hsplit : l = l.dropLast ++ [item] := by
        have hne : l ≠ [] := by rintro rfl; cases hl
        rw [List.getLast?_eq_some_getLast hne] at hl
        injection hl with hl
        rw [← hl]; exact (List.dropLast_append_getLast hne).symm
      cases hd : l.dropLast with
      | nil =>
        rw [hd] at hp hsplit
        injection hp with hp
        injection hp with h1 h2
        subst h1 h2
        rw [hsplit]
        refine ⟨.refl _, ?_, rfl⟩
        intro i a b _ ha; simp at ha
      | cons root rest =>
        rw [hd] at hp hsplit
        simp only at hp
        injection hp with hp
        injection hp with h1 h2
        subst h1
        have hlen : l.length = rest.length + 2 := by rw [hsplit]; simp
        have hW : ∀ i, 0 < i → i < (item :: rest).length → W (item :: rest) i = W l i := by
          intro i h0 hi
          rw [hsplit]
          unfold W
          obtain ⟨j, rfl⟩ : ∃ j, i = j + 1 := ⟨i - 1, by omega⟩
          simp only [List.length_cons] at hi
          rw [List.getElem?_append_left (by simp only [List.length_cons]; omega)]
          simp
        have hinv : DownInv (item :: rest) 0 := by
          refine ⟨by simp, ?_, fun h0 => absurd h0 (by omega)⟩
          intro i hi hil hne hpar
          rw [hW _ (by omega) (by omega), hW i hi hil]
          exact isHeap_iff.1 h i hi (by simp only [List.length_cons] at hil; omega)
        obtain ⟨k1, k2⟩ := siftDown_spec (rest.length + 2) (item :: rest) 0 hinv (by simp)
        obtain ⟨m1, m2⟩ := siftUp_spec _ _ _ k2 (Nat.lt_succ_self _)
        rw [← h2]
        refine ⟨?_, m2, by rw [hsplit]; rfl⟩
        have : l.Perm (root :: item :: rest) := by
          rw [hsplit]
          exact (List.perm_append_singleton item rest).cons root
        exact this.trans ((m1.trans k1).symm.cons root)
  refine ⟨key.1, key.2.1, key.2.2, ?_⟩
  intro y hy
  obtain ⟨i, hi⟩ := List.getElem?_of_mem hy
  have hil : i < l.length := (List.getElem?_eq_some_iff.1 hi).1
  have := root_min h i hil
  have h0 : l[0]? = some x := by rw [← List.head?_eq_getElem?]; exact key.2.2
  simpa [W, hi, h0] using this

end BinHeap

/-- The standard library heap as a priority queue. -/
def binaryHeap : PQ where
  σ := { l : List HeapItem // BinHeap.IsHeap l }
  empty := ⟨[], fun i a b _ ha => by simp at ha⟩
  push x q := ⟨BinHeap.push x q.1, (BinHeap.push_spec q.2 x).2⟩
  pop q := match h : BinHeap.pop q.1 with
    | none => none
    | some (x, l) => some (x, ⟨l, (BinHeap.pop_spec q.2 h).2.1⟩)
  items q := q.1
  items_empty := rfl
  items_push x q := (BinHeap.push_spec q.2 x).1
  pop_none q := by
    constructor
    · intro h
      split at h
      · next h' => exact BinHeap.pop_none.1 h'
      · cases h
    · intro h
      split
      · rfl
      · next x l h' =>
        rw [BinHeap.pop_none.2 h] at h'
        cases h'
  pop_some q x q' h := by
    split at h
    · cases h
    · next y l h' =>
      injection h with h
      injection h with h1 h2
      subst h1 h2
      have hs := BinHeap.pop_spec q.2 h'
      exact ⟨hs.1, fun y hy => BinHeap.cmp_ne_gt.2 (hs.2.2.2 y hy)⟩

end FP
