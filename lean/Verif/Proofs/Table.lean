import Verif.Proofs.ValidFlags
import Verif.Model.Heap
/-! # Label tables with valid flags, heap lemmas, fuel measure: shared by both searches -/
namespace FP

variable {δ : Type}

/-- Entry of node `x` if it is valid. -/
def lookT (data : List δ) (f : ValidFlags) (x : Nat) : Option δ :=
  if f.has x then data[x]? else none

/-- `n` entries and `n` flags. -/
structure TabOk (n : Nat) (data : List δ) (f : ValidFlags) : Prop where
  len : data.length = n
  flags : f.Ok n

variable {n : Nat} {data : List δ} {f : ValidFlags}

theorem TabOk.look_lt (h : TabOk n data f) {x : Nat} {d : δ} (hx : lookT data f x = some d) : x < n := by
  unfold lookT at hx
  split at hx
  · rename_i hv; exact h.flags.has_lt hv
  · cases hx

theorem TabOk.has_iff (h : TabOk n data f) {x : Nat} : f.has x ↔ ∃ d, lookT data f x = some d := by
  unfold lookT
  constructor
  · intro hx
    have hlt : x < data.length := by rw [h.len]; exact h.flags.has_lt hx
    exact ⟨data[x], by simp [hx, hlt]⟩
  · rintro ⟨d, hd⟩
    by_contra hc
    simp [hc] at hd

theorem TabOk.isValid (h : TabOk n data f) {x : Nat} (hx : x < n) :
    f.isValid x = .ok (lookT data f x).isSome := by
  rw [ValidFlags.isValid_ok h.flags hx]
  congr 1
  by_cases hv : f.has x
  · obtain ⟨d, hd⟩ := h.has_iff.1 hv
    simp [hv, hd]
  · have : lookT data f x = none := by unfold lookT; simp [hv]
    simp [hv, this]

theorem TabOk.isValid_some (h : TabOk n data f) {x : Nat} {d : δ} (hx : lookT data f x = some d) :
    f.isValid x = .ok true := by
  rw [h.isValid (h.look_lt hx), hx]; rfl

theorem TabOk.isValid_none (h : TabOk n data f) {x : Nat} (hlt : x < n) (hx : lookT data f x = none) :
    f.isValid x = .ok false := by
  rw [h.isValid hlt, hx]; rfl

theorem idx_of_look {x : Nat} {d : δ} (hx : lookT data f x = some d) : idx data x = .ok d := by
  unfold lookT at hx
  split at hx
  · exact idx_some hx
  · cases hx

theorem getElem?_of_look {x : Nat} {d : δ} (hx : lookT data f x = some d) : data[x]? = some d := by
  unfold lookT at hx
  split at hx
  · exact hx
  · cases hx

/-- `set_valid` followed by overwriting the entry. -/
theorem TabOk.update (h : TabOk n data f) {x : Nat} (hx : x < n) (d : δ) :
    ∃ f', f.setValid x = .ok f' ∧ setIdx data x d = .ok (data.set x d) ∧ TabOk n (data.set x d) f' ∧
      ∀ y, lookT (data.set x d) f' y = if y = x then some d else lookT data f y := by
  obtain ⟨f', e, ok, hh⟩ := ValidFlags.setValid_ok h.flags hx
  have hlt : x < data.length := by rw [h.len]; exact hx
  refine ⟨f', e, setIdx_ok hlt, ⟨by simp [h.len], ok⟩, ?_⟩
  intro y
  unfold lookT
  rw [getElem?_set' hlt]
  by_cases hy : y = x
  · subst hy; simp [(hh y).2 (Or.inl rfl)]
  · have : x ≠ y := fun e => hy e.symm
    simp [hy, this, hh]

/-- Overwriting a valid entry without touching the flags. -/
theorem TabOk.modify (h : TabOk n data f) {x : Nat} {d : δ} (hx : lookT data f x = some d) (g : δ → δ) :
    modIdx data x g = .ok (data.set x (g d)) ∧ TabOk n (data.set x (g d)) f ∧
      ∀ y, lookT (data.set x (g d)) f y = if y = x then some (g d) else lookT data f y := by
  have hlt : x < data.length := by rw [h.len]; exact h.look_lt hx
  refine ⟨modIdx_ok (getElem?_of_look hx), ⟨by simp [h.len], h.flags⟩, ?_⟩
  intro y
  have hv : f.has x := h.has_iff.2 ⟨d, hx⟩
  unfold lookT
  rw [getElem?_set' hlt]
  by_cases hy : y = x
  · subst hy; simp [hv]
  · have : x ≠ y := fun e => hy e.symm
    simp [hy, this]

theorem TabOk.invalidate (h : TabOk n data f) :
    TabOk n data f.invalidateAll ∧ ∀ x, lookT data f.invalidateAll x = none := by
  obtain ⟨ok, hh⟩ := ValidFlags.invalidateAll_ok h.flags
  exact ⟨⟨h.len, ok⟩, fun x => by unfold lookT; simp [hh x]⟩

/-! ### Heap -/

theorem HeapItem.cmp_ne_gt {x y : HeapItem} (h : HeapItem.cmp y x ≠ .gt) : x.weight ≤ y.weight := by
  unfold HeapItem.cmp at h
  by_contra hc
  apply h
  have : compare y.weight x.weight = .lt := by rw [Nat.compare_eq_lt]; omega
  rw [this]; rfl

theorem HeapItem.cmp_ne_gt_iff {x y : HeapItem} : HeapItem.cmp y x ≠ .gt ↔ x.weight ≤ y.weight := by
  refine ⟨cmp_ne_gt, ?_⟩
  intro h e
  unfold HeapItem.cmp at e
  cases hc : compare y.weight x.weight with
  | lt => rw [Nat.compare_eq_lt] at hc; omega
  | eq => rw [hc] at e; cases e
  | gt => rw [hc] at e; cases e

variable {pq : PQ}

theorem PQ.mem_push {q : pq.σ} {x y : HeapItem} : y ∈ pq.items (pq.push x q) ↔ y = x ∨ y ∈ pq.items q := by
  rw [(pq.items_push x q).mem_iff]; simp

theorem PQ.length_push {q : pq.σ} {x : HeapItem} : (pq.items (pq.push x q)).length = (pq.items q).length + 1 := by
  rw [(pq.items_push x q).length_eq]; simp

theorem PQ.pop_mem {q q' : pq.σ} {x y : HeapItem} (h : pq.pop q = some (x, q')) :
    y ∈ pq.items q ↔ y = x ∨ y ∈ pq.items q' := by
  rw [(pq.pop_some q x q' h).1.mem_iff]; simp

theorem PQ.pop_length {q q' : pq.σ} {x : HeapItem} (h : pq.pop q = some (x, q')) :
    (pq.items q).length = (pq.items q').length + 1 := by
  rw [(pq.pop_some q x q' h).1.length_eq]; simp

theorem PQ.pop_min {q q' : pq.σ} {x y : HeapItem} (h : pq.pop q = some (x, q')) (hy : y ∈ pq.items q) :
    x.weight ≤ y.weight := HeapItem.cmp_ne_gt ((pq.pop_some q x q' h).2 y hy)

/-! ### Fuel measure -/

/-- Sum of `k u` over the nodes below `n` that are not settled. -/
def openSum (n : Nat) (settled : Nat → Bool) (k : Nat → Nat) : Nat :=
  ((List.range n).map (fun u => if settled u then 0 else k u)).sum

theorem sum_if_mono {l : List Nat} {S S' : Nat → Bool} {k : Nat → Nat} (hm : ∀ u, S u = true → S' u = true) :
    (l.map (fun u => if S' u then 0 else k u)).sum ≤ (l.map (fun u => if S u then 0 else k u)).sum := by
  induction l with
  | nil => simp
  | cons x xs ih =>
    simp only [List.map_cons, List.sum_cons]
    have := hm x
    by_cases h1 : S x = true
    · simp [h1, this h1, ih]
    · by_cases h2 : S' x = true
      · simp [h2]; omega
      · simp [h1, h2]; exact ih

theorem sum_if_settle {l : List Nat} {S S' : Nat → Bool} {k : Nat → Nat} {c : Nat}
    (hm : ∀ u, S u = true → S' u = true) (hc : c ∈ l) (h1 : S c = false) (h2 : S' c = true) :
    (l.map (fun u => if S' u then 0 else k u)).sum + k c ≤ (l.map (fun u => if S u then 0 else k u)).sum := by
  induction l with
  | nil => simp at hc
  | cons x xs ih =>
    simp only [List.map_cons, List.sum_cons]
    by_cases hx : x = c
    · subst hx
      have := sum_if_mono (l := xs) (k := k) hm
      simp only [h1, h2]
      simp
      omega
    · have hc' : c ∈ xs := by
        rcases List.mem_cons.1 hc with rfl | h
        · exact absurd rfl hx
        · exact h
      have := ih hc'
      have hmx := hm x
      by_cases g1 : S x = true
      · simp [g1, hmx g1]; exact this
      · by_cases g2 : S' x = true
        · simp [g1, g2]; omega
        · simp [g1, g2]; omega

theorem openSum_settle {n : Nat} {S S' : Nat → Bool} {k : Nat → Nat} {c : Nat}
    (hm : ∀ u, S u = true → S' u = true) (hc : c < n) (h1 : S c = false) (h2 : S' c = true) :
    openSum n S' k + k c ≤ openSum n S k :=
  sum_if_settle hm (List.mem_range.2 hc) h1 h2

theorem openSum_le {n : Nat} {S : Nat → Bool} {k : Nat → Nat} : openSum n S k ≤ ((List.range n).map k).sum := by
  have := sum_if_mono (l := List.range n) (S := fun _ => false) (S' := S) (k := k) (by simp)
  simpa [openSum] using this

end FP
