import Mathlib.Data.List.Basic
import Mathlib.Tactic.Common
/-! # Concatenated blocks and their offsets -/
namespace FP

variable {α : Type}

/-- Offset of block `j`: number of elements in the blocks before it. -/
def off (bs : List (List α)) (j : Nat) : Nat := ((bs.take j).map List.length).sum

theorem off_zero (bs : List (List α)) : off bs 0 = 0 := by simp [off]

theorem off_succ {bs : List (List α)} {j : Nat} {b : List α} (h : bs[j]? = some b) :
    off bs (j + 1) = off bs j + b.length := by
  unfold off
  rw [List.take_add_one, h]
  simp

theorem off_length (bs : List (List α)) : off bs bs.length = bs.flatten.length := by
  simp [off, List.length_flatten]

theorem off_append_left {bs : List (List α)} {cs : List (List α)} {j : Nat} (h : j ≤ bs.length) :
    off (bs ++ cs) j = off bs j := by
  unfold off
  rw [List.take_append_of_le_length h]

theorem off_mono {bs : List (List α)} {i j : Nat} (h : i ≤ j) : off bs i ≤ off bs j := by
  unfold off
  have : bs.take j = bs.take i ++ (bs.drop i).take (j - i) := by
    rw [← List.take_add]; congr 1; omega
  rw [this]
  simp

theorem off_le_length (bs : List (List α)) (j : Nat) : off bs j ≤ bs.flatten.length := by
  by_cases h : j ≤ bs.length
  · rw [← off_length]; exact off_mono h
  · unfold off
    rw [List.take_of_length_le (by omega), List.length_flatten]; exact Nat.le_refl _

theorem getElem?_flatten {bs : List (List α)} {j k : Nat} {b : List α} (h : bs[j]? = some b) (hk : k < b.length) :
    bs.flatten[off bs j + k]? = b[k]? := by
  induction bs generalizing j with
  | nil => simp at h
  | cons c cs ih =>
    cases j with
    | zero =>
      simp at h
      subst h
      simp [off, List.getElem?_append_left hk]
    | succ j =>
      have h' : cs[j]? = some b := by simpa using h
      have : off (c :: cs) (j + 1) = c.length + off cs j := by simp [off]
      rw [this, List.flatten_cons, List.getElem?_append_right (by omega)]
      rw [← ih h']
      congr 1
      omega

/-- Every index of the concatenation lies in exactly one block. -/
theorem exists_block {bs : List (List α)} {i : Nat} (h : i < bs.flatten.length) :
    ∃ j b, bs[j]? = some b ∧ off bs j ≤ i ∧ i < off bs j + b.length := by
  induction bs generalizing i with
  | nil => simp at h
  | cons c cs ih =>
    by_cases hi : i < c.length
    · exact ⟨0, c, by simp, by simp [off], by simpa [off] using hi⟩
    · obtain ⟨j, b, h1, h2, h3⟩ := ih (i := i - c.length) (by simp at h ⊢; omega)
      refine ⟨j + 1, b, by simpa using h1, ?_, ?_⟩
      · simp [off] at h2 ⊢; omega
      · simp [off] at h3 ⊢; omega

end FP
