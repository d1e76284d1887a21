import Verif.Model.ValidFlags
import Verif.Proofs.Logic
/-! # ValidFlags behaves like a set of nodes -/
namespace FP
namespace ValidFlags

/-- Invariant: `n` flags, none exceeds the current generation, which is between 1 and `u32::MAX`. -/
structure Ok (n : Nat) (f : ValidFlags) : Prop where
  len : f.validFlags.length = n
  le : ∀ x ∈ f.validFlags, x ≤ f.validFlag
  pos : 1 ≤ f.validFlag
  max : f.validFlag ≤ U32_MAX

/-- The set represented by the flags. -/
def has (f : ValidFlags) (i : Nat) : Prop := f.validFlags[i]? = some f.validFlag

instance (f : ValidFlags) (i : Nat) : Decidable (f.has i) := inferInstanceAs (Decidable (_ = _))

variable {n : Nat} {f : ValidFlags}

theorem Ok.new (n : Nat) : Ok n (new n) :=
  ⟨by simp [ValidFlags.new], by simp [ValidFlags.new, List.mem_replicate], by simp [ValidFlags.new],
   by simp [ValidFlags.new, U32_MAX]⟩

theorem not_has_new (n i : Nat) : ¬ (new n).has i := by
  simp [has, ValidFlags.new, List.getElem?_replicate]

theorem Ok.has_lt (h : Ok n f) {i : Nat} (hi : f.has i) : i < n := by
  have := List.getElem?_eq_some_iff.1 hi
  obtain ⟨h', _⟩ := this
  rw [← h.len]; exact h'

theorem isValid_ok (h : Ok n f) {i : Nat} (hi : i < n) : f.isValid i = .ok (decide (f.has i)) := by
  have hl : i < f.validFlags.length := by rw [h.len]; exact hi
  unfold isValid
  rw [idx_ok hl]
  simp [has, hl, BEq.beq]

theorem setValid_ok (h : Ok n f) {i : Nat} (hi : i < n) :
    ∃ f', f.setValid i = .ok f' ∧ Ok n f' ∧ ∀ j, f'.has j ↔ j = i ∨ f.has j := by
  have hl : i < f.validFlags.length := by rw [h.len]; exact hi
  refine ⟨{ f with validFlags := f.validFlags.set i f.validFlag }, ?_, ?_, ?_⟩
  · unfold setValid; rw [setIdx_ok hl]; rfl
  · refine ⟨by simp [h.len], ?_, h.pos, h.max⟩
    intro x hx
    rcases List.mem_or_eq_of_mem_set hx with h' | h'
    · exact h.le x h'
    · exact Nat.le_of_eq h'
  · intro j
    simp only [has]
    rw [getElem?_set' hl]
    by_cases hij : i = j
    · simp [hij]
    · simp [hij, Ne.symm hij]

theorem invalidateAll_ok (h : Ok n f) : Ok n f.invalidateAll ∧ ∀ i, ¬ f.invalidateAll.has i := by
  unfold invalidateAll
  split
  · refine ⟨⟨by simp [h.len], by simp [List.mem_replicate], by simp, by simp [U32_MAX]⟩, ?_⟩
    intro i
    simp [has, List.getElem?_replicate]
  · rename_i hne
    have hne' : f.validFlag ≠ U32_MAX := by simpa using hne
    refine ⟨⟨h.len, fun x hx => Nat.le_succ_of_le (h.le x hx), by simp, ?_⟩, ?_⟩
    · have := h.max
      show f.validFlag + 1 ≤ U32_MAX
      omega
    · intro i hi
      simp only [has] at hi
      have := h.le _ (List.mem_of_getElem? hi)
      omega

end ValidFlags
end FP
