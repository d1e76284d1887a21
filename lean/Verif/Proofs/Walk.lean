import Verif.Spec
import Mathlib.Data.List.Basic
import Mathlib.Tactic.Common
/-! # Walk lemmas -/
namespace FP
open Spec

/-- Walks as an inductive predicate. -/
inductive Wk (E : EdgeRel) : Nat → Nat → Nat → Prop
  | nil (s : Nat) : Wk E s s 0
  | cons {s x t a b : Nat} : E s x a → Wk E x t b → Wk E s t (a + b)

/-- Walk with the list of its nodes except the last one. -/
inductive WkL (E : EdgeRel) : Nat → Nat → Nat → List Nat → Prop
  | nil (s : Nat) : WkL E s s 0 []
  | cons {s x t a b : Nat} {L : List Nat} : E s x a → WkL E x t b L → WkL E s t (a + b) (s :: L)

variable {E F : EdgeRel} {s t u v x w a b : Nat}

theorem Wk.single (h : E s t w) : Wk E s t w := by
  simpa using Wk.cons h (Wk.nil t)

theorem Wk.append (h₁ : Wk E s x a) (h₂ : Wk E x t b) : Wk E s t (a + b) := by
  induction h₁ with
  | nil s => simpa using h₂
  | cons e _ ih => rw [Nat.add_assoc]; exact Wk.cons e (ih h₂)

theorem Wk.snoc (h₁ : Wk E s x a) (h₂ : E x t b) : Wk E s t (a + b) := h₁.append (Wk.single h₂)

theorem Wk.mono (hEF : ∀ u v w, E u v w → F u v w) (h : Wk E s t w) : Wk F s t w := by
  induction h with
  | nil s => exact .nil s
  | cons e _ ih => exact .cons (hEF _ _ _ e) ih

/-- Replace every edge by a walk that is not heavier. -/
theorem Wk.bind_le (hEF : ∀ u v w, E u v w → ∃ w' ≤ w, Wk F u v w') (h : Wk E s t w) : ∃ w' ≤ w, Wk F s t w' := by
  induction h with
  | nil s => exact ⟨0, Nat.le_refl _, .nil s⟩
  | cons e _ ih =>
    obtain ⟨w₁, h₁, k₁⟩ := hEF _ _ _ e
    obtain ⟨w₂, h₂, k₂⟩ := ih
    exact ⟨w₁ + w₂, by omega, k₁.append k₂⟩

/-- Replace every edge by a walk of the same weight. -/
theorem Wk.bind (hEF : ∀ u v w, E u v w → Wk F u v w) (h : Wk E s t w) : Wk F s t w := by
  induction h with
  | nil s => exact .nil s
  | cons e _ ih => exact (hEF _ _ _ e).append ih

/-- The reversed graph. -/
def revE (E : EdgeRel) : EdgeRel := fun u v w => E v u w

theorem Wk.rev (h : Wk E s t w) : Wk (revE E) t s w := by
  induction h with
  | nil s => exact .nil s
  | cons e _ ih => rw [Nat.add_comm]; exact ih.snoc e

theorem Wk.rev_iff : Wk (revE E) s t w ↔ Wk E t s w := ⟨fun h => h.rev, fun h => h.rev⟩

theorem WkL.toWk {L : List Nat} (h : WkL E s t w L) : Wk E s t w := by
  induction h with
  | nil s => exact .nil s
  | cons e _ ih => exact .cons e ih

theorem Wk.toWkL (h : Wk E s t w) : ∃ L, WkL E s t w L := by
  induction h with
  | nil s => exact ⟨[], .nil s⟩
  | cons e _ ih => obtain ⟨L, hL⟩ := ih; exact ⟨_, .cons e hL⟩

theorem WkL.append {L₁ L₂ : List Nat} (h₁ : WkL E s x a L₁) (h₂ : WkL E x t b L₂) : WkL E s t (a + b) (L₁ ++ L₂) := by
  induction h₁ with
  | nil s => simpa using h₂
  | cons e _ ih => rw [Nat.add_assoc]; exact .cons e (ih h₂)

theorem WkL.single (h : E s t w) : WkL E s t w [s] := by
  simpa using WkL.cons h (WkL.nil t)

/-- Bridge to the specification predicate. -/
theorem WkL.isWalk {L : List Nat} (h : WkL E s t w L) :
    IsWalk E (L ++ [t]) w ∧ (L ++ [t]).head? = some s ∧ (L ++ [t]).getLast? = some t := by
  refine ⟨?_, ?_, by simp⟩
  · induction h with
    | nil s => simp [IsWalk]
    | @cons s x t a b L e h ih =>
      cases h with
      | nil => exact ⟨a, 0, e, by simp [IsWalk], rfl⟩
      | cons e' h' => exact ⟨a, _, e, ih, rfl⟩
  · cases h <;> simp

theorem isWalk_toWkL : ∀ {nodes : List Nat} {w s t : Nat}, IsWalk E nodes w → nodes.head? = some s →
    nodes.getLast? = some t → WkL E s t w nodes.dropLast := by
  intro nodes
  induction nodes with
  | nil => intro w s t h; exact h.elim
  | cons u rest ih =>
    intro w s t h hs ht
    cases rest with
    | nil =>
      simp at hs ht
      subst hs ht
      simp only [IsWalk] at h
      subst h
      exact .nil _
    | cons v rest =>
      obtain ⟨a, b, e, h', rfl⟩ := h
      simp at hs
      subst hs
      have := ih h' rfl (by simpa using ht)
      exact .cons e this

theorem hasWalk_iff : HasWalk E s t w ↔ Wk E s t w := by
  constructor
  · rintro ⟨nodes, h, hs, ht⟩
    exact (isWalk_toWkL h hs ht).toWk
  · intro h
    obtain ⟨L, hL⟩ := h.toWkL
    exact ⟨L ++ [t], hL.isWalk⟩

end FP
