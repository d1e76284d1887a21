import Verif.Model.Float32
import Mathlib.Algebra.Order.Field.Rat
/-! # Specification vocabulary for node priorities -/
namespace FP
open F32

/-- The finite numbers that are not negative. -/
def F32.NonNeg (x : F32) : Prop := ∃ k : Int, x = fin k ∧ 0 ≤ k ∧ k < limit

set_option exponentiation.threshold 300 in
/-- The value of the finite number `fin k`. -/
def F32.val (k : Int) : ℚ := k / 2 ^ 149

/-- `k` units have at most 24 significant bits. -/
def F32.Prec24 (k : Int) : Prop := ∃ (m : Int) (e : Nat), |m| < 2 ^ 24 ∧ k = m * 2 ^ e

set_option exponentiation.threshold 300 in
/-- `r` is the binary32 number IEEE 754 prescribes for the exact result `x` when rounding to nearest, ties to even (IEEE 754-2008, 4.3.1):
the nearest number with 24 significant bits (of two, the one that is an even multiple of their distance), which is replaced by
infinity if it is not below `2 ^ 128` in magnitude. -/
def F32.Rounds (x : ℚ) (r : F32) : Prop :=
  ∃ z : Int, Prec24 z ∧
    (∀ k, Prec24 k → |x - val z| ≤ |x - val k| ∧ (k ≠ z → |x - val z| = |x - val k| → 2 * |k - z| ∣ z)) ∧
    r = if 2 ^ 277 ≤ z then inf false else if z ≤ -2 ^ 277 then inf true else fin z

/-- The exact value of the formula of node_contractor.rs:57-59. -/
def exactRelevance (h q : ℚ) (level : Nat) (numShortcuts : Int) (numEdges : Nat) : ℚ :=
  1000 * (h * level + (q * numShortcuts + 1) / (numEdges + 1))

end FP
