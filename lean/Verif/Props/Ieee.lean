import Verif.Proofs.Ieee
import Verif.Model.TestSuite
import Mathlib.Data.Rat.Floor
import Mathlib.Algebra.Order.Floor.Semifield
/-!
# The numbers behind the priorities

C65 is about what the rounding of `f32` does to priorities. Here the operations are compared with IEEE 754: every one of them returns
the exact result, rounded to the nearest number with ties to the even one.
-/
set_option autoImplicit false
set_option exponentiation.threshold 300
namespace FP
namespace Props
open F32

/-- **C102** There is only one way to round a number. -/
theorem C102_one_result {x : ℚ} {r r' : F32} (h : Rounds x r) (h' : Rounds x r') : r = r' := h.unique h'

/-- **C102** `as f32` on integers -/
theorem C102_of_int (z : Int) : Rounds z (ofInt z) := by
  refine ofRat_rounds _ (by omega) ?_
  push_cast
  rw [one_rat]
  field_simp

-- ties: 2^24 + 1 is rounded down, 2^24 + 3 is rounded up; 2^24 and 2^24 + 4 are even multiples of the distance 2
example : Rounds 16777217 (fin (16777216 * 2 ^ 149)) ∧ Rounds 16777219 (fin (16777220 * 2 ^ 149)) := by
  have h1 := C102_of_int 16777217
  have h2 := C102_of_int 16777219
  rw [show ofInt 16777217 = fin (16777216 * 2 ^ 149) by decide +kernel] at h1
  rw [show ofInt 16777219 = fin (16777220 * 2 ^ 149) by decide +kernel] at h2
  exact ⟨by exact_mod_cast h1, by exact_mod_cast h2⟩

-- beyond the finite range
example : Rounds (2 ^ 128) (inf false) := by
  have h := C102_of_int (2 ^ 128)
  rw [show ofInt (2 ^ 128) = inf false by decide +kernel] at h
  exact_mod_cast h

/-- **C102** `*` -/
theorem C102_mul (a b : Int) : Rounds (val a * val b) (mul (fin a) (fin b)) := by
  refine ofRat_rounds _ F32.one_pos ?_
  push_cast
  rw [one_rat, val_eq, val_eq]
  field_simp

/-- **C102** `+` -/
theorem C102_add (a b : Int) : Rounds (val a + val b) (add (fin a) (fin b)) := by
  refine ofRat_rounds _ (by omega) ?_
  push_cast
  rw [val_eq, val_eq]
  field_simp

/-- **C102** `/` -/
theorem C102_div (a : Int) {b : Int} (hb : 0 < b) : Rounds (val a / val b) (div (fin a) (fin b)) := by
  rw [div_fin_pos a hb]
  refine ofRat_rounds _ (by omega) ?_
  have hbq : (0 : ℚ) < b := by exact_mod_cast hb
  have : ((b.toNat : Nat) : ℚ) = b := by
    have : ((b.toNat : Nat) : Int) = b := Int.toNat_of_nonneg (by omega)
    exact_mod_cast this
  push_cast
  rw [this, one_rat, val_eq, val_eq]
  field_simp

/-- **C102** The literal `0.1` -/
theorem C102_tenth : Rounds (1 / 10) tenth := by
  refine ofRat_rounds _ (by omega) ?_
  push_cast
  rw [one_rat]
  norm_num

-- what `0.1` really is
example : ¬ Rounds (1 / 10) (fin (13421772 * 2 ^ 122)) := by
  intro h
  have := C102_one_result C102_tenth h
  revert this
  decide +kernel

/-- **C102** `as usize` -/
theorem C102_to_usize (P : Plat) (k : Int) : toUsize P (fin k) = min ⌊val k⌋₊ P.umax := by
  show min (k.toNat / one) P.umax = _
  congr 1
  rcases Int.le_total 0 k with h | h
  · obtain ⟨n, rfl⟩ := Int.eq_ofNat_of_zero_le h
    have : val (n : Int) = (n : ℚ) / (one : Nat) := by rw [val_eq, one_rat]; push_cast; rfl
    rw [this, Nat.floor_div_eq_div]
    rfl
  · have h1 : val k ≤ 0 := by
      rw [val_eq]
      have : (k : ℚ) ≤ 0 := by exact_mod_cast h
      exact div_nonpos_of_nonpos_of_nonneg this (by positivity)
    rw [Nat.floor_of_nonpos h1, Int.toNat_eq_zero.2 h, Nat.zero_div]

/-- **C102** `>` -/
theorem C102_greater (a b : Int) : F32.gt (fin a) (fin b) = true ↔ val b < val a := by
  show decide (b < a) = true ↔ _
  rw [decide_eq_true_iff, val_eq, val_eq, div_lt_div_iff_of_pos_right (by positivity)]
  exact_mod_cast Iff.rfl

/-- **C102** NaN and the infinities: an operation on NaN gives NaN, which is 0 as `usize` and not greater than anything; so do `∞ - ∞`,
`∞ * 0`, `∞ / ∞` and `0 / 0`. Otherwise infinities keep or multiply their signs. -/
theorem C102_special (P : Plat) (x : F32) (a b : Bool) (k : Int) :
    (mul nan x = nan ∧ mul x nan = nan ∧ add nan x = nan ∧ add x nan = nan ∧ div nan x = nan ∧ div x nan = nan) ∧
    (F32.gt nan x = false ∧ F32.gt x nan = false ∧ toUsize P nan = 0 ∧ toUsize P (inf true) = 0 ∧ toUsize P (inf false) = P.umax) ∧
    (add (inf a) (inf a) = inf a ∧ add (inf a) (inf !a) = nan ∧ add (inf a) (fin k) = inf a ∧ add (fin k) (inf a) = inf a) ∧
    (mul (inf a) (inf b) = inf (xor a b) ∧ mul (inf a) (fin 0) = nan ∧ mul (fin 0) (inf a) = nan ∧
      (0 < k → mul (inf a) (fin k) = inf a ∧ mul (fin k) (inf a) = inf a) ∧
      (k < 0 → mul (inf a) (fin k) = inf !a ∧ mul (fin k) (inf a) = inf !a)) ∧
    (div (inf a) (inf b) = nan ∧ div (fin k) (inf a) = fin 0 ∧ (0 ≤ k → div (inf a) (fin k) = inf a) ∧ div (fin 0) (fin 0) = nan ∧
      (0 < k → div (fin k) (fin 0) = inf false) ∧ (k < 0 → div (fin k) (fin 0) = inf true)) ∧
    (F32.gt (inf false) (fin k) = true ∧ F32.gt (fin k) (inf true) = true ∧ F32.gt (inf true) (fin k) = false ∧
      F32.gt (fin k) (inf false) = false ∧ F32.gt (inf false) (inf true) = true ∧ F32.gt (inf true) (inf false) = false ∧
      F32.gt (inf a) (inf a) = false) := by
  have m1 : ∀ k : Int, mul (inf a) (fin k) = if k = 0 then nan else inf (a != decide (k < 0)) := fun _ => rfl
  have m2 : ∀ k : Int, mul (fin k) (inf a) = if k = 0 then nan else inf (a != decide (k < 0)) := fun _ => rfl
  have d1 : ∀ k : Int, div (fin k) (fin 0) = if k = 0 then nan else inf (decide (k < 0)) := fun _ => rfl
  refine ⟨?_, ?_, ?_, ?_, ?_, ?_⟩
  · cases x <;> exact ⟨rfl, rfl, rfl, rfl, rfl, rfl⟩
  · cases x <;> exact ⟨rfl, rfl, rfl, rfl, rfl⟩
  · cases a <;> exact ⟨rfl, rfl, rfl, rfl⟩
  · refine ⟨by cases a <;> cases b <;> rfl, rfl, rfl, fun h => ?_, fun h => ?_⟩
    · rw [m1, m2, if_neg (by omega), decide_eq_false (by omega)]
      cases a <;> exact ⟨rfl, rfl⟩
    · rw [m1, m2, if_neg (by omega), decide_eq_true (by omega)]
      cases a <;> exact ⟨rfl, rfl⟩
  · refine ⟨rfl, rfl, fun _ => rfl, rfl, fun h => ?_, fun h => ?_⟩
    · rw [d1, if_neg (by omega), decide_eq_false (by omega)]
    · rw [d1, if_neg (by omega), decide_eq_true (by omega)]
  · cases a <;> exact ⟨rfl, rfl, rfl, rfl, rfl, rfl, rfl⟩

/-- **C102** The priority of a node, operation by operation, as long as nothing overflows: `h * level + (q * shortcuts + 1) / (edges + 1)`
times 1000, every intermediate result rounded, and the final one cut off. -/
theorem C102_priority (P : Plat) {h q L S E a b c d f r t : Int} {level : Nat} {shortcuts : Int} {edges : Nat}
    (hL : Rounds level (fin L)) (hS : Rounds shortcuts (fin S)) (hE : Rounds edges (fin E))
    (ha : Rounds (val h * val L) (fin a)) (hb : Rounds (val q * val S) (fin b)) (hc : Rounds (val b + 1) (fin c))
    (hd : Rounds (val E + 1) (fin d)) (hpos : 0 < d) (hf : Rounds (val c / val d) (fin f)) (hr : Rounds (val a + val f) (fin r))
    (ht : Rounds (val r * 1000) (fin t)) : relevanceF32 P (fin h) (fin q) level shortcuts edges = min ⌊val t⌋₊ P.umax := by
  have e1 : ofInt 1 = fin (2 ^ 149) := by decide +kernel
  have e1000 : ofInt 1000 = fin (1000 * 2 ^ 149) := by decide +kernel
  have v1 : val (2 ^ 149) = 1 := by rw [val_eq]; norm_num
  have v1000 : val (1000 * 2 ^ 149) = 1000 := by rw [val_eq]; norm_num
  have iL : ofInt (level : Int) = fin L := (C102_of_int level).unique (by exact_mod_cast hL)
  have iS : ofInt shortcuts = fin S := (C102_of_int shortcuts).unique hS
  have iE : ofInt (edges : Int) = fin E := (C102_of_int edges).unique (by exact_mod_cast hE)
  have ia : mul (fin h) (fin L) = fin a := (C102_mul h L).unique ha
  have ib : mul (fin q) (fin S) = fin b := (C102_mul q S).unique hb
  have ic : add (fin b) (fin (2 ^ 149)) = fin c := (C102_add b (2 ^ 149)).unique (by rw [v1]; exact hc)
  have id : add (fin E) (fin (2 ^ 149)) = fin d := (C102_add E (2 ^ 149)).unique (by rw [v1]; exact hd)
  have i5 : div (fin c) (fin d) = fin f := (C102_div c hpos).unique hf
  have ir : add (fin a) (fin f) = fin r := (C102_add a f).unique hr
  have it : mul (fin r) (fin (1000 * 2 ^ 149)) = fin t := (C102_mul r (1000 * 2 ^ 149)).unique (by rw [v1000]; exact ht)
  unfold relevanceF32
  rw [iL, iS, iE, e1, e1000]
  simp only
  rw [ia, ib, ic, id, i5, ir, it]
  exact C102_to_usize P t

-- level 3, two shortcuts, six edges, the default factors 0.1 and 1: 1000 * (0.3 + 3 / 7) is about 728.57
example : relevanceF32 debug64 (fin (13421773 * 2 ^ 122)) (fin (2 ^ 149)) 3 2 6 =
    min ⌊val 519925932755415966419768939353187585034763108352⌋₊ debug64.umax := by
  have v1 : val (2 ^ 149) = 1 := by rw [val_eq]; norm_num
  have v1000 : val (1000 * 2 ^ 149) = 1000 := by rw [val_eq]; norm_num
  refine C102_priority debug64 (L := 3 * 2 ^ 149) (S := 2 * 2 ^ 149) (E := 6 * 2 ^ 149)
    (a := 214087162412953155182204482001789456251617280) (b := 2 * 2 ^ 149) (c := 3 * 2 ^ 149) (d := 7 * 2 ^ 149)
    (f := 305838794332369679163726131519307952722804736) (r := 519925935477674901787276647060184444488908800)
    ?_ ?_ ?_ ?_ ?_ ?_ ?_ (by norm_num) ?_ ?_ ?_
  · have h := C102_of_int 3
    rw [show ofInt 3 = fin (3 * 2 ^ 149) by decide +kernel] at h
    exact_mod_cast h
  · have h := C102_of_int 2
    rw [show ofInt 2 = fin (2 * 2 ^ 149) by decide +kernel] at h
    exact_mod_cast h
  · have h := C102_of_int 6
    rw [show ofInt 6 = fin (6 * 2 ^ 149) by decide +kernel] at h
    exact_mod_cast h
  · have h := C102_mul (13421773 * 2 ^ 122) (3 * 2 ^ 149)
    rwa [show mul (fin (13421773 * 2 ^ 122)) (fin (3 * 2 ^ 149)) = fin 214087162412953155182204482001789456251617280
      by decide +kernel] at h
  · have h := C102_mul (2 ^ 149) (2 * 2 ^ 149)
    rwa [show mul (fin (2 ^ 149)) (fin (2 * 2 ^ 149)) = fin (2 * 2 ^ 149) by decide +kernel] at h
  · have h := C102_add (2 * 2 ^ 149) (2 ^ 149)
    rwa [show add (fin (2 * 2 ^ 149)) (fin (2 ^ 149)) = fin (3 * 2 ^ 149) by decide +kernel, v1] at h
  · have h := C102_add (6 * 2 ^ 149) (2 ^ 149)
    rwa [show add (fin (6 * 2 ^ 149)) (fin (2 ^ 149)) = fin (7 * 2 ^ 149) by decide +kernel, v1] at h
  · have h := C102_div (3 * 2 ^ 149) (b := 7 * 2 ^ 149) (by norm_num)
    rwa [show div (fin (3 * 2 ^ 149)) (fin (7 * 2 ^ 149)) = fin 305838794332369679163726131519307952722804736 by decide +kernel] at h
  · have h := C102_add 214087162412953155182204482001789456251617280 305838794332369679163726131519307952722804736
    rwa [show add (fin 214087162412953155182204482001789456251617280) (fin 305838794332369679163726131519307952722804736) =
      fin 519925935477674901787276647060184444488908800 by decide +kernel] at h
  · have h := C102_mul 519925935477674901787276647060184444488908800 (1000 * 2 ^ 149)
    rwa [show mul (fin 519925935477674901787276647060184444488908800) (fin (1000 * 2 ^ 149)) =
      fin 519925932755415966419768939353187585034763108352 by decide +kernel, v1000] at h
-- which is
example : relevanceF32 debug64 (fin (13421773 * 2 ^ 122)) (fin (2 ^ 149)) 3 2 6 = 728 := by decide +kernel

end Props
end FP
