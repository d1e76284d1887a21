import Verif.SpecFloat
import Mathlib.Tactic.Ring
import Mathlib.Tactic.Linarith
/-! # Rounding is monotone and accurate -/
set_option exponentiation.threshold 300
namespace FP
namespace F32


theorem rne_le {num den : Nat} : rne num den ≤ num / den + 1 := by
  unfold rne; simp only; split <;> omega

theorem le_rne {num den : Nat} : num / den ≤ rne num den := by
  unfold rne; simp only; split <;> omega

theorem div_le_div_cross {a b c d : Nat} (hb : 0 < b) (hd : 0 < d) (h : a * d ≤ c * b) : a / b ≤ c / d := by
  rw [Nat.le_div_iff_mul_le hd]
  have h1 : a / b * b ≤ a := Nat.div_mul_le_self a b
  have h2 : a / b * d * b ≤ c * b := by
    calc a / b * d * b = a / b * b * d := by ring
      _ ≤ a * d := Nat.mul_le_mul_right d h1
      _ ≤ c * b := h
  exact Nat.le_of_mul_le_mul_right h2 hb

theorem rne_mono {a b c d : Nat} (hb : 0 < b) (hd : 0 < d) (h : a * d ≤ c * b) : rne a b ≤ rne c d := by
  have hk := div_le_div_cross hb hd h
  by_cases hlt : a / b < c / d
  · exact Nat.le_trans rne_le (Nat.le_trans hlt le_rne)
  · have he : a / b = c / d := by omega
    have ha := Nat.div_add_mod a b
    have hc := Nat.div_add_mod c d
    have hr : a % b * d ≤ c % d * b := by
      rw [← he] at hc
      have : (b * (a / b) + a % b) * d ≤ (d * (a / b) + c % d) * b := by rw [ha, hc]; exact h
      have e1 : (b * (a / b) + a % b) * d = b * (a / b) * d + a % b * d := by ring
      have e2 : (d * (a / b) + c % d) * b = b * (a / b) * d + c % d * b := by ring
      omega
    unfold rne
    simp only
    rw [he]
    split
    · next h1 =>
      rw [if_pos]
      rcases h1 with h1 | ⟨h1, h2⟩
      · left
        have : b * d < 2 * (c % d) * b := by
          calc b * d < 2 * (a % b) * d := Nat.mul_lt_mul_of_pos_right h1 hd
            _ = 2 * (a % b * d) := by ring
            _ ≤ 2 * (c % d * b) := by omega
            _ = 2 * (c % d) * b := by ring
        rw [Nat.mul_comm b d] at this
        exact Nat.lt_of_mul_lt_mul_right this
      · have : d * b ≤ 2 * (c % d) * b := by
          calc d * b = b * d := by ring
            _ = 2 * (a % b) * d := by rw [h1]
            _ = 2 * (a % b * d) := by ring
            _ ≤ 2 * (c % d * b) := by omega
            _ = 2 * (c % d) * b := by ring
        have := Nat.le_of_mul_le_mul_right this hb
        by_cases hq : d < 2 * (c % d)
        · exact Or.inl hq
        · exact Or.inr ⟨by omega, h2⟩
    · split <;> omega

theorem ulp_pos (num den : Nat) : 0 < ulp num den := Nat.pow_pos (by omega)

/-- The rounded quotient has at most 24 bits. -/
theorem rne_ulp_le {num den : Nat} : rne num (den * ulp num den) ≤ 2 ^ 24 := by
  have h1 : num / (den * ulp num den) < 2 ^ 24 := by
    rw [← Nat.div_div_eq_div_mul, Nat.div_lt_iff_lt_mul (ulp_pos _ _)]
    unfold ulp
    rw [← Nat.pow_add]
    by_cases h0 : num / den = 0
    · rw [h0]; exact Nat.pow_pos (by omega)
    · exact Nat.lt_of_lt_of_le (Nat.lt_log2_self (n := num / den)) (Nat.pow_le_pow_right (by omega) (by omega))
  exact Nat.le_trans rne_le (by omega)

theorem log2_mono {a b : Nat} (h : a ≤ b) : Nat.log2 a ≤ Nat.log2 b := by
  by_cases ha : a = 0
  · subst ha; simp
  · rw [Nat.le_log2 (by omega)]
    exact Nat.le_trans (Nat.log2_self_le ha) h

theorem roundNat_mono {a b c d : Nat} (hb : 0 < b) (hd : 0 < d) (h : a * d ≤ c * b) : roundNat a b ≤ roundNat c d := by
  have hq := div_le_div_cross hb hd h
  have hl := log2_mono hq
  by_cases he : Nat.log2 (a / b) - 23 = Nat.log2 (c / d) - 23
  · have hu : ulp a b = ulp c d := by unfold ulp; rw [he]
    unfold roundNat
    rw [hu]
    refine Nat.mul_le_mul_right _ (rne_mono (Nat.mul_pos hb (ulp_pos _ _)) (Nat.mul_pos hd (ulp_pos _ _)) ?_)
    calc a * (d * ulp c d) = a * d * ulp c d := by ring
      _ ≤ c * b * ulp c d := Nat.mul_le_mul_right _ h
      _ = c * (b * ulp c d) := by ring
  · have hlt : Nat.log2 (a / b) - 23 < Nat.log2 (c / d) - 23 := by omega
    have h1 : roundNat a b ≤ 2 ^ 24 * ulp a b := Nat.mul_le_mul_right _ rne_ulp_le
    have h2 : 2 ^ 24 * ulp a b ≤ 2 ^ 23 * ulp c d := by
      unfold ulp
      rw [← Nat.pow_add, ← Nat.pow_add]
      exact Nat.pow_le_pow_right (by omega) (by omega)
    have h3 : 2 ^ 23 * ulp c d ≤ roundNat c d := by
      refine Nat.mul_le_mul_right _ (Nat.le_trans ?_ le_rne)
      rw [← Nat.div_div_eq_div_mul, Nat.le_div_iff_mul_le (ulp_pos _ _)]
      unfold ulp
      rw [← Nat.pow_add]
      have h0 : c / d ≠ 0 := by intro h0; rw [h0] at hlt; simp at hlt
      exact Nat.le_trans (Nat.pow_le_pow_right (by omega) (by omega)) (Nat.log2_self_le h0)
    omega

theorem roundInt_mono {a c : Int} {b d : Nat} (hb : 0 < b) (hd : 0 < d) (h : a * d ≤ c * b) : roundInt a b ≤ roundInt c d := by
  have hb' : (0 : Int) < b := by exact_mod_cast hb
  have hd' : (0 : Int) < d := by exact_mod_cast hd
  unfold roundInt
  by_cases ha : 0 ≤ a
  · have hc : 0 ≤ c := by
      by_contra hc
      have h1 : c * b < 0 := Int.mul_neg_of_neg_of_pos (by omega) hb'
      have h2 : 0 ≤ a * d := Int.mul_nonneg ha (by omega)
      omega
    rw [if_pos ha, if_pos hc]
    have : a.natAbs * d ≤ c.natAbs * b := by
      have e1 : (a.natAbs : Int) = a := by omega
      have e2 : (c.natAbs : Int) = c := by omega
      have : (a.natAbs : Int) * d ≤ c.natAbs * b := by rw [e1, e2]; exact h
      exact_mod_cast this
    exact_mod_cast roundNat_mono hb hd this
  · rw [if_neg ha]
    by_cases hc : 0 ≤ c
    · rw [if_pos hc]; omega
    · rw [if_neg hc]
      have : c.natAbs * b ≤ a.natAbs * d := by
        have e1 : (a.natAbs : Int) = -a := by omega
        have e2 : (c.natAbs : Int) = -c := by omega
        have : (c.natAbs : Int) * b ≤ a.natAbs * d := by
          rw [e1, e2, Int.neg_mul, Int.neg_mul]; omega
        exact_mod_cast this
      have := roundNat_mono hd hb this
      omega

/-- Position on the number line, infinities at the ends. -/
def key : F32 → Int
  | nan => 0
  | inf neg => if neg then -(limit : Int) else limit
  | fin k => k

@[simp] theorem key_fin (k : Int) : (fin k).key = k := rfl
@[simp] theorem key_top : (inf false).key = limit := rfl
@[simp] theorem key_bot : (inf true).key = -(limit : Int) := rfl

/-- The order of numbers that are not NaN. -/
def Le (x y : F32) : Prop := x ≠ nan ∧ y ≠ nan ∧ x.key ≤ y.key

/-- Not NaN, and finite numbers are within the range. -/
def Valid : F32 → Prop
  | nan => False
  | inf _ => True
  | fin k => -(limit : Int) < k ∧ k < limit

/-- Cut off at the infinities. -/
def clamp (z : Int) : Int := max (-(limit : Int)) (min z limit)

attribute [local irreducible] limit one

theorem limit_pos : (0 : Int) < limit := by decide +kernel

theorem key_ofRat (num : Int) (den : Nat) : (ofRat num den).key = clamp (roundInt num den) := by
  have := limit_pos
  unfold ofRat clamp
  simp only
  split
  · show (limit : Int) = _; omega
  · split
    · show -(limit : Int) = _; omega
    · show roundInt num den = _; omega

theorem ofRat_ne_nan (num : Int) (den : Nat) : ofRat num den ≠ nan := by
  unfold ofRat; simp only; split
  · simp
  · split <;> simp

theorem ofRat_zero (den : Nat) : ofRat 0 den = fin 0 := by
  have hp := limit_pos
  have : roundInt 0 den = 0 := by unfold roundInt roundNat rne ulp; simp
  unfold ofRat
  simp only
  rw [this, if_neg (by omega), if_neg (by omega)]

theorem clamp_mono {a b : Int} (h : a ≤ b) : clamp a ≤ clamp b := by unfold clamp; omega

theorem ofRat_le {a c : Int} {b d : Nat} (hb : 0 < b) (hd : 0 < d) (h : a * d ≤ c * b) : Le (ofRat a b) (ofRat c d) := by
  refine ⟨ofRat_ne_nan _ _, ofRat_ne_nan _ _, ?_⟩
  rw [key_ofRat, key_ofRat]
  exact clamp_mono (roundInt_mono hb hd h)

theorem ofRat_valid (num : Int) (den : Nat) : Valid (ofRat num den) := by
  unfold ofRat; simp only; split
  · trivial
  · split
    · trivial
    · exact ⟨by omega, by omega⟩

theorem one_pos : 0 < one := by decide +kernel

theorem ofInt_le {a b : Int} (h : a ≤ b) : Le (ofInt a) (ofInt b) := by
  refine ofRat_le (by omega) (by omega) ?_
  have := Int.mul_le_mul_of_nonneg_right h (show (0 : Int) ≤ (one : Int) by exact_mod_cast Nat.zero_le _)
  omega

theorem Le.refl {x : F32} (h : x ≠ nan) : Le x x := ⟨h, h, Int.le_refl _⟩
theorem Le.trans {x y z : F32} (h : Le x y) (h' : Le y z) : Le x z := ⟨h.1, h'.2.1, Int.le_trans h.2.2 h'.2.2⟩

theorem Valid.ne_nan {x : F32} (h : Valid x) : x ≠ nan := by rintro rfl; exact h

theorem Valid.bounds {x : F32} (h : Valid x) : -(limit : Int) ≤ x.key ∧ x.key ≤ limit := by
  have := limit_pos
  cases x with
  | nan => exact h.elim
  | inf a =>
    cases a with
    | false => rw [F32.key_top]; omega
    | true => rw [F32.key_bot]; omega
  | fin k => exact ⟨Int.le_of_lt h.1, Int.le_of_lt h.2⟩

theorem Valid.key_top {x : F32} (h : Valid x) : (limit : Int) ≤ x.key ↔ x = inf false := by
  have := limit_pos
  cases x with
  | nan => exact h.elim
  | inf a => cases a <;> simp; omega
  | fin k => simp only [key_fin]; have := h.2; constructor
             · intro; omega
             · intro h; cases h

theorem Valid.key_bot {x : F32} (h : Valid x) : x.key ≤ -(limit : Int) ↔ x = inf true := by
  have := limit_pos
  cases x with
  | nan => exact h.elim
  | inf a => cases a <;> simp; omega
  | fin k => simp only [key_fin]; have := h.1; constructor
             · intro; omega
             · intro h; cases h

theorem le_top {x : F32} (h : Valid x) : Le x (inf false) := ⟨h.ne_nan, by simp, by simpa using h.bounds.2⟩
theorem bot_le {x : F32} (h : Valid x) : Le (inf true) x := ⟨by simp, h.ne_nan, by simpa using h.bounds.1⟩

theorem add_inf_inf (a b : Bool) : add (inf a) (inf b) = if a = b then inf a else nan := rfl

theorem mul_inf_pos (a : Bool) {k : Int} (hk : 0 < k) : mul (inf a) (fin k) = inf a := by
  show (if k = 0 then nan else inf (a != decide (k < 0))) = inf a
  rw [if_neg (by omega), decide_eq_false (by omega)]
  simp

theorem div_fin_pos (a : Int) {d : Int} (hd : 0 < d) : div (fin a) (fin d) = ofRat (a * one) d.toNat := by
  show (if d = 0 then _ else _) = _
  rw [if_neg (by omega)]

theorem add_valid {x y : F32} (hx : Valid x) (hy : Valid y) (h : add x y ≠ nan) : Valid (add x y) := by
  cases x with
  | nan => exact hx.elim
  | inf a =>
    cases y with
    | nan => exact hy.elim
    | inf b =>
      rw [add_inf_inf] at h ⊢
      by_cases hab : a = b
      · rw [if_pos hab]; trivial
      · rw [if_neg hab] at h; exact absurd rfl h
    | fin k => trivial
  | fin k =>
    cases y with
    | nan => exact hy.elim
    | inf b => trivial
    | fin l => exact ofRat_valid _ _

theorem add_top {x : F32} (h : Valid x) (h2 : add (inf false) x ≠ nan) : add (inf false) x = inf false := by
  cases x with
  | nan => exact h.elim
  | inf b => cases b with
    | false => rfl
    | true => exact absurd rfl h2
  | fin k => rfl

theorem add_bot {x : F32} (h : Valid x) (h2 : add (inf true) x ≠ nan) : add (inf true) x = inf true := by
  cases x with
  | nan => exact h.elim
  | inf b => cases b with
    | true => rfl
    | false => exact absurd rfl h2
  | fin k => rfl

theorem add_comm (x y : F32) : add x y = add y x := by
  cases x <;> cases y <;> simp [add, Int.add_comm]
  next a b =>
    by_cases h : a = b
    · simp [h]
    · rw [if_neg h, if_neg (fun e => h e.symm)]

theorem add_le {x y x' y' : F32} (hx : Valid x) (hy : Valid y) (hx' : Valid x') (hy' : Valid y') (h1 : Le x x') (h2 : Le y y')
    (hn : add x y ≠ nan) (hn' : add x' y' ≠ nan) : Le (add x y) (add x' y') := by
  by_cases c1 : x' = inf false
  · subst c1; rw [add_top hy' hn']; exact le_top (add_valid hx hy hn)
  by_cases c2 : y' = inf false
  · subst c2; rw [add_comm] at hn'; rw [add_comm x', add_top hx' hn']; exact le_top (add_valid hx hy hn)
  by_cases c3 : x = inf true
  · subst c3; rw [add_bot hy hn]; exact bot_le (add_valid hx' hy' hn')
  by_cases c4 : y = inf true
  · subst c4; rw [add_comm] at hn; rw [add_comm x, add_bot hx hn]; exact bot_le (add_valid hx' hy' hn')
  have b1 := hx.bounds
  have b2 := hy.bounds
  have k1 := h1.2.2
  have k2 := h2.2.2
  have t1 : x ≠ inf false := by rintro rfl; exact c1 (hx'.key_top.1 (by simpa using k1))
  have t2 : y ≠ inf false := by rintro rfl; exact c2 (hy'.key_top.1 (by simpa using k2))
  have t3 : x' ≠ inf true := by rintro rfl; exact c3 (hx.key_bot.1 (by simpa using k1))
  have t4 : y' ≠ inf true := by rintro rfl; exact c4 (hy.key_bot.1 (by simpa using k2))
  have isFin : ∀ z : F32, Valid z → z ≠ inf false → z ≠ inf true → ∃ k, z = fin k := by
    intro z hz e1 e2
    cases z with
    | nan => exact hz.elim
    | inf a => cases a <;> simp at e1 e2
    | fin k => exact ⟨k, rfl⟩
  obtain ⟨a, rfl⟩ := isFin x hx t1 c3
  obtain ⟨b, rfl⟩ := isFin y hy t2 c4
  obtain ⟨a', rfl⟩ := isFin x' hx' c1 t3
  obtain ⟨b', rfl⟩ := isFin y' hy' c2 t4
  simp only [key_fin] at k1 k2
  exact ofRat_le (by omega) (by omega) (by omega)

/-- Multiplication by a positive number. -/
theorem mul_valid {x : F32} (hx : Valid x) {k : Int} (hk : 0 < k) : Valid (mul x (fin k)) := by
  cases x with
  | nan => exact hx.elim
  | inf a => rw [mul_inf_pos a hk]; trivial
  | fin l => exact ofRat_valid _ _

theorem mul_le {x y : F32} (hx : Valid x) (hy : Valid y) (h : Le x y) {k : Int} (hk : 0 < k) :
    Le (mul x (fin k)) (mul y (fin k)) := by
  have top : ∀ a, mul (inf a) (fin k) = inf a := fun a => mul_inf_pos a hk
  have k1 := h.2.2
  by_cases c1 : y = inf false
  · subst c1; rw [top]; exact le_top (mul_valid hx hk)
  by_cases c2 : x = inf true
  · subst c2; rw [top]; exact bot_le (mul_valid hy hk)
  cases x with
  | nan => exact hx.elim
  | inf a =>
    cases a with
    | true => exact absurd rfl c2
    | false => exact absurd (hy.key_top.1 (by simpa using k1)) c1
  | fin a =>
    cases y with
    | nan => exact hy.elim
    | inf b =>
      cases b with
      | false => exact absurd rfl c1
      | true => exact absurd (hx.key_bot.1 (by simpa using k1)) (by simp)
    | fin b =>
      simp only [key_fin] at k1
      refine ofRat_le one_pos one_pos ?_
      have := one_pos
      exact Int.mul_le_mul_of_nonneg_right (Int.mul_le_mul_of_nonneg_right k1 (by omega)) (by omega)

/-- Multiplying a finite number that is not negative. -/
theorem mul_fin_le {h a b : Int} (hh : 0 ≤ h) (hab : a ≤ b) : Le (mul (fin h) (fin a)) (mul (fin h) (fin b)) := by
  refine ofRat_le one_pos one_pos ?_
  have := one_pos
  exact Int.mul_le_mul_of_nonneg_right (Int.mul_le_mul_of_nonneg_left hab hh) (by omega)

theorem div_valid {x : F32} (hx : Valid x) {d : Int} (hd : 0 < d) : Valid (div x (fin d)) := by
  cases x with
  | nan => exact hx.elim
  | inf a => trivial
  | fin a => rw [div_fin_pos a hd]; exact ofRat_valid _ _

/-- Division: larger dividends that are not negative, smaller divisors. -/
theorem div_le {x y : F32} (hx : Valid x) (hy : Valid y) (h0 : 0 ≤ x.key) (h : Le x y) {d e : Int} (he : 0 < e) (hed : e ≤ d) :
    Le (div x (fin d)) (div y (fin e)) := by
  have k1 := h.2.2
  by_cases c1 : y = inf false
  · subst c1; exact le_top (div_valid hx (by omega))
  cases x with
  | nan => exact hx.elim
  | inf a =>
    cases a with
    | true => have := limit_pos; simp at h0; omega
    | false => exact absurd (hy.key_top.1 (by simpa using k1)) c1
  | fin a =>
    cases y with
    | nan => exact hy.elim
    | inf b =>
      cases b with
      | false => exact absurd rfl c1
      | true => have := limit_pos; simp at k1 h0; omega
    | fin b =>
      simp only [key_fin] at k1 h0
      rw [div_fin_pos a (by omega), div_fin_pos b he]
      refine ofRat_le (by omega) (by omega) ?_
      have e1 : ((e.toNat : Nat) : Int) = e := by omega
      have e2 : ((d.toNat : Nat) : Int) = d := by omega
      rw [e1, e2]
      have := one_pos
      calc a * one * e ≤ a * one * d := Int.mul_le_mul_of_nonneg_left hed (Int.mul_nonneg h0 (by omega))
        _ ≤ b * one * d := Int.mul_le_mul_of_nonneg_right (Int.mul_le_mul_of_nonneg_right k1 (by omega)) (by omega)

theorem toUsize_mono (P : Plat) {x y : F32} (hx : Valid x) (hy : Valid y) (h : Le x y) : x.toUsize P ≤ y.toUsize P := by
  have k1 := h.2.2
  by_cases c1 : y = inf false
  · subst c1
    cases x with
    | nan => exact hx.elim
    | inf a => cases a <;> simp [toUsize]
    | fin a => simp only [toUsize]; exact Nat.min_le_right _ _
  cases x with
  | nan => exact hx.elim
  | inf a =>
    cases a with
    | true => simp [toUsize]
    | false => exact absurd (hy.key_top.1 (by simpa using k1)) c1
  | fin a =>
    cases y with
    | nan => exact hy.elim
    | inf b =>
      cases b with
      | false => exact absurd rfl c1
      | true => exact absurd (hx.key_bot.1 (by simpa using k1)) (by simp)
    | fin b =>
      simp only [key_fin] at k1
      simp only [toUsize]
      have : a.toNat / one ≤ b.toNat / one := Nat.div_le_div_right (by omega)
      omega

/-- Integers of moderate size become finite numbers of the same sign. -/
theorem ofInt_fin {z : Int} (h0 : 0 ≤ z) (h : z ≤ 2 ^ 127) : ∃ k, ofInt z = fin k ∧ 0 ≤ k ∧ k < limit := by
  have hv := ofRat_valid (z * one) 1
  have h1 : Le (ofInt 0) (ofInt z) := ofInt_le h0
  have h2 : Le (ofInt z) (ofInt (2 ^ 127)) := ofInt_le h
  have e0 : (ofInt 0).key = 0 := by decide +kernel
  have e1 : (ofInt (2 ^ 127)).key < limit := by decide +kernel
  have k1 := h1.2.2
  have k2 := h2.2.2
  cases hz : ofInt z with
  | nan => exact absurd hz (ofRat_ne_nan _ _)
  | inf a =>
    rw [hz] at k1 k2
    cases a with
    | true => have := limit_pos; simp at k1; rw [e0] at k1; omega
    | false => rw [key_top] at k2; omega
  | fin k =>
    rw [hz] at k1 k2
    simp only [key_fin] at k1 k2
    refine ⟨k, rfl, ?_, ?_⟩
    · rw [e0] at k1; exact k1
    · exact Int.lt_of_le_of_lt k2 e1

end F32

open F32

theorem relevanceF32_mono (P : Plat) {h q : F32} (hh : h.NonNeg) (hq : q.NonNeg) {l l' : Nat} {s s' : Int} {e e' : Nat}
    (hl : l ≤ l') (hl' : l' ≤ 2 ^ 127) (hs0 : 0 ≤ s) (hs : s ≤ s') (hs' : s' ≤ 2 ^ 127) (he : e' ≤ e) (he' : e ≤ 2 ^ 127) :
    relevanceF32 P h q l s e ≤ relevanceF32 P h q l' s' e' := by
  obtain ⟨h, rfl, h0, h1⟩ := hh
  obtain ⟨q, rfl, q0, q1⟩ := hq
  have hle := ofInt_le (show (l : Int) ≤ l' by omega)
  have hse := ofInt_le hs
  have hee := ofInt_le (show (e' : Int) ≤ e by omega)
  obtain ⟨kl, el, l0, l1⟩ := ofInt_fin (z := l) (by omega) (by omega)
  obtain ⟨kl', el', l0', l1'⟩ := ofInt_fin (z := l') (by omega) (by omega)
  obtain ⟨ks, es, s0, s1⟩ := ofInt_fin (z := s) (by omega) (by omega)
  obtain ⟨ks', es', s0', s1'⟩ := ofInt_fin (z := s') (by omega) (by omega)
  obtain ⟨ke, ee, e0, e1⟩ := ofInt_fin (z := e) (by omega) (by omega)
  obtain ⟨ke', ee', e0', e1'⟩ := ofInt_fin (z := e') (by omega) (by omega)
  have o1 : ofInt 1 = fin one := by decide +kernel
  have o1000 : ofInt 1000 = fin (1000 * one) := by decide +kernel
  have op : (0 : Int) < one := by exact_mod_cast one_pos
  unfold relevanceF32
  simp only
  rw [el, el'] at hle
  rw [es, es'] at hse
  rw [ee, ee'] at hee
  rw [el, el', es, es', ee, ee', o1, o1000]
  have hl2 := hle.2.2
  have hs2 := hse.2.2
  have he2 := hee.2.2
  simp only [key_fin] at hl2 hs2 he2
  have zero_mul : ∀ a b : Int, 0 ≤ a → 0 ≤ b → 0 ≤ (mul (fin a) (fin b)).key := by
    intro a b ha hb
    have := (mul_fin_le (h := a) (a := 0) (b := b) ha hb).2.2
    have e : mul (fin a) (fin 0) = fin 0 := by
      show ofRat (a * 0) one = fin 0
      rw [Int.mul_zero]
      decide +kernel
    rw [e] at this
    simpa using this
  -- sums of numbers that are not negative
  have add_ok : ∀ x y : F32, Valid x → Valid y → 0 ≤ x.key → 0 ≤ y.key → add x y ≠ nan ∧ 0 ≤ (add x y).key := by
    intro x y hx hy x0 y0
    have hp := limit_pos
    have hn : add x y ≠ nan := by
      cases x with
      | nan => exact hx.elim
      | inf a =>
        cases a with
        | true => simp at x0; omega
        | false =>
          cases y with
          | nan => exact hy.elim
          | inf b =>
            cases b with
            | true => simp at y0; omega
            | false => simp [add]
          | fin k => simp [add]
      | fin a =>
        cases y with
        | nan => exact hy.elim
        | inf b => simp [add]
        | fin k => exact ofRat_ne_nan _ _
    refine ⟨hn, ?_⟩
    have hz : Valid (fin 0) := ⟨by omega, by omega⟩
    have := (add_le hz hz hx hy ⟨by simp, hx.ne_nan, by simpa using x0⟩ ⟨by simp, hy.ne_nan, by simpa using y0⟩
      (by decide +kernel) hn).2.2
    have e : add (fin 0) (fin 0) = fin 0 := by decide +kernel
    rw [e] at this
    simpa using this
  have vone : Valid (fin one) := ⟨by omega, by decide +kernel⟩
  have onepos : 0 ≤ (fin (one : Int)).key := by simp only [key_fin]; omega
  have vs : Valid (mul (fin q) (fin ks)) := ofRat_valid (q * ks) one
  have vs' : Valid (mul (fin q) (fin ks')) := ofRat_valid (q * ks') one
  have vl : Valid (mul (fin h) (fin kl)) := ofRat_valid (h * kl) one
  have vl' : Valid (mul (fin h) (fin kl')) := ofRat_valid (h * kl') one
  have n1 := add_ok (mul (fin q) (fin ks)) (fin one) vs vone (zero_mul _ _ q0 s0) onepos
  have n2 := add_ok (mul (fin q) (fin ks')) (fin one) vs' vone (zero_mul _ _ q0 s0') onepos
  have hnum := add_le vs vone vs' vone (mul_fin_le q0 hs2) (Le.refl (by simp)) n1.1 n2.1
  -- divisors
  have dv : ∀ k : Int, 0 ≤ k → k < limit → k ≤ ke → ∃ d, add (fin k) (fin one) = fin d ∧ 0 < d := by
    intro k k0 k1 k2
    have hm : Le (add (fin 0) (fin one)) (add (fin k) (fin one)) :=
      ofRat_le (a := 0 + one) (c := k + one) (b := 1) (d := 1) (by omega) (by omega) (by omega)
    have hM : Le (add (fin k) (fin one)) (add (ofInt (2 ^ 127)) (fin one)) := by
      refine add_le ⟨by omega, k1⟩ vone (ofRat_valid _ _) vone ?_ (Le.refl (by simp)) (ofRat_ne_nan _ _) (by decide +kernel)
      refine ⟨by simp, ofRat_ne_nan _ _, ?_⟩
      have := (ofInt_le (show (e : Int) ≤ 2 ^ 127 by omega)).2.2
      rw [ee] at this
      simp only [key_fin] at this ⊢
      exact Int.le_trans k2 this
    have a1 := hm.2.2
    have a2 := hM.2.2
    have a3 : (add (fin 0) (fin one)).key = one := by decide +kernel
    have a4 : (add (ofInt (2 ^ 127)) (fin one)).key < limit := by decide +kernel
    cases hz : add (fin k) (fin one) with
    | nan => exact absurd hz (ofRat_ne_nan _ _)
    | inf a =>
      rw [hz] at a1 a2
      cases a with
      | true => rw [a3] at a1; have := limit_pos; simp at a1; omega
      | false => rw [key_top] at a2; omega
    | fin d => rw [hz, a3] at a1; simp only [key_fin] at a1; exact ⟨d, rfl, by omega⟩
  obtain ⟨d, ed, d0⟩ := dv ke e0 e1 (Int.le_refl _)
  obtain ⟨d', ed', d0'⟩ := dv ke' e0' e1' he2
  have hdd : d' ≤ d := by
    have := (ofRat_le (a := ke' + one) (c := ke + one) (b := 1) (d := 1) (by omega) (by omega) (by omega)).2.2
    have u1 : ofRat (ke' + one) 1 = fin d' := ed'
    have u2 : ofRat (ke + one) 1 = fin d := ed
    rw [u1, u2] at this
    exact this
  rw [ed, ed']
  have v1 := add_valid vs vone n1.1
  have v2 := add_valid vs' vone n2.1
  have hquot := div_le v1 v2 n1.2 hnum d0' hdd
  have w1 := div_valid v1 d0
  have w2 := div_valid v2 d0'
  have q1' : 0 ≤ (div (add (mul (fin q) (fin ks)) (fin one)) (fin d)).key := by
    have hz : Valid (fin 0) := ⟨by omega, by omega⟩
    have := (div_le (x := fin 0) hz v1 (by simp) ⟨by simp, n1.1, by simpa using n1.2⟩ d0 (Int.le_refl d)).2.2
    have e : div (fin 0) (fin d) = fin 0 := by
      rw [div_fin_pos 0 d0, Int.zero_mul, ofRat_zero]
    rw [e] at this
    simpa using this
  have q2' : 0 ≤ (div (add (mul (fin q) (fin ks')) (fin one)) (fin d')).key := Int.le_trans q1' hquot.2.2
  have m1 := add_ok _ _ vl w1 (zero_mul _ _ h0 l0) q1'
  have m2 := add_ok _ _ vl' w2 (zero_mul _ _ h0 l0') q2'
  have hsum := add_le vl w1 vl' w2 (mul_fin_le h0 hl2) hquot m1.1 m2.1
  have z1 := add_valid vl w1 m1.1
  have z2 := add_valid vl' w2 m2.1
  have k1000 : (0 : Int) < 1000 * one := by omega
  exact toUsize_mono P (mul_valid z1 k1000) (mul_valid z2 k1000) (mul_le z1 z2 hsum k1000)

end FP
