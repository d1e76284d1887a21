import Verif.SpecFloat
import Verif.Proofs.Accuracy
/-! # Rounding to nearest, ties to even -/
set_option exponentiation.threshold 300
namespace FP
namespace F32

theorem rne_nearest (num : Nat) {d : Nat} (hd : 0 < d) (m : Nat) :
    ((num : Int) - (rne num d * d : Nat)).natAbs ≤ ((num : Int) - (m * d : Nat)).natAbs ∧
    (m ≠ rne num d → ((num : Int) - (rne num d * d : Nat)).natAbs = ((num : Int) - (m * d : Nat)).natAbs →
      2 ∣ rne num d ∧ ((m : Int) - rne num d).natAbs = 1) := by
  have h1 := Nat.div_add_mod num d
  have h2 := Nat.mod_lt num hd
  rw [Nat.mul_comm] at h1
  unfold rne
  simp only
  generalize num / d = q at h1 ⊢
  generalize num % d = r at h1 h2 ⊢
  have e1 : (q + 1) * d = q * d + d := by rw [Nat.add_mul, Nat.one_mul]
  have key : (m + 1 ≤ q ∧ m * d + d ≤ q * d) ∨ m = q ∨ m = q + 1 ∨ (q + 2 ≤ m ∧ q * d + 2 * d ≤ m * d) := by
    rcases Nat.lt_or_ge m q with h | h
    · left
      have := Nat.mul_le_mul_right d h
      rw [Nat.succ_mul] at this
      exact ⟨h, this⟩
    · rcases Nat.lt_or_ge m (q + 2) with h' | h'
      · omega
      · right; right; right
        have := Nat.mul_le_mul_right d h'
        rw [Nat.add_mul] at this
        exact ⟨h', this⟩
  split
  · rw [e1]
    rcases key with ⟨h, h'⟩ | h | h | ⟨h, h'⟩
    · generalize m * d = X at *; generalize q * d = Q at *; omega
    · subst h; generalize m * d = X at *; omega
    · subst h; rw [e1]; exact ⟨Nat.le_refl _, fun h => absurd rfl h⟩
    · generalize m * d = X at *; generalize q * d = Q at *; omega
  · rcases key with ⟨h, h'⟩ | h | h | ⟨h, h'⟩
    · generalize m * d = X at *; generalize q * d = Q at *; omega
    · subst h; exact ⟨Nat.le_refl _, fun h => absurd rfl h⟩
    · subst h; rw [e1]; generalize q * d = X at *; omega
    · generalize m * d = X at *; generalize q * d = Q at *; omega

theorem ulp_eq (num den : Nat) : ∃ e, ulp num den = 2 ^ e := ⟨_, rfl⟩

theorem roundNat_prec (num den : Nat) : ∃ m e, m < 2 ^ 24 ∧ roundNat num den = m * 2 ^ e := by
  have h := @rne_ulp_le num den
  unfold roundNat
  obtain ⟨e, he⟩ := ulp_eq num den
  rw [he] at h ⊢
  rcases Nat.lt_or_ge (rne num (den * 2 ^ e)) (2 ^ 24) with h' | h'
  · exact ⟨_, e, h', rfl⟩
  · exact ⟨1, 24 + e, by omega, by rw [Nat.le_antisymm h h', Nat.one_mul, Nat.pow_add]⟩

theorem roundNat_nearest {num den : Nat} (hd : 0 < den) {m e : Nat} (hm : m < 2 ^ 24) :
    ((num : Int) - (roundNat num den * den : Nat)).natAbs ≤ ((num : Int) - (m * 2 ^ e * den : Nat)).natAbs ∧
    (m * 2 ^ e ≠ roundNat num den →
      ((num : Int) - (roundNat num den * den : Nat)).natAbs = ((num : Int) - (m * 2 ^ e * den : Nat)).natAbs →
      2 * (((m * 2 ^ e : Nat) : Int) - roundNat num den).natAbs ∣ roundNat num den) := by
  have hu := ulp_pos num den
  have near : ∀ k, ((num : Int) - (roundNat num den * den : Nat)).natAbs ≤ ((num : Int) - (k * ulp num den * den : Nat)).natAbs ∧
      (k ≠ rne num (den * ulp num den) →
        ((num : Int) - (roundNat num den * den : Nat)).natAbs = ((num : Int) - (k * ulp num den * den : Nat)).natAbs →
        2 ∣ rne num (den * ulp num den) ∧ ((k : Int) - rne num (den * ulp num den)).natAbs = 1) := by
    intro k
    have h := rne_nearest num (Nat.mul_pos hd hu) k
    have e1 : rne num (den * ulp num den) * (den * ulp num den) = roundNat num den * den := by
      unfold roundNat; rw [Nat.mul_comm den, Nat.mul_assoc]
    have e2 : k * (den * ulp num den) = k * ulp num den * den := by rw [Nat.mul_comm den, Nat.mul_assoc]
    rw [e1, e2] at h
    exact h
  by_cases hdiv : ulp num den ∣ m * 2 ^ e
  · obtain ⟨k, hk⟩ := hdiv
    rw [Nat.mul_comm (ulp num den)] at hk
    rw [hk]
    refine ⟨(near k).1, fun hne heq => ?_⟩
    obtain ⟨h1, h2⟩ := (near k).2 (fun h => hne (by rw [h]; rfl)) heq
    have e3 : (((k * ulp num den : Nat) : Int) - roundNat num den).natAbs = ulp num den := by
      have : ((k * ulp num den : Nat) : Int) - roundNat num den = ((k : Int) - rne num (den * ulp num den)) * ulp num den := by
        unfold roundNat; push_cast; rw [Int.sub_mul]
      rw [this, Int.natAbs_mul, h2, Nat.one_mul, Int.natAbs_natCast]
    rw [e3]
    exact Nat.mul_dvd_mul h1 (Nat.dvd_refl _)
  · have hu' : ulp num den = 2 ^ (Nat.log2 (num / den) - 23) := rfl
    generalize hE : Nat.log2 (num / den) - 23 = E at hu'
    rw [hu'] at hdiv
    have hlt : e < E := by
      by_contra h
      exact hdiv (Nat.dvd_trans (Nat.pow_dvd_pow 2 (by omega)) (Nat.dvd_mul_left _ _))
    have hlog : Nat.log2 (num / den) = E + 23 := by omega
    have hne : num / den ≠ 0 := by
      intro h
      rw [h] at hlog
      simp at hlog
    have hB : 2 ^ (E + 23) ≤ num / den := by
      rw [← hlog]; exact Nat.log2_self_le hne
    have hB' : 2 ^ (E + 23) * den ≤ num := (Nat.le_div_iff_mul_le hd).1 hB
    have hk : m * 2 ^ e < 2 ^ (E + 23) := by
      calc m * 2 ^ e < 2 ^ 24 * 2 ^ e := Nat.mul_lt_mul_of_pos_right hm (Nat.two_pow_pos e)
        _ = 2 ^ (24 + e) := by rw [Nat.pow_add]
        _ ≤ 2 ^ (E + 23) := Nat.pow_le_pow_right (by omega) (by omega)
    have hk' : m * 2 ^ e * den < 2 ^ (E + 23) * den := Nat.mul_lt_mul_of_pos_right hk hd
    have hn := (near (2 ^ 23)).1
    rw [hu', ← Nat.pow_add, Nat.add_comm 23] at hn
    generalize m * 2 ^ e * den = K at *
    generalize 2 ^ (E + 23) * den = B at *
    generalize roundNat num den * den = Z at *
    constructor
    · omega
    · intro _ h; omega

theorem val_eq (k : Int) : val k = k / 2 ^ 149 := rfl

/-- The nearest number in units. -/
theorem roundInt_nearest (num : Int) {den : Nat} (hd : 0 < den) :
    Prec24 (roundInt num den) ∧ ∀ k, Prec24 k →
      (num - roundInt num den * den).natAbs ≤ (num - k * den).natAbs ∧
      (k ≠ roundInt num den → (num - roundInt num den * den).natAbs = (num - k * den).natAbs →
        2 * |k - roundInt num den| ∣ roundInt num den) := by
  -- for numbers that are not negative
  have pos : ∀ n : Nat, ∀ k, Prec24 k → ((n : Int) - (roundNat n den * den : Nat)).natAbs ≤ ((n : Int) - k * den).natAbs ∧
      (k ≠ roundNat n den → ((n : Int) - (roundNat n den * den : Nat)).natAbs = ((n : Int) - k * den).natAbs →
        2 * |k - roundNat n den| ∣ (roundNat n den : Int)) := by
    rintro n k ⟨m, e, hm, rfl⟩
    rcases Int.le_total 0 m with h0 | h0
    · obtain ⟨m, rfl⟩ := Int.eq_ofNat_of_zero_le h0
      have hm' : m < 2 ^ 24 := by
        rw [abs_of_nonneg h0] at hm
        exact_mod_cast hm
      obtain ⟨h1, h2⟩ := roundNat_nearest (num := n) hd (e := e) hm'
      have hc : ((m : Int) * 2 ^ e) = ((m * 2 ^ e : Nat) : Int) := by push_cast; rfl
      have hc' : ((m : Int) * 2 ^ e * den) = ((m * 2 ^ e * den : Nat) : Int) := by push_cast; rfl
      rw [hc', hc]
      refine ⟨h1, fun hne heq => ?_⟩
      have := h2 (fun h => hne (by exact_mod_cast h)) heq
      rw [Int.abs_eq_natAbs]
      exact_mod_cast this
    · by_cases hm0 : m = 0
      · subst hm0
        obtain ⟨h1, h2⟩ := roundNat_nearest (num := n) hd (m := 0) (e := 0) (by omega)
        have hc : ((0 : Int) * 2 ^ e) = ((0 * 2 ^ 0 : Nat) : Int) := by simp
        have hc' : ((0 : Int) * 2 ^ e * den) = ((0 * 2 ^ 0 * den : Nat) : Int) := by simp
        rw [hc', hc]
        refine ⟨h1, fun hne heq => ?_⟩
        have := h2 (fun h => hne (by exact_mod_cast h)) heq
        rw [Int.abs_eq_natAbs]
        exact_mod_cast this
      · have h1 := (roundNat_nearest (num := n) hd (m := 0) (e := 0) (by omega)).1
        have h2 : m * 2 ^ e * den < 0 := by
          have : (0 : Int) < 2 ^ e * den := mul_pos (by positivity) (by exact_mod_cast hd)
          rw [mul_assoc]
          exact mul_neg_of_neg_of_pos (by omega) this
        generalize m * 2 ^ e * (den : Int) = K at *
        generalize roundNat n den * den = Z at *
        simp only [Nat.zero_mul] at h1
        constructor
        · omega
        · intro _ h; omega
  have neg_prec : ∀ k, Prec24 k → Prec24 (-k) := by
    rintro k ⟨m, e, hm, rfl⟩
    exact ⟨-m, e, by rwa [abs_neg], by rw [neg_mul]⟩
  have prec : ∀ n : Nat, Prec24 (roundNat n den) := by
    intro n
    obtain ⟨m, e, hm, h⟩ := roundNat_prec n den
    refine ⟨m, e, ?_, by rw [h]; push_cast; rfl⟩
    rw [abs_of_nonneg (by omega)]
    exact_mod_cast hm
  unfold roundInt
  by_cases h0 : 0 ≤ num
  · rw [if_pos h0]
    obtain ⟨n, rfl⟩ := Int.eq_ofNat_of_zero_le h0
    simp only [Int.natAbs_natCast]
    refine ⟨prec n, fun k hk => ?_⟩
    have := pos n k hk
    push_cast at this
    exact this
  · rw [if_neg h0]
    obtain ⟨n, rfl⟩ : ∃ n : Nat, num = -(n : Int) := ⟨num.natAbs, by omega⟩
    rw [Int.natAbs_neg, Int.natAbs_natCast]
    refine ⟨neg_prec _ (prec n), fun k hk => ?_⟩
    have := pos n (-k) (neg_prec k hk)
    push_cast at this
    have e1 : (-(n : Int) - -(roundNat n den : Int) * den).natAbs = ((n : Int) - roundNat n den * den).natAbs := by
      rw [← Int.natAbs_neg]; congr 1; rw [neg_mul]; omega
    have e2 : (-(n : Int) - k * den).natAbs = ((n : Int) - -k * den).natAbs := by
      rw [← Int.natAbs_neg]; congr 1; rw [neg_mul]; omega
    rw [e1, e2]
    refine ⟨this.1, fun hne heq => ?_⟩
    have h3 := this.2 (fun h => hne (by omega)) heq
    have e3 : |k - -(roundNat n den : Int)| = |-k - roundNat n den| := by rw [← abs_neg]; congr 1; omega
    rw [e3]
    exact (Int.dvd_neg).2 h3

/-- `ofRat` rounds. -/
theorem ofRat_rounds (num : Int) {den : Nat} (hd : 0 < den) {x : ℚ} (hx : x = (num : ℚ) / den / 2 ^ 149) : Rounds x (ofRat num den) := by
  obtain ⟨h1, h2⟩ := roundInt_nearest num hd
  have hdq : (0 : ℚ) < den := by exact_mod_cast hd
  have dist : ∀ k : Int, |x - val k| = ((num - k * den).natAbs : ℚ) / (den * 2 ^ 149) := by
    intro k
    rw [Nat.cast_natAbs, hx, val_eq]
    have : (num : ℚ) / den / 2 ^ 149 - k / 2 ^ 149 = ((num - k * den : Int) : ℚ) / (den * 2 ^ 149) := by
      push_cast; field_simp
    rw [this, abs_div, abs_of_pos (by positivity : (0 : ℚ) < den * 2 ^ 149), Int.cast_abs]
  refine ⟨roundInt num den, h1, ?_, ?_⟩
  · intro k hk
    obtain ⟨h3, h4⟩ := h2 k hk
    rw [dist, dist]
    refine ⟨div_le_div_of_nonneg_right (by exact_mod_cast h3) (by positivity), fun hne heq => h4 hne ?_⟩
    have : ((num - roundInt num den * den).natAbs : ℚ) = ((num - k * den).natAbs : ℚ) := by
      have hpos : (den * 2 ^ 149 : ℚ) ≠ 0 := by positivity
      exact (div_left_inj' hpos).1 heq
    exact_mod_cast this
  · unfold ofRat
    rw [limit_eq]
    simp

/-- There is only one such number. -/
theorem Rounds.unique {x : ℚ} {r r' : F32} (h : Rounds x r) (h' : Rounds x r') : r = r' := by
  obtain ⟨z, h1, h2, rfl⟩ := h
  obtain ⟨z', h1', h2', rfl⟩ := h'
  by_cases hz : z' = z
  · rw [hz]
  · have e : |x - val z| = |x - val z'| := le_antisymm (h2 _ h1').1 (h2' _ h1).1
    have d1 := (h2 z' h1').2 hz e
    have d2 := (h2' z h1).2 (fun h => hz h.symm) e.symm
    rw [abs_sub_comm] at d2
    have d3 := Int.dvd_sub d2 d1
    have hne : z' - z ≠ 0 := sub_ne_zero.2 hz
    rw [← dvd_abs] at d3
    have hpos : 0 < |z' - z| := abs_pos.2 hne
    have := Int.le_of_dvd hpos d3
    omega

end F32
end FP
