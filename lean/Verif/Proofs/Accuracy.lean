import Verif.Proofs.Float32
import Mathlib.Algebra.Order.Field.Rat
import Mathlib.Tactic.FieldSimp
import Mathlib.Tactic.Positivity
import Mathlib.Tactic.NormNum
/-! # The priority is close to the exact value of the formula -/
namespace FP
namespace F32

set_option exponentiation.threshold 300

attribute [local irreducible] limit one

theorem rne_err (num : Nat) {d : Nat} (hd : 0 < d) : 2 * num ≤ 2 * (rne num d * d) + d ∧ 2 * (rne num d * d) ≤ 2 * num + d := by
  have h1 := Nat.div_add_mod num d
  have h2 := Nat.mod_lt num hd
  rw [Nat.mul_comm] at h1
  unfold rne
  simp only
  split
  · rw [Nat.add_mul, Nat.one_mul]; omega
  · omega

/-- Rounding changes a number in the normal range by at most one part in `2 ^ 24`. -/
theorem roundNat_err {num den : Nat} (hd : 0 < den) (h : 2 ^ 23 * den ≤ num) :
    2 ^ 24 * num ≤ 2 ^ 24 * (roundNat num den * den) + num ∧ 2 ^ 24 * (roundNat num den * den) ≤ 2 ^ 24 * num + num := by
  have hu := ulp_pos num den
  have hbig : 2 ^ 23 * (den * ulp num den) ≤ num := by
    have hq : 2 ^ 23 ≤ num / den := (Nat.le_div_iff_mul_le hd).2 h
    have hlog : 23 ≤ Nat.log2 (num / den) := (Nat.le_log2 (by omega)).2 hq
    have : 2 ^ 23 * ulp num den ≤ num / den := by
      unfold ulp
      rw [← Nat.pow_add]
      refine Nat.le_trans (Nat.pow_le_pow_right (by omega) (by omega)) (Nat.log2_self_le (n := num / den) (by omega))
    calc 2 ^ 23 * (den * ulp num den) = 2 ^ 23 * ulp num den * den := by ring
      _ ≤ num / den * den := Nat.mul_le_mul_right _ this
      _ ≤ num := Nat.div_mul_le_self _ _
  have he := rne_err num (Nat.mul_pos hd hu)
  have e : roundNat num den * den = rne num (den * ulp num den) * (den * ulp num den) := by unfold roundNat; ring
  rw [e]
  omega

/-- The largest relative error of one operation. -/
def eps : ℚ := 1 / 2 ^ 24

/-- `x` is between `a * y` and `b * y`. -/
def Nr (a b x y : ℚ) : Prop := a * y ≤ x ∧ x ≤ b * y

theorem Nr.mul {a b c d x y x' y' : ℚ} (h : Nr a b x y) (h' : Nr c d x' y') (ha : 0 ≤ a) (hc : 0 ≤ c)
    (hy : 0 ≤ y) (hy' : 0 ≤ y') : Nr (a * c) (b * d) (x * x') (y * y') := by
  have h1 : 0 ≤ a * y := mul_nonneg ha hy
  have h2 : 0 ≤ c * y' := mul_nonneg hc hy'
  constructor
  · calc a * c * (y * y') = (a * y) * (c * y') := by ring
      _ ≤ x * x' := mul_le_mul h.1 h'.1 h2 (le_trans h1 h.1)
  · calc x * x' ≤ (b * y) * (d * y') := mul_le_mul h.2 h'.2 (le_trans h2 h'.1) (le_trans (le_trans h1 h.1) h.2)
      _ = b * d * (y * y') := by ring

theorem Nr.weaken {a b c d x y : ℚ} (h : Nr a b x y) (hy : 0 ≤ y) (h1 : c ≤ a) (h2 : b ≤ d) : Nr c d x y :=
  ⟨le_trans (mul_le_mul_of_nonneg_right h1 hy) h.1, le_trans h.2 (mul_le_mul_of_nonneg_right h2 hy)⟩

theorem Nr.add {a b x y x' y' : ℚ} (h : Nr a b x y) (h' : Nr a b x' y') : Nr a b (x + x') (y + y') := by
  constructor
  · rw [mul_add]; exact add_le_add h.1 h'.1
  · rw [mul_add]; exact add_le_add h.2 h'.2

theorem Nr.trans {a b c d x y z : ℚ} (h : Nr a b x y) (h' : Nr c d y z) (ha : 0 ≤ a) (hb : 0 ≤ b) : Nr (a * c) (b * d) x z := by
  constructor
  · calc a * c * z = a * (c * z) := by ring
      _ ≤ a * y := mul_le_mul_of_nonneg_left h'.1 ha
      _ ≤ x := h.1
  · calc x ≤ b * y := h.2
      _ ≤ b * (d * z) := mul_le_mul_of_nonneg_left h'.2 hb
      _ = b * d * z := by ring

theorem Nr.div {a b c d x y x' y' : ℚ} (h : Nr a b x y) (h' : Nr c d x' y') (ha : 0 ≤ a) (hc : 0 < c)
    (hy : 0 ≤ y) (hy' : 0 < y') (hd : 0 < d) : Nr (a / d) (b / c) (x / x') (y / y') := by
  have hx' : 0 < x' := lt_of_lt_of_le (mul_pos hc hy') h'.1
  have h1 : 0 ≤ a * y := mul_nonneg ha hy
  have hb : 0 ≤ b * y := le_trans (le_trans h1 h.1) h.2
  constructor
  · rw [div_mul_div_comm, div_le_div_iff₀ (mul_pos hd hy') hx']
    calc a * y * x' ≤ a * y * (d * y') := mul_le_mul_of_nonneg_left h'.2 h1
      _ ≤ x * (d * y') := mul_le_mul_of_nonneg_right h.1 (le_of_lt (mul_pos hd hy'))
  · rw [div_mul_div_comm, div_le_div_iff₀ hx' (mul_pos hc hy')]
    calc x * (c * y') ≤ b * y * (c * y') := mul_le_mul_of_nonneg_right h.2 (le_of_lt (mul_pos hc hy'))
      _ ≤ b * y * x' := mul_le_mul_of_nonneg_left h'.1 hb

theorem Nr.rfl' {x : ℚ} : Nr 1 1 x x := ⟨by linarith, by linarith⟩

theorem one_rat : ((one : Nat) : ℚ) = 2 ^ 149 := by unfold one; push_cast; rfl
theorem limit_eq : limit = 2 ^ 277 := by unfold limit; rfl

/-- Rounding a number in the normal range. -/
theorem ofRat_near {num : Int} {den : Nat} (hd : 0 < den) {y : ℚ} (hy : (num : ℚ) / den / 2 ^ 149 = y)
    (h0 : 0 ≤ y) (hlo : y = 0 ∨ 1 / 2 ^ 126 ≤ y) (hhi : y ≤ 2 ^ 120) :
    ∃ k, ofRat num den = fin k ∧ 0 ≤ k ∧ Nr (1 - eps) (1 + eps) (val k) y := by
  have hdq : (0 : ℚ) < den := by exact_mod_cast hd
  have hnum : (num : ℚ) = y * 2 ^ 149 * den := by rw [← hy]; field_simp
  have hn0 : 0 ≤ num := by
    have : (0 : ℚ) ≤ num := by rw [hnum]; positivity
    exact_mod_cast this
  rcases hlo with hz | hlo
  · have : num = 0 := by
      have : (num : ℚ) = 0 := by rw [hnum, hz]; ring
      exact_mod_cast this
    subst this
    refine ⟨0, ofRat_zero den, Int.le_refl _, ?_⟩
    rw [hz]
    constructor <;> simp [val]
  · obtain ⟨m, rfl⟩ := Int.eq_ofNat_of_zero_le hn0
    have hbig : 2 ^ 23 * den ≤ m := by
      have : (2 ^ 23 * den : ℚ) ≤ m := by
        have e : ((m : Int) : ℚ) = (m : ℚ) := by push_cast; rfl
        rw [← e, hnum]
        have : (2 : ℚ) ^ 23 = 1 / 2 ^ 126 * 2 ^ 149 := by norm_num
        rw [this]
        gcongr
      exact_mod_cast this
    obtain ⟨e1, e2⟩ := roundNat_err hd hbig
    have q1 : (2 ^ 24 * m : ℚ) ≤ 2 ^ 24 * (roundNat m den * den) + m := by exact_mod_cast e1
    have q2 : (2 ^ 24 * (roundNat m den * den) : ℚ) ≤ 2 ^ 24 * m + m := by exact_mod_cast e2
    have hm : (m : ℚ) = y * 2 ^ 149 * den := by
      rw [← hnum]; push_cast; rfl
    have b1 : (1 - eps) * y ≤ (roundNat m den : ℚ) / 2 ^ 149 := by
      rw [le_div_iff₀ (by positivity)]
      have : (1 - eps) * y * 2 ^ 149 * den ≤ roundNat m den * den := by
        unfold eps
        rw [hm] at q1
        linarith
      exact le_of_mul_le_mul_right this hdq
    have b2 : (roundNat m den : ℚ) / 2 ^ 149 ≤ (1 + eps) * y := by
      rw [div_le_iff₀ (by positivity)]
      have : (roundNat m den * den : ℚ) ≤ (1 + eps) * y * 2 ^ 149 * den := by
        unfold eps
        rw [hm] at q2
        linarith
      exact le_of_mul_le_mul_right this hdq
    have hlt : roundNat m den < limit := by
      rw [limit_eq]
      have : (roundNat m den : ℚ) < 2 ^ 277 := by
        rw [div_le_iff₀ (by positivity)] at b2
        refine lt_of_le_of_lt b2 ?_
        calc (1 + eps) * y * 2 ^ 149 ≤ (1 + eps) * 2 ^ 120 * 2 ^ 149 := by
              have : (0 : ℚ) ≤ 1 + eps := by unfold eps; norm_num
              gcongr
          _ < 2 ^ 277 := by unfold eps; norm_num
      exact_mod_cast this
    have hr : roundInt (m : Int) den = roundNat m den := by
      unfold roundInt; rw [if_pos (by omega)]; simp
    refine ⟨roundNat m den, ?_, by omega, ?_⟩
    · unfold ofRat
      simp only
      rw [hr, if_neg (by omega), if_neg (by omega)]
    · unfold val
      push_cast
      exact ⟨b1, b2⟩

theorem eps_pos : 0 < 1 - eps := by unfold eps; norm_num

theorem ofInt_near {z : Int} (h0 : 0 ≤ z) (h : z ≤ 2 ^ 120) : ∃ k, ofInt z = fin k ∧ 0 ≤ k ∧ Nr (1 - eps) (1 + eps) (val k) z := by
  have hq : (0 : ℚ) ≤ z := by exact_mod_cast h0
  refine ofRat_near (by omega) ?_ hq ?_ (by exact_mod_cast h)
  · push_cast
    rw [one_rat]
    field_simp
  · by_cases hz : z = 0
    · left; exact_mod_cast hz
    · right
      have : (1 : ℚ) ≤ z := by exact_mod_cast (by omega : (1 : Int) ≤ z)
      refine le_trans ?_ this
      norm_num

theorem mul_near {a b : Int} {y : ℚ} (hy : val a * val b = y) (h0 : 0 ≤ y) (hlo : y = 0 ∨ 1 / 2 ^ 126 ≤ y) (hhi : y ≤ 2 ^ 120) :
    ∃ k, mul (fin a) (fin b) = fin k ∧ 0 ≤ k ∧ Nr (1 - eps) (1 + eps) (val k) y := by
  refine ofRat_near one_pos ?_ h0 hlo hhi
  push_cast
  rw [one_rat, ← hy]
  unfold val
  field_simp

theorem add_near {a b : Int} {y : ℚ} (hy : val a + val b = y) (h0 : 0 ≤ y) (hlo : y = 0 ∨ 1 / 2 ^ 126 ≤ y) (hhi : y ≤ 2 ^ 120) :
    ∃ k, add (fin a) (fin b) = fin k ∧ 0 ≤ k ∧ Nr (1 - eps) (1 + eps) (val k) y := by
  refine ofRat_near (by omega) ?_ h0 hlo hhi
  push_cast
  rw [← hy]
  unfold val
  field_simp

theorem div_near {a b : Int} (hb : 0 < b) {y : ℚ} (hy : val a / val b = y) (h0 : 0 ≤ y) (hlo : y = 0 ∨ 1 / 2 ^ 126 ≤ y)
    (hhi : y ≤ 2 ^ 120) : ∃ k, div (fin a) (fin b) = fin k ∧ 0 ≤ k ∧ Nr (1 - eps) (1 + eps) (val k) y := by
  rw [div_fin_pos a hb]
  refine ofRat_near (by omega) ?_ h0 hlo hhi
  have : ((b.toNat : Nat) : ℚ) = b := by
    have : ((b.toNat : Nat) : Int) = b := by omega
    exact_mod_cast this
  rw [this]
  have hb' : (b : ℚ) ≠ 0 := by exact_mod_cast (by omega : b ≠ 0)
  push_cast
  rw [one_rat, ← hy]
  unfold val
  field_simp

end F32

open F32

theorem relevanceF32_near (P : Plat) {h q : Int} (hh : h = 0 ∨ 2 ^ 24 ≤ h) (hh' : h ≤ 2 ^ 169) (hq : q = 0 ∨ 2 ^ 24 ≤ q)
    (hq' : q ≤ 2 ^ 169) {l : Nat} {s : Int} {e : Nat} (hl : l ≤ 2 ^ 64) (hs0 : 0 ≤ s) (hs : s ≤ 2 ^ 64) (he : e ≤ 2 ^ 64) :
    ∃ k : Int, 0 ≤ k ∧ relevanceF32 P (fin h) (fin q) l s e = min (k.toNat / one) P.umax ∧
      Nr (1 - 1 / 2 ^ 20) (1 + 1 / 2 ^ 20) (val k) (exactRelevance (val h) (val q) l s e) := by
  have ep := eps_pos
  have epl : eps = 1 / 2 ^ 24 := rfl
  obtain ⟨kl, el, l0, nl⟩ := ofInt_near (z := l) (by omega) (by omega)
  obtain ⟨ks, es, s0, ns⟩ := ofInt_near (z := s) (by omega) (by omega)
  obtain ⟨ke, ee, e0, ne⟩ := ofInt_near (z := e) (by omega) (by omega)
  have o1 : ofInt 1 = fin one := by decide +kernel
  have o1000 : ofInt 1000 = fin (1000 * one) := by decide +kernel
  have v1 : val one = 1 := by unfold val; push_cast; rw [one_rat]; norm_num
  have v1000 : val (1000 * one) = 1000 := by unfold val; push_cast; rw [one_rat]; norm_num
  have lq : (0 : ℚ) ≤ ((l : Int) : ℚ) := by exact_mod_cast Nat.zero_le l
  have sq : (0 : ℚ) ≤ (s : ℚ) := by exact_mod_cast hs0
  have eq' : (0 : ℚ) ≤ ((e : Int) : ℚ) := by exact_mod_cast Nat.zero_le e
  have lq2 : ((l : Int) : ℚ) ≤ 2 ^ 64 := by exact_mod_cast hl
  have sq2 : (s : ℚ) ≤ 2 ^ 64 := by exact_mod_cast hs
  have eq2 : ((e : Int) : ℚ) ≤ 2 ^ 64 := by exact_mod_cast he
  -- a product of a factor and a rounded integer
  have prod : ∀ (c : Int) (z : Int) (kz : Int), (c = 0 ∨ 2 ^ 24 ≤ c) → c ≤ 2 ^ 169 → 0 ≤ z → z ≤ 2 ^ 64 →
      Nr (1 - eps) (1 + eps) (val kz) z →
      0 ≤ val c ∧ val c ≤ 2 ^ 20 ∧ ∃ k, mul (fin c) (fin kz) = fin k ∧ 0 ≤ k ∧
        Nr ((1 - eps) * (1 * (1 - eps))) ((1 + eps) * (1 * (1 + eps))) (val k) (val c * z) := by
    intro c z kz hc hc' hz0 hz nz
    have cq : 0 ≤ val c := by
      unfold val
      have : (0 : ℚ) ≤ c := by exact_mod_cast (by omega : (0 : Int) ≤ c)
      positivity
    have cq2 : val c ≤ 2 ^ 20 := by
      unfold val
      rw [div_le_iff₀ (by positivity)]
      have : (c : ℚ) ≤ 2 ^ 169 := by exact_mod_cast hc'
      calc (c : ℚ) ≤ 2 ^ 169 := this
        _ = 2 ^ 20 * 2 ^ 149 := by norm_num
    have zq : (0 : ℚ) ≤ z := by exact_mod_cast hz0
    have zq2 : (z : ℚ) ≤ 2 ^ 64 := by exact_mod_cast hz
    have kz0 : 0 ≤ val kz := le_trans (mul_nonneg (le_of_lt ep) zq) nz.1
    have kz2 : val kz ≤ 2 ^ 65 := by
      calc val kz ≤ (1 + eps) * z := nz.2
        _ ≤ (1 + eps) * 2 ^ 64 := by
          have : (0 : ℚ) ≤ 1 + eps := by unfold eps; norm_num
          gcongr
        _ ≤ 2 ^ 65 := by unfold eps; norm_num
    refine ⟨cq, cq2, ?_⟩
    obtain ⟨k, h1, h2, h3⟩ := mul_near (a := c) (b := kz) rfl (mul_nonneg cq kz0) (by
      rcases hc with rfl | hc
      · left; simp [val]
      · by_cases hz : z = 0
        · left
          subst hz
          have : val kz = 0 := le_antisymm (by simpa using nz.2) kz0
          rw [this, mul_zero]
        · right
          have z1 : (1 : ℚ) ≤ z := by exact_mod_cast (by omega : (1 : Int) ≤ z)
          have c1 : (1 : ℚ) / 2 ^ 125 ≤ val c := by
            unfold val
            rw [le_div_iff₀ (by positivity)]
            have : (2 ^ 24 : ℚ) ≤ c := by exact_mod_cast hc
            refine le_trans (le_of_eq ?_) this
            norm_num
          have k1 : (1 : ℚ) / 2 ≤ val kz := by
            refine le_trans ?_ nz.1
            calc (1 : ℚ) / 2 ≤ (1 - eps) * 1 := by unfold eps; norm_num
              _ ≤ (1 - eps) * z := mul_le_mul_of_nonneg_left z1 (le_of_lt ep)
          calc (1 : ℚ) / 2 ^ 126 = 1 / 2 ^ 125 * (1 / 2) := by norm_num
            _ ≤ val c * val kz := mul_le_mul c1 k1 (by norm_num) cq) (by
      calc val c * val kz ≤ 2 ^ 20 * 2 ^ 65 := mul_le_mul cq2 kz2 kz0 (by norm_num)
        _ ≤ 2 ^ 120 := by norm_num)
    refine ⟨k, h1, h2, ?_⟩
    exact h3.trans (Nr.mul Nr.rfl' nz (by norm_num) (le_of_lt ep) cq zq) (le_of_lt ep) (by unfold eps; norm_num)
  obtain ⟨ch, ch2, k1, m1, k10, n1⟩ := prod h l kl hh hh' (by omega) (by omega) nl
  obtain ⟨cq, cq2, k2, m2, k20, n2⟩ := prod q s ks hq hq' hs0 hs ns
  have pos : ∀ k : Int, 0 ≤ k → 0 ≤ val k := by
    intro k hk
    unfold val
    have : (0 : ℚ) ≤ k := by exact_mod_cast hk
    positivity
  have hqs : (0 : ℚ) ≤ val q * s := mul_nonneg cq sq
  have hqs2 : val q * s ≤ 2 ^ 20 * 2 ^ 64 := mul_le_mul cq2 sq2 sq (by norm_num)
  have hhl : (0 : ℚ) ≤ val h * (l : Int) := mul_nonneg ch lq
  have hhl2 : val h * (l : Int) ≤ 2 ^ 20 * 2 ^ 64 := mul_le_mul ch2 lq2 lq (by norm_num)
  -- the dividend
  have n2' : Nr ((1 - eps) ^ 2) ((1 + eps) ^ 2) (val k2 + val one) (val q * s + 1) := by
    rw [v1]
    refine Nr.add (n2.weaken hqs (le_of_eq (by ring)) (le_of_eq (by ring))) (Nr.weaken Nr.rfl' (by norm_num) ?_ ?_)
    · unfold eps; norm_num
    · unfold eps; norm_num
  obtain ⟨k3, m3, k30, n3⟩ := add_near (a := k2) (b := one) rfl (by rw [v1]; have := pos _ k20; linarith)
    (Or.inr (by rw [v1]; have := pos _ k20; have : (1 : ℚ) / 2 ^ 126 ≤ 1 := by norm_num
                linarith)) (by
      refine le_trans n2'.2 ?_
      calc (1 + eps) ^ 2 * (val q * s + 1) ≤ (1 + eps) ^ 2 * (2 ^ 20 * 2 ^ 64 + 1) := by gcongr
        _ ≤ 2 ^ 120 := by unfold eps; norm_num)
  have hN : (0 : ℚ) ≤ val q * s + 1 := by linarith
  have n3' := n3.trans n2' (le_of_lt ep) (by unfold eps; norm_num)
  -- the divisor
  have n4' : Nr (1 - eps) (1 + eps) (val ke + val one) ((e : Int) + 1) := by
    rw [v1]
    refine Nr.add ne (Nr.weaken Nr.rfl' (by norm_num) ?_ ?_)
    · unfold eps; norm_num
    · unfold eps; norm_num
  have hD : (0 : ℚ) < ((e : Int) : ℚ) + 1 := by linarith
  obtain ⟨k4, m4, k40, n4⟩ := add_near (a := ke) (b := one) rfl (by rw [v1]; have := pos _ e0; linarith)
    (Or.inr (by rw [v1]; have := pos _ e0; have : (1 : ℚ) / 2 ^ 126 ≤ 1 := by norm_num
                linarith)) (by
      refine le_trans n4'.2 ?_
      calc (1 + eps) * (((e : Int) : ℚ) + 1) ≤ (1 + eps) * (2 ^ 64 + 1) := by
            have : (0 : ℚ) ≤ 1 + eps := by unfold eps; norm_num
            gcongr
        _ ≤ 2 ^ 120 := by unfold eps; norm_num)
  have n4'' := n4.trans n4' (le_of_lt ep) (by unfold eps; norm_num)
  have k4pos : 0 < k4 := by
    have h1 : 0 < val k4 := lt_of_lt_of_le (mul_pos (mul_pos ep ep) hD) n4''.1
    by_contra hc
    have : k4 = 0 := by omega
    rw [this] at h1
    simp [val] at h1
  -- the quotient
  have n5' := Nr.div n3' n4'' (by have := le_of_lt ep; positivity) (mul_pos ep ep) hN hD (by unfold eps; norm_num)
  have hQ : 0 ≤ (val q * s + 1) / (((e : Int) : ℚ) + 1) := div_nonneg hN (le_of_lt hD)
  have hQ1 : 1 / (2 ^ 64 + 1) ≤ (val q * s + 1) / (((e : Int) : ℚ) + 1) := by
    rw [div_le_div_iff₀ (by norm_num) hD]
    have : ((e : Int) : ℚ) + 1 ≤ 2 ^ 64 + 1 := by linarith
    nlinarith
  have hQ2 : (val q * s + 1) / (((e : Int) : ℚ) + 1) ≤ 2 ^ 20 * 2 ^ 64 + 1 := by
    rw [div_le_iff₀ hD]
    nlinarith
  obtain ⟨k5, m5, k50, n5⟩ := div_near (a := k3) k4pos rfl (div_nonneg (pos _ k30) (pos _ k40))
    (Or.inr (by
      refine le_trans ?_ n5'.1
      calc (1 : ℚ) / 2 ^ 126 ≤ (1 - eps) * (1 - eps) ^ 2 / ((1 + eps) * (1 + eps)) * (1 / (2 ^ 64 + 1)) := by unfold eps; norm_num
        _ ≤ _ := mul_le_mul_of_nonneg_left hQ1 (by unfold eps; norm_num))) (by
      refine le_trans n5'.2 ?_
      calc _ ≤ (1 + eps) * (1 + eps) ^ 2 / ((1 - eps) * (1 - eps)) * (2 ^ 20 * 2 ^ 64 + 1) :=
            mul_le_mul_of_nonneg_left hQ2 (by unfold eps; norm_num)
        _ ≤ 2 ^ 120 := by unfold eps; norm_num)
  have n5'' := n5.trans n5' (le_of_lt ep) (by unfold eps; norm_num)
  -- the sum
  have hR : (0 : ℚ) ≤ val h * (l : Int) + (val q * s + 1) / (((e : Int) : ℚ) + 1) := add_nonneg hhl hQ
  have n6' : Nr (1 - 1 / 2 ^ 21) (1 + 1 / 2 ^ 21) (val k1 + val k5)
      (val h * (l : Int) + (val q * s + 1) / (((e : Int) : ℚ) + 1)) := by
    refine Nr.add (n1.weaken hhl ?_ ?_) (n5''.weaken hQ ?_ ?_) <;> · unfold eps; norm_num
  obtain ⟨k6, m6, k60, n6⟩ := add_near (a := k1) (b := k5) rfl (add_nonneg (pos _ k10) (pos _ k50))
    (Or.inr (by
      refine le_trans ?_ n6'.1
      calc (1 : ℚ) / 2 ^ 126 ≤ (1 - 1 / 2 ^ 21) * (1 / (2 ^ 64 + 1)) := by norm_num
        _ ≤ _ := mul_le_mul_of_nonneg_left (by linarith) (by norm_num))) (by
      refine le_trans n6'.2 ?_
      refine le_trans (mul_le_mul_of_nonneg_left (c := 2 ^ 20 * 2 ^ 64 + (2 ^ 20 * 2 ^ 64 + 1)) (by linarith) (by norm_num)) ?_
      norm_num)
  have n6'' := n6.trans n6' (le_of_lt ep) (by unfold eps; norm_num)
  -- times 1000
  have n7' : Nr ((1 - eps) * (1 - 1 / 2 ^ 21)) ((1 + eps) * (1 + 1 / 2 ^ 21)) (val k6 * val (1000 * one))
      (exactRelevance (val h) (val q) l s e) := by
    have := n6''.mul (Nr.rfl' (x := 1000)) (by unfold eps; norm_num) (by norm_num) hR (by norm_num)
    rw [v1000]
    unfold exactRelevance
    have e1 : ((l : Int) : ℚ) = l := by push_cast; rfl
    have e2 : ((e : Int) : ℚ) = e := by push_cast; rfl
    rw [e1, e2] at this
    rw [mul_comm (1000 : ℚ)]
    simpa using this
  have hX : 0 ≤ exactRelevance (val h) (val q) l s e := by
    unfold exactRelevance
    have e1 : ((l : Int) : ℚ) = l := by push_cast; rfl
    have e2 : ((e : Int) : ℚ) = e := by push_cast; rfl
    rw [← e1, ← e2]
    exact mul_nonneg (by norm_num) hR
  obtain ⟨k7, m7, k70, n7⟩ := mul_near (a := k6) (b := 1000 * one) rfl (by rw [v1000]; have := pos _ k60; linarith)
    (Or.inr (by
      rw [v1000]
      have h1 := n6''.1
      have h2 : (1 : ℚ) / 2 ^ 126 ≤ (1 - eps) * (1 - 1 / 2 ^ 21) * (1 / (2 ^ 64 + 1)) := by unfold eps; norm_num
      have h3 : (1 - eps) * (1 - 1 / 2 ^ 21) * (1 / (2 ^ 64 + 1)) ≤ val k6 :=
        le_trans (mul_le_mul_of_nonneg_left (by linarith) (by unfold eps; norm_num)) h1
      have := pos _ k60
      linarith)) (by
      rw [v1000]
      have h3 : val k6 ≤ (1 + eps) * (1 + 1 / 2 ^ 21) * (2 ^ 20 * 2 ^ 64 + (2 ^ 20 * 2 ^ 64 + 1)) :=
        le_trans n6''.2 (mul_le_mul_of_nonneg_left (by linarith) (by unfold eps; norm_num))
      have h4 : (1 + eps) * (1 + 1 / 2 ^ 21) * (2 ^ 20 * 2 ^ 64 + (2 ^ 20 * 2 ^ 64 + 1)) * 1000 ≤ 2 ^ 120 := by unfold eps; norm_num
      linarith)
  refine ⟨k7, k70, ?_, (n7.trans n7' (le_of_lt ep) (by unfold eps; norm_num)).weaken hX ?_ ?_⟩
  · unfold relevanceF32
    simp only
    rw [el, es, ee, o1, o1000, m1, m2, m3, m4, m5, m6, m7]
    rfl
  · unfold eps; norm_num
  · unfold eps; norm_num

/-- The priority is the exact value up to one part in a million and rounding down. -/
theorem relevanceF32_accurate (P : Plat) {h q : Int} (hh : h = 0 ∨ 2 ^ 24 ≤ h) (hh' : h ≤ 2 ^ 169) (hq : q = 0 ∨ 2 ^ 24 ≤ q)
    (hq' : q ≤ 2 ^ 169) {l : Nat} {s : Int} {e : Nat} (hl : l ≤ 2 ^ 64) (hs0 : 0 ≤ s) (hs : s ≤ 2 ^ 64) (he : e ≤ 2 ^ 64)
    (hP : exactRelevance (val h) (val q) l s e * (1 + 1 / 2 ^ 20) < P.umax) :
    (relevanceF32 P (fin h) (fin q) l s e : ℚ) ≤ exactRelevance (val h) (val q) l s e * (1 + 1 / 2 ^ 20) ∧
    exactRelevance (val h) (val q) l s e * (1 - 1 / 2 ^ 20) < relevanceF32 P (fin h) (fin q) l s e + 1 := by
  obtain ⟨k, k0, hk, hn⟩ := relevanceF32_near P hh hh' hq hq' hl hs0 hs he
  obtain ⟨m, rfl⟩ := Int.eq_ofNat_of_zero_le k0
  have hv : val (m : Int) = (m : ℚ) / (one : Nat) := by unfold val; push_cast; rw [one_rat]
  rw [hv] at hn
  have op : (0 : ℚ) < (one : Nat) := by exact_mod_cast F32.one_pos
  have h1 : ((m / one : Nat) : ℚ) ≤ (m : ℚ) / (one : Nat) := by
    rw [le_div_iff₀ op]
    exact_mod_cast Nat.div_mul_le_self m one
  have h2 : (m : ℚ) / (one : Nat) < ((m / one : Nat) : ℚ) + 1 := by
    rw [div_lt_iff₀ op]
    have := Nat.lt_div_mul_add (a := m) F32.one_pos
    have : m < (m / one + 1) * one := by rw [Nat.add_mul, Nat.one_mul]; exact this
    exact_mod_cast this
  obtain ⟨n1, n2⟩ := hn
  have hlt : m / one < P.umax := by
    have : ((m / one : Nat) : ℚ) < P.umax := by
      refine lt_of_le_of_lt (le_trans h1 n2) ?_
      rw [mul_comm]; exact hP
    exact_mod_cast this
  have he : relevanceF32 P (fin h) (fin q) l s e = m / one := by
    rw [hk]; simp only [Int.toNat_natCast]; omega
  rw [he]
  constructor
  · refine le_trans (le_trans h1 n2) (le_of_eq (mul_comm _ _))
  · rw [mul_comm] at n1; exact lt_of_le_of_lt n1 h2

theorem tenth_eq : tenth = fin (13421773 * 2 ^ 122) := by decide +kernel
theorem ofInt_one : ofInt 1 = fin (2 ^ 149) := by decide +kernel

/-- The quotient of the formula is a finite number. -/
theorem quotient_finite {s : Int} {e : Nat} (hs0 : 0 ≤ s) (hs : s ≤ 2 ^ 64) (he : e ≤ 2 ^ 64) :
    ∃ k, div (add (mul (ofInt 1) (ofInt s)) (ofInt 1)) (add (ofInt e) (ofInt 1)) = fin k := by
  obtain ⟨ks, es, s0, sn⟩ := ofInt_near hs0 (by omega)
  obtain ⟨ke, ee, e0, en⟩ := ofInt_near (z := (e : Int)) (by omega) (by omega)
  have v1 : val (2 ^ 149) = 1 := by unfold val; norm_num
  have hsq : (s : ℚ) ≤ 2 ^ 64 := by exact_mod_cast hs
  have hs0q : (0 : ℚ) ≤ s := by exact_mod_cast hs0
  have heq : ((e : Int) : ℚ) ≤ 2 ^ 64 := by exact_mod_cast he
  have he0q : (0 : ℚ) ≤ ((e : Int) : ℚ) := by exact_mod_cast Int.natCast_nonneg e
  unfold Nr eps at sn en
  have hcase : val ks = 0 ∨ 1 / 2 ^ 126 ≤ val ks := by
    by_cases hz : s = 0
    · left
      subst hz
      have h1 := sn.1
      have h2 := sn.2
      simp only [Int.cast_zero, mul_zero] at h1 h2
      linarith
    · right
      have : (1 : ℚ) ≤ s := by
        have : 1 ≤ s := by omega
        exact_mod_cast this
      refine le_trans ?_ sn.1
      nlinarith
  have hvs : val ks ≤ 2 ^ 65 := le_trans sn.2 (by nlinarith)
  have hvs0 : 0 ≤ val ks := le_trans (by nlinarith) sn.1
  have hve : val ke ≤ 2 ^ 65 := le_trans en.2 (by nlinarith)
  have hve0 : 0 ≤ val ke := le_trans (by nlinarith) en.1
  rw [es, ee, ofInt_one]
  obtain ⟨k1, e1, p1, n1⟩ := mul_near (a := 2 ^ 149) (b := ks) (y := val ks) (by rw [v1, one_mul]) hvs0 hcase (by linarith)
  unfold Nr eps at n1
  have hv1 : val k1 ≤ 2 ^ 66 := le_trans n1.2 (by nlinarith)
  have hv10 : 0 ≤ val k1 := le_trans (by nlinarith) n1.1
  obtain ⟨k2, e2, p2, n2⟩ := add_near (a := k1) (b := 2 ^ 149) (y := val k1 + 1) (by rw [v1]) (by linarith)
    (Or.inr (by linarith [show (1 : ℚ) / 2 ^ 126 ≤ 1 by norm_num])) (by linarith [show (2 : ℚ) ^ 66 + 1 ≤ 2 ^ 120 by norm_num])
  obtain ⟨k3, e3, p3, n3⟩ := add_near (a := ke) (b := 2 ^ 149) (y := val ke + 1) (by rw [v1]) (by linarith)
    (Or.inr (by linarith [show (1 : ℚ) / 2 ^ 126 ≤ 1 by norm_num])) (by linarith [show (2 : ℚ) ^ 65 + 1 ≤ 2 ^ 120 by norm_num])
  unfold Nr eps at n2 n3
  have h3 : 1 / 2 ≤ val k3 := le_trans (by nlinarith) n3.1
  have h3u : val k3 ≤ 2 ^ 67 := le_trans n3.2 (by nlinarith)
  have h2 : 1 / 2 ≤ val k2 := le_trans (by nlinarith) n2.1
  have h2u : val k2 ≤ 2 ^ 68 := le_trans n2.2 (by nlinarith)
  have hk3 : 0 < k3 := by
    by_contra hc
    have : val k3 ≤ 0 := by
      unfold val
      have : (k3 : ℚ) ≤ 0 := by exact_mod_cast not_lt.1 hc
      exact div_nonpos_of_nonpos_of_nonneg this (by positivity)
    linarith
  have hd : 1 / 2 ^ 126 ≤ val k2 / val k3 := by
    rw [le_div_iff₀ (by linarith)]
    refine le_trans (mul_le_mul_of_nonneg_left h3u (by positivity)) (le_trans ?_ h2)
    norm_num
  obtain ⟨k4, e4, _⟩ := div_near (a := k2) hk3 rfl (le_trans (by positivity) hd) (Or.inr hd) (by
    rw [div_le_iff₀ (by linarith)]
    refine le_trans h2u ?_
    nlinarith)
  rw [e1, e2, e3, e4]
  exact ⟨k4, rfl⟩

end FP
