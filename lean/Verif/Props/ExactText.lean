import Verif.Props.Digits17
/-
Property C97: how many digits it takes to write a double exactly.
-/
namespace Emio
open Spec

theorem roundHalfEven_whole (k : ℕ) : roundHalfEven (k : ℚ) = k := by
  unfold roundHalfEven
  simp

/-- Rounding to decimals leaves a number alone exactly if it has no more decimals. -/
theorem roundDecimals_exact (p : ℕ) (v : ℚ) : roundDecimals p v = v ↔ ∃ k : ℕ, v * 10 ^ p = k := by
  have h10 : (10 : ℚ) ^ p ≠ 0 := by positivity
  constructor
  · intro h
    refine ⟨roundHalfEven (v * 10 ^ p), ?_⟩
    unfold roundDecimals at h
    field_simp at h
    exact h.symm
  · rintro ⟨k, h⟩
    unfold roundDecimals
    rw [h, roundHalfEven_whole, ← h]
    field_simp

/-- Rounding to significant digits leaves a number alone exactly if it has no more digits. -/
theorem roundDigits_exact {n : ℕ} (hn : 1 ≤ n) {v : ℚ} (hv : 0 < v) :
    roundDigits n v = v ↔ ∃ (D : ℕ) (q : ℤ), D < 10 ^ n ∧ v = D * (10 : ℚ) ^ q := by
  have hlog : v < (10 : ℚ) ^ (Int.log 10 v + 1) := by
    have := Int.lt_zpow_succ_log_self (b := 10) (by norm_num) v
    exact_mod_cast this
  have hlow := log_le hv
  constructor
  · intro h
    unfold roundDigits at h
    rw [if_neg hv.ne'] at h
    simp only at h
    set x := Int.log 10 v
    by_cases hR : roundHalfEven (v * (10 : ℚ) ^ ((n : ℤ) - 1 - x)) < 10 ^ n
    · exact ⟨_, _, hR, h.symm⟩
    · exfalso
      push Not at hR
      have h1 : (10 : ℚ) ^ n ≤ (roundHalfEven (v * (10 : ℚ) ^ ((n : ℤ) - 1 - x)) : ℚ) := by exact_mod_cast hR
      have h2 : (10 : ℚ) ^ (x + 1) ≤ v := by
        rw [← h]
        refine le_trans (le_of_eq ?_) (mul_le_mul_of_nonneg_right h1 (by positivity))
        rw [← zpow_natCast, ← zpow_add₀ (by norm_num)]
        congr 1
        omega
      exact absurd hlog (not_lt.2 h2)
  · rintro ⟨D, q, hD, rfl⟩
    unfold roundDigits
    rw [if_neg hv.ne']
    simp only
    set x := Int.log 10 ((D : ℚ) * (10 : ℚ) ^ q)
    have hx : x < n + q := by
      have h1 : (D : ℚ) * (10 : ℚ) ^ q < (10 : ℚ) ^ ((n : ℤ) + q) := by
        rw [zpow_add₀ (by norm_num), zpow_natCast]
        exact mul_lt_mul_of_pos_right (by exact_mod_cast hD) (by positivity)
      exact (zpow_lt_zpow_iff_right₀ (by norm_num : (1 : ℚ) < 10)).1 (hlow.trans_lt h1)
    obtain ⟨m, hm⟩ := Int.eq_ofNat_of_zero_le (show 0 ≤ q + (n - 1 - x) by omega)
    have h1 : (D : ℚ) * (10 : ℚ) ^ q * (10 : ℚ) ^ ((n : ℤ) - 1 - x) = ((D * 10 ^ m : ℕ) : ℚ) := by
      rw [mul_assoc, ← zpow_add₀ (by norm_num), hm]
      push_cast
      rw [zpow_natCast]
    rw [h1, roundHalfEven_whole, ← h1, mul_assoc, ← zpow_add₀ (by norm_num)]
    rw [show (n : ℤ) - 1 - x + (x + 1 - n) = 0 by ring]
    simp

/-- A finite double is a number of at most 767 digits with at most 1074 of them behind the point. -/
theorem magnitude_decimal {b : ℕ} (hb : b < 2047 * 2 ^ 52) :
    ∃ (D : ℕ) (q : ℤ), D < 10 ^ 767 ∧ -1074 ≤ q ∧ magnitude b = D * (10 : ℚ) ^ q := by
  have hm : mantissaOf b < 2 ^ 53 := by unfold mantissaOf fractionOf; split <;> omega
  have hu : -1074 ≤ ulpExp b ∧ ulpExp b ≤ 971 := by unfold ulpExp exponentOf; split <;> omega
  rw [magnitude_eq]
  rcases le_or_gt 0 (ulpExp b) with h | h
  · obtain ⟨k, hk⟩ := Int.eq_ofNat_of_zero_le h
    refine ⟨mantissaOf b * 2 ^ k, 0, ?_, by norm_num, by rw [hk]; push_cast; simp⟩
    calc mantissaOf b * 2 ^ k < 2 ^ 53 * 2 ^ k := Nat.mul_lt_mul_of_pos_right hm (by positivity)
      _ ≤ 2 ^ 53 * 2 ^ 971 := Nat.mul_le_mul_left _ (Nat.pow_le_pow_right (by norm_num) (by omega))
      _ < 10 ^ 767 := by decide +kernel
  · obtain ⟨k, hk⟩ := Int.eq_ofNat_of_zero_le (show 0 ≤ -ulpExp b by omega)
    refine ⟨mantissaOf b * 5 ^ k, ulpExp b, ?_, hu.1, ?_⟩
    · calc mantissaOf b * 5 ^ k < 2 ^ 53 * 5 ^ k := Nat.mul_lt_mul_of_pos_right hm (by positivity)
        _ ≤ 2 ^ 53 * 5 ^ 1074 := Nat.mul_le_mul_left _ (Nat.pow_le_pow_right (by norm_num) (by omega))
        _ < 10 ^ 767 := by decide +kernel
    · rw [show ulpExp b = -(k : ℤ) by omega]
      push_cast
      rw [zpow_neg, zpow_neg, zpow_natCast, zpow_natCast, mul_assoc]
      congr 1
      rw [show (10 : ℚ) = 5 * 2 by norm_num, mul_pow]
      field_simp

/-! ### C97 exact texts -/

/-- C97: in fixed notation with precision p, the text of a finite double is its sign and a literal that is off by at most
half of the last decimal, and that is exact exactly if the double has at most p decimals. -/
theorem C97_fixed (bits : ℕ) (hb : bits < 2 ^ 64) (hf : IsFinite bits) (t : SpecText) (wf : t.WellFormed)
    (fits : t.Fits) (hal : CoreTy.Allows .double t) (ht : t.type = some 'f' ∨ t.type = some 'F') :
    ∃ literal x, formatStr ("{:".toList ++ t.text ++ "}".toList) [(CoreArg.double bits).farg] =
        .ok () (paddedNumber t.meaning (signOf t.meaning (signBit bits)) literal) ∧
      Denotes literal x ∧ |x - magnitude bits| ≤ 1 / 2 / 10 ^ precisionOf t.meaning ∧
      (x = magnitude bits ↔ ∃ k : ℕ, magnitude bits * 10 ^ precisionOf t.meaning = k) := by
  obtain ⟨literal, h1, h2⟩ := C42_fixed_is_correctly_rounded bits hb hf t wf fits hal ht
  exact ⟨literal, _, h1, h2, (C83_error _ _ (magnitude_nonneg bits)).1, roundDecimals_exact _ _⟩

/-- C97: in particular with 1074 decimals, whatever the double is. -/
theorem C97_1074_decimals (bits : ℕ) (hb : bits < 2 ^ 64) (hf : IsFinite bits) (t : SpecText) (wf : t.WellFormed)
    (fits : t.Fits) (hal : CoreTy.Allows .double t) (ht : t.type = some 'f' ∨ t.type = some 'F')
    (h : 1074 ≤ precisionOf t.meaning) :
    ∃ literal, formatStr ("{:".toList ++ t.text ++ "}".toList) [(CoreArg.double bits).farg] =
        .ok () (paddedNumber t.meaning (signOf t.meaning (signBit bits)) literal) ∧ Denotes literal (magnitude bits) := by
  obtain ⟨literal, x, h1, h2, _, h3⟩ := C97_fixed bits hb hf t wf fits hal ht
  refine ⟨literal, h1, h3.2 ?_ ▸ h2⟩
  obtain ⟨D, q, _, hq, hm⟩ := magnitude_decimal (finite_low hf)
  rw [magnitude_low] at hm
  obtain ⟨m, hm'⟩ := Int.eq_ofNat_of_zero_le (show 0 ≤ q + (precisionOf t.meaning : ℤ) by omega)
  refine ⟨D * 10 ^ m, ?_⟩
  rw [hm, mul_assoc, ← zpow_natCast, ← zpow_add₀ (by norm_num), hm']
  push_cast
  rw [zpow_natCast]

/-- C97: with a number of significant digits, the literal is exact exactly if the double has no more digits. -/
theorem C97_significant (bits : ℕ) (hb : bits < 2 ^ 64) (hf : IsFinite bits) (t : SpecText) (wf : t.WellFormed)
    (fits : t.Fits) (hal : CoreTy.Allows .double t) (hnf : t.type ≠ some 'f' ∧ t.type ≠ some 'F')
    (hnd : ¬ (t.type = none ∧ t.prec = none)) (nonzero : magnitude bits ≠ 0) (n : ℕ)
    (digits : n = if t.type = some 'e' ∨ t.type = some 'E' then precisionOf t.meaning + 1 else max (precisionOf t.meaning) 1) :
    ∃ literal x, formatStr ("{:".toList ++ t.text ++ "}".toList) [(CoreArg.double bits).farg] =
        .ok () (paddedNumber t.meaning (signOf t.meaning (signBit bits)) literal) ∧
      Denotes literal x ∧ |x - magnitude bits| ≤ 1 / 2 * (10 : ℚ) ^ (Int.log 10 (magnitude bits) + 1 - n) ∧
      (x = magnitude bits ↔ ∃ (D : ℕ) (q : ℤ), D < 10 ^ n ∧ magnitude bits = D * (10 : ℚ) ^ q) := by
  obtain ⟨literal, h1, h2⟩ := C42_significant_digits_are_correctly_rounded bits hb hf t wf fits hal hnf hnd
  rw [← digits] at h2
  have hn : 1 ≤ n := by rw [digits]; split <;> omega
  have hpos : 0 < magnitude bits := lt_of_le_of_ne (magnitude_nonneg bits) nonzero.symm
  exact ⟨literal, _, h1, h2, (C83_error _ _ hpos.le).2 hn nonzero, roundDigits_exact hn hpos⟩

/-- C97: in particular with 767 significant digits, whatever the double is. -/
theorem C97_767_digits (bits : ℕ) (hb : bits < 2 ^ 64) (hf : IsFinite bits) (t : SpecText) (wf : t.WellFormed)
    (fits : t.Fits) (hal : CoreTy.Allows .double t)
    (h : ((t.type = some 'e' ∨ t.type = some 'E') ∧ 766 ≤ t.precValue) ∨
      ((t.type = none ∨ t.type = some 'g' ∨ t.type = some 'G') ∧ 767 ≤ t.precValue)) :
    ∃ literal, formatStr ("{:".toList ++ t.text ++ "}".toList) [(CoreArg.double bits).farg] =
        .ok () (paddedNumber t.meaning (signOf t.meaning (signBit bits)) literal) ∧ Denotes literal (magnitude bits) := by
  have hp : ∀ n : ℤ, 0 ≤ n → n ≤ t.precValue → n ≤ precisionOf t.meaning := by
    intro n h0 h
    unfold precisionOf
    rw [if_pos (show 0 ≤ t.meaning.precision from h0.trans h)]
    exact h.trans (Int.self_le_toNat _)
  have hnd : ¬ (t.type = none ∧ t.prec = none) := by
    rintro ⟨h1, h2⟩
    have : t.precValue = -1 := by unfold SpecText.precValue; rw [h2]
    rcases h with ⟨_, h⟩ | ⟨_, h⟩ <;> omega
  have hnf : t.type ≠ some 'f' ∧ t.type ≠ some 'F' := by
    rcases h with ⟨h | h, _⟩ | ⟨h | h | h, _⟩ <;> rw [h] <;> simp
  by_cases h0 : magnitude bits = 0
  · obtain ⟨literal, h1, h2⟩ := C42_significant_digits_are_correctly_rounded bits hb hf t wf fits hal hnf hnd
    refine ⟨literal, h1, ?_⟩
    rw [h0] at h2 ⊢
    unfold roundDigits at h2
    rwa [if_pos rfl] at h2
  obtain ⟨literal, x, h1, h2, _, h3⟩ := C97_significant bits hb hf t wf fits hal hnf hnd h0 _ rfl
  refine ⟨literal, h1, h3.2 ?_ ▸ h2⟩
  obtain ⟨D, q, hD, _, hm⟩ := magnitude_decimal (finite_low hf)
  rw [magnitude_low] at hm
  refine ⟨D, q, hD.trans_le (Nat.pow_le_pow_right (by norm_num) ?_), hm⟩
  rcases h with ⟨h, h7⟩ | ⟨h, h7⟩
  · rw [if_pos h]
    have := hp 766 (by norm_num) h7
    omega
  · rw [if_neg (by rcases h with h | h | h <;> rw [h] <;> simp)]
    have := hp 767 (by norm_num) h7
    omega

/-- 1073 decimals are not enough: the smallest double. -/
theorem C97_1073_decimals_are_not_enough : ∃ literal x,
    formatStr "{:.1073f}".toList [(CoreArg.double 1).farg] = .ok () literal ∧ Denotes literal x ∧ x ≠ magnitude 1 := by
  obtain ⟨literal, x, h1, h2, _, h3⟩ := C97_fixed 1 (by norm_num) (by decide) { prec := some "1073".toList, type := 'f' }
    ⟨by simp, by simp, by simp, by simp, by decide, by simp, by intro c hc; left; simp at hc; subst hc; rfl⟩
    (by unfold SpecText.Fits; decide) ⟨by decide, by simp⟩ (Or.inl rfl)
  refine ⟨literal, x, by rw [paddedNumber_bare rfl] at h1; exact h1, h2, fun h => ?_⟩
  obtain ⟨k, hk⟩ := h3.1 h
  have h4 : precisionOf (SpecText.meaning { prec := some "1073".toList, type := 'f' }) = 1073 := by decide
  rw [h4] at hk
  have h5 : magnitude 1 = 1 / 2 ^ 1074 := by
    unfold magnitude exponentOf fractionOf
    norm_num
  rw [h5] at hk
  have h6 : (5 : ℚ) ^ 1073 = 2 * k := by
    rw [← hk, show (10 : ℚ) ^ 1073 = 5 ^ 1073 * 2 ^ 1073 by rw [← mul_pow]; norm_num, pow_succ (2 : ℚ) 1073]
    field_simp
  have h7 : 5 ^ 1073 = 2 * k := by exact_mod_cast h6
  have h8 : 5 ^ 1073 % 2 = 1 := by decide +kernel
  omega

/-- 766 digits are not enough: the largest double with the smallest distance to its neighbours. -/
theorem C97_766_digits_are_not_enough : ∃ literal x,
    formatStr "{:.765e}".toList [(CoreArg.double 0x001FFFFFFFFFFFFF).farg] = .ok () literal ∧ Denotes literal x ∧
      x ≠ magnitude 0x001FFFFFFFFFFFFF := by
  have h5 : magnitude 0x001FFFFFFFFFFFFF = ((2 ^ 53 - 1 : ℕ) * 5 ^ 1074 : ℚ) * (10 : ℚ) ^ (-1074 : ℤ) := by
    unfold magnitude exponentOf fractionOf
    rw [if_neg (by norm_num), show (((0x001FFFFFFFFFFFFF / 2 ^ 52 % 2 ^ 11 : ℕ) : ℤ) - 1075) = -1074 by norm_num]
    rw [show (10 : ℚ) = 5 * 2 by norm_num, mul_zpow]
    rw [zpow_neg (5 : ℚ), show (1074 : ℤ) = ((1074 : ℕ) : ℤ) from rfl, zpow_natCast]
    rw [mul_assoc, mul_inv_cancel_left₀ (by positivity)]
    norm_num
  obtain ⟨literal, x, h1, h2, _, h3⟩ := C97_significant 0x001FFFFFFFFFFFFF (by norm_num) (by decide)
    { prec := some "765".toList, type := 'e' }
    ⟨by simp, by simp, by simp, by simp, by decide, by simp, by intro c hc; left; simp at hc; subst hc; rfl⟩
    (by unfold SpecText.Fits; decide) ⟨by decide, by simp⟩ (by simp) (by simp)
    (by rw [h5]; positivity) 766 (by decide)
  refine ⟨literal, x, by rw [paddedNumber_bare rfl] at h1; exact h1, h2, fun h => ?_⟩
  obtain ⟨D, q, hD, hv⟩ := h3.1 h
  rw [h5] at hv
  rcases le_or_gt q (-1074) with hq | hq
  · obtain ⟨m, hm⟩ := Int.eq_ofNat_of_zero_le (show 0 ≤ -1074 - q by omega)
    have h6 : ((2 ^ 53 - 1 : ℕ) * 5 ^ 1074 : ℚ) * 10 ^ m = D := by
      rw [show q = -1074 - (m : ℤ) by omega, zpow_sub₀ (by norm_num), zpow_natCast] at hv
      field_simp at hv
      exact_mod_cast hv
    have h7 : (2 ^ 53 - 1) * 5 ^ 1074 * 10 ^ m = D := by exact_mod_cast h6
    have h8 : (2 ^ 53 - 1) * 5 ^ 1074 ≤ D := by rw [← h7]; exact Nat.le_mul_of_pos_right _ (by positivity)
    have h9 : 10 ^ 766 ≤ (2 ^ 53 - 1) * 5 ^ 1074 := by decide +kernel
    exact absurd (h9.trans h8) (not_le.2 hD)
  · obtain ⟨m, hm⟩ := Int.eq_ofNat_of_zero_le (show 0 ≤ q + 1073 by omega)
    have h6 : ((2 ^ 53 - 1 : ℕ) * 5 ^ 1074 : ℚ) = D * 10 ^ (m + 1) := by
      rw [show q = (m + 1 : ℕ) + (-1074 : ℤ) by push_cast; omega, zpow_add₀ (by norm_num), zpow_natCast, ← mul_assoc] at hv
      exact mul_right_cancel₀ (by positivity) hv
    have h7 : (2 ^ 53 - 1) * 5 ^ 1074 = D * 10 ^ (m + 1) := by exact_mod_cast h6
    have h8 : (2 ^ 53 - 1) * 5 ^ 1074 % 2 = 1 := by decide +kernel
    rw [h7, pow_succ, ← mul_assoc, Nat.mul_mod] at h8
    norm_num at h8

example : formatStr "{:.60f}".toList [(CoreArg.double 0x3FB999999999999A).farg] =
    .ok () "0.100000000000000005551115123125782702118158340454101562500000".toList := by decide +kernel

example : (∃ k : ℕ, magnitude 0x3FC0000000000000 * 10 ^ 3 = k) ∧ ¬ ∃ k : ℕ, magnitude 0x3FC0000000000000 * 10 ^ 2 = k := by
  have h : magnitude 0x3FC0000000000000 = 1 / 8 := by decide +kernel
  rw [h]
  refine ⟨⟨125, by norm_num⟩, ?_⟩
  rintro ⟨k, hk⟩
  have : 25 = 2 * k := by
    have : (25 : ℚ) = 2 * k := by rw [← hk]; norm_num
    exact_mod_cast this
  omega

example : ∃ t : SpecText, t.WellFormed ∧ t.Fits ∧ CoreTy.Allows .double t ∧ t.type = some 'f' ∧ 1074 ≤ precisionOf t.meaning :=
  ⟨{ prec := some "1074".toList, type := 'f' },
    ⟨by simp, by simp, by simp, by simp, by decide, by simp, by intro c hc; left; simp at hc; subst hc; rfl⟩,
    by unfold SpecText.Fits; decide, ⟨by decide, by simp⟩, rfl, by decide⟩

example : ∃ t : SpecText, t.WellFormed ∧ t.Fits ∧ CoreTy.Allows .double t ∧ t.type = some 'e' ∧ 766 ≤ t.precValue :=
  ⟨{ prec := some "766".toList, type := 'e' },
    ⟨by simp, by simp, by simp, by simp, by decide, by simp, by intro c hc; left; simp at hc; subst hc; rfl⟩,
    by unfold SpecText.Fits; decide, ⟨by decide, by simp⟩, rfl, by decide⟩

end Emio
