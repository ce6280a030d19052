import Verif.Lemmas.Dragon
import Verif.Spec.Float
import Mathlib.Tactic.FieldSimp
import Mathlib.Tactic.NormNum
import Mathlib.Algebra.Order.Field.Power
/-
The estimate of the decimal exponent, and the scaling of numerator and denominator.
-/
namespace Emio
open Bignum

theorem zpow_ratio (a : ℚ) (ha : a ≠ 0) (z : ℤ) : a ^ z = a ^ z.toNat / a ^ (-z).toNat := by
  rcases Int.le_total 0 z with h | h
  · lift z to ℕ using h
    simp
  · obtain ⟨n, rfl⟩ := Int.exists_eq_neg_ofNat h
    simp

/-- `10 ^ k ≤ 2 ^ e`, in natural numbers. -/
def tenLeTwo (k e : Int) : Bool :=
  decide (10 ^ k.toNat * 2 ^ (-e).toNat ≤ 2 ^ e.toNat * 10 ^ (-k).toNat)

theorem tenLeTwo_iff (k e : Int) : tenLeTwo k e = true ↔ (10 : ℚ) ^ k ≤ (2 : ℚ) ^ e := by
  unfold tenLeTwo
  rw [decide_eq_true_iff, zpow_ratio 10 (by norm_num) k, zpow_ratio 2 (by norm_num) e,
    div_le_div_iff₀ (by positivity) (by positivity)]
  norm_cast

/-- The estimate computed from the binary exponent. -/
def estimateOf (e : Int) : Int := e * 1292913986 / 4294967296

theorem estimate_table : ∀ i < 2200, tenLeTwo (estimateOf ((i : Nat) - 1100 : Int) - 1) ((i : Nat) - 1100 - 1 : Int) = true ∧
    tenLeTwo (estimateOf ((i : Nat) - 1100 : Int) + 1) ((i : Nat) - 1100 : Int) = false := by
  decide +kernel

theorem estimate_bounds {e : Int} (h1 : -1100 ≤ e) (h2 : e < 1100) :
    (10 : ℚ) ^ (estimateOf e - 1) ≤ (2 : ℚ) ^ (e - 1) ∧ (2 : ℚ) ^ e < (10 : ℚ) ^ (estimateOf e + 1) := by
  have h := estimate_table (e + 1100).toNat (by omega)
  have he : (((e + 1100).toNat : Nat) : Int) - 1100 = e := by omega
  rw [he] at h
  refine ⟨(tenLeTwo_iff _ _).1 h.1, ?_⟩
  rw [← not_le, ← tenLeTwo_iff, h.2]
  simp

theorem bitWidth_bounds {n : Nat} (h : 0 < n) : 2 ^ bitWidth (n - 1) < 2 * n ∧ n ≤ 2 ^ bitWidth (n - 1) := by
  have key : ∀ m : Nat, m < 2 ^ bitWidth m ∧ 2 ^ bitWidth m ≤ 2 * m + 1 := by
    intro m
    unfold bitWidth
    by_cases hm : m = 0
    · subst hm
      simp
    · rw [if_neg hm]
      have h1 := Nat.lt_log2_self (n := m)
      have h2 := Nat.log2_self_le hm
      refine ⟨h1, ?_⟩
      rw [pow_succ]
      omega
  have := key (n - 1)
  omega

/-- What `estimate_scaling_factor` guarantees about `mant · 2^exp`. -/
theorem estimate_spec {mant : Nat} {exp : Int} (h0 : 0 < mant) (h1 : mant ≤ 2 ^ 55) (h2 : -1076 ≤ exp) (h3 : exp ≤ 970) :
    (10 : ℚ) ^ (estimateScalingFactor mant exp - 1) < mant * (2 : ℚ) ^ exp ∧
      mant * (2 : ℚ) ^ exp < (10 : ℚ) ^ (estimateScalingFactor mant exp + 1) := by
  obtain ⟨b1, b2⟩ := bitWidth_bounds h0
  have hb : bitWidth (mant - 1) ≤ 55 := by
    by_contra hc
    have : 2 ^ 56 ≤ 2 ^ bitWidth (mant - 1) := Nat.pow_le_pow_right (by decide) (by omega)
    omega
  have hest := estimate_bounds (e := (bitWidth (mant - 1) : Int) + exp) (by omega) (by omega)
  have heq : estimateOf ((bitWidth (mant - 1) : Int) + exp) = estimateScalingFactor mant exp := rfl
  rw [heq] at hest
  have two : (0 : ℚ) < 2 ^ exp := by positivity
  constructor
  · refine lt_of_le_of_lt hest.1 ?_
    rw [show ((bitWidth (mant - 1) : Int) + exp - 1) = ((bitWidth (mant - 1) : Int) - 1) + exp by ring,
      zpow_add₀ (by norm_num), zpow_sub_one₀ (by norm_num)]
    apply mul_lt_mul_of_pos_right _ two
    have : ((2 ^ bitWidth (mant - 1) : ℕ) : ℚ) < ((2 * mant : ℕ) : ℚ) := by exact_mod_cast b1
    push_cast at this
    rw [zpow_natCast]
    linarith
  · refine lt_of_le_of_lt ?_ hest.2
    rw [zpow_add₀ (by norm_num), zpow_natCast]
    apply mul_le_mul_of_nonneg_right _ two.le
    exact_mod_cast b2

/-- The denominator after scaling. -/
def scaleDen (exp k : Int) : Nat := 5 ^ (scaling exp k).2.1 * 2 ^ (scaling exp k).1

/-- The factor of the numerators after scaling. -/
def scaleNum (exp k : Int) : Nat := 5 ^ (scaling exp k).2.2.2 * 2 ^ (scaling exp k).2.2.1

theorem scaleDen_pos (exp k : Int) : 0 < scaleDen exp k := by unfold scaleDen; positivity

theorem scaleNum_pos (exp k : Int) : 0 < scaleNum exp k := by unfold scaleNum; positivity

theorem scale_ratio (exp k : Int) :
    (scaleNum exp k : ℚ) * (10 : ℚ) ^ k = (2 : ℚ) ^ exp * scaleDen exp k := by
  unfold scaleNum scaleDen scaling
  have h10 : ∀ n : ℕ, (10 : ℚ) ^ n = 5 ^ n * 2 ^ n := by
    intro n
    rw [← mul_pow]
    norm_num
  rcases lt_or_ge exp 0 with he | he
  · obtain ⟨n, rfl⟩ := Int.exists_eq_neg_ofNat he.le
    rcases lt_or_ge k 0 with hk | hk
    · obtain ⟨m, rfl⟩ := Int.exists_eq_neg_ofNat hk.le
      simp only [if_pos he, if_neg (not_le.2 hk), ge_iff_le, Nat.cast_mul, Nat.cast_pow, Nat.cast_ofNat, zpow_neg,
        zpow_natCast, neg_neg, Int.toNat_natCast, pow_zero, one_mul, zero_add]
      rw [← h10 m]
      field_simp
    · lift k to ℕ using hk
      simp only [if_pos he, ge_iff_le, Int.natCast_nonneg, if_true, Nat.cast_mul, Nat.cast_pow, Nat.cast_ofNat, zpow_neg,
        zpow_natCast, neg_neg, Int.toNat_natCast, pow_zero, one_mul, pow_add, h10 k]
      field_simp
      norm_num
  · lift exp to ℕ using he
    rcases lt_or_ge k 0 with hk | hk
    · obtain ⟨m, rfl⟩ := Int.exists_eq_neg_ofNat hk.le
      simp only [if_neg (not_lt.2 (Int.natCast_nonneg exp)), if_neg (not_le.2 hk), ge_iff_le, Nat.cast_mul, Nat.cast_pow,
        Nat.cast_ofNat, zpow_neg, zpow_natCast, neg_neg, Int.toNat_natCast, pow_zero, one_mul, pow_add, h10 m]
      field_simp
      norm_num
    · lift k to ℕ using hk
      simp only [if_neg (not_lt.2 (Int.natCast_nonneg exp)), ge_iff_le, Int.natCast_nonneg, if_true, Nat.cast_mul,
        Nat.cast_pow, Nat.cast_ofNat, zpow_natCast, Int.toNat_natCast, pow_zero, one_mul, zero_add, h10 k]

theorem scaled_div (n : Nat) (exp k : Int) :
    ((n * scaleNum exp k : ℕ) : ℚ) / scaleDen exp k = n * (2 : ℚ) ^ exp / (10 : ℚ) ^ k := by
  have h := scale_ratio exp k
  have hd : (scaleDen exp k : ℚ) ≠ 0 := by exact_mod_cast (scaleDen_pos exp k).ne'
  have h10 : (10 : ℚ) ^ k ≠ 0 := by positivity
  rw [div_eq_div_iff hd h10]
  push_cast
  rw [mul_assoc, h]
  ring

/-- The scaled numbers fit a bignum. -/
theorem scale_fits {mant : Nat} {exp : Int} (h0 : 0 < mant) (h1 : mant ≤ 2 ^ 55) (h2 : -1076 ≤ exp) (h3 : exp ≤ 970) :
    scaleDen exp (estimateScalingFactor mant exp) * 160 < Cap ∧
      mant * scaleNum exp (estimateScalingFactor mant exp) < 10 * scaleDen exp (estimateScalingFactor mant exp) ∧
      scaleDen exp (estimateScalingFactor mant exp) < 10 * (mant * scaleNum exp (estimateScalingFactor mant exp)) := by
  obtain ⟨e1, e2⟩ := estimate_spec h0 h1 h2 h3
  generalize hk : estimateScalingFactor mant exp = k at *
  have hd : (0 : ℚ) < scaleDen exp k := by exact_mod_cast scaleDen_pos exp k
  have h10 : (0 : ℚ) < (10 : ℚ) ^ k := by positivity
  have hr := scaled_div mant exp k
  have u : mant * scaleNum exp k < 10 * scaleDen exp k := by
    have : ((mant * scaleNum exp k : ℕ) : ℚ) / scaleDen exp k < 10 := by
      rw [hr, div_lt_iff₀ h10, mul_comm (10 : ℚ), ← zpow_add_one₀ (by norm_num)]
      exact e2
    rw [div_lt_iff₀ hd] at this
    exact_mod_cast this
  have l : scaleDen exp k < 10 * (mant * scaleNum exp k) := by
    have : (1 : ℚ) / 10 < ((mant * scaleNum exp k : ℕ) : ℚ) / scaleDen exp k := by
      rw [hr, lt_div_iff₀ h10]
      rw [zpow_sub_one₀ (by norm_num)] at e1
      linarith
    rw [lt_div_iff₀ hd] at this
    have : (scaleDen exp k : ℚ) < 10 * ((mant * scaleNum exp k : ℕ) : ℚ) := by linarith
    exact_mod_cast this
  refine ⟨?_, u, l⟩
  rcases lt_or_ge k 0 with hneg | hpos
  · have : scaleDen exp k ≤ 2 ^ 1076 := by
      unfold scaleDen scaling
      simp only [ge_iff_le, if_neg (not_le.2 hneg), pow_zero, one_mul]
      refine Nat.pow_le_pow_right (by decide) ?_
      split <;> omega
    rw [cap_eq]
    calc scaleDen exp k * 160 ≤ 2 ^ 1076 * 160 := Nat.mul_le_mul_right _ this
      _ < 2 ^ 1088 := by decide +kernel
  · have hn : scaleNum exp k ≤ 2 ^ 970 := by
      unfold scaleNum scaling
      simp only [ge_iff_le, if_pos hpos, pow_zero, one_mul]
      refine Nat.pow_le_pow_right (by decide) ?_
      split <;> omega
    rw [cap_eq]
    calc scaleDen exp k * 160 ≤ 10 * (mant * scaleNum exp k) * 160 := Nat.mul_le_mul_right _ l.le
      _ ≤ 10 * (2 ^ 55 * 2 ^ 970) * 160 := Nat.mul_le_mul_right _ (Nat.mul_le_mul_left _ (Nat.mul_le_mul h1 hn))
      _ < 2 ^ 1088 := by decide +kernel

/-- Scaling with bignums. -/
theorem scaleBy_canon {x p5 p2 : Nat} (hx : 0 < x) (h : x * (5 ^ p5 * 2 ^ p2) < Cap) :
    Yields (scaleBy (canon x) p5 p2) (canon (x * (5 ^ p5 * 2 ^ p2))) := by
  unfold scaleBy
  have h5 : x * 5 ^ p5 < Cap := by
    refine lt_of_le_of_lt ?_ h
    rw [← mul_assoc]
    exact Nat.le_mul_of_pos_right _ (by positivity)
  refine Yields.bind (Yields.need (mulPow5_canon _ _ h5)) ?_
  have hne : x * 5 ^ p5 ≠ 0 := by positivity
  rw [← mul_assoc] at h ⊢
  exact Yields.need (mulPow2_canon (Or.inl hne) h)

end Emio
