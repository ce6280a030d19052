import Verif.Lemmas.ShortestSpec
/-
The decimal numbers that read as a given double.
-/
namespace Emio

/-- Halfway to the next smaller double. -/
def halfDown (b : Nat) : ℚ := (magnitude b + magnitude (b - 1)) / 2

/-- Halfway to the next larger double. -/
def halfUp (b : Nat) : ℚ := (magnitude b + magnitude (b + 1)) / 2

theorem exponentOf_max : exponentOf (2047 * 2 ^ 52 - 1) = 2046 := by decide

theorem halfUp_max : halfUp (2047 * 2 ^ 52 - 1) = overflowLimit := by
  unfold halfUp overflowLimit
  rw [show 2047 * 2 ^ 52 - 1 + 1 = 2047 * 2 ^ 52 by decide]
  unfold magnitude
  rw [if_neg (by decide), if_neg (by decide), show exponentOf (2047 * 2 ^ 52) = 2047 by decide, exponentOf_max,
    show fractionOf (2047 * 2 ^ 52) = 0 by decide, show fractionOf (2047 * 2 ^ 52 - 1) = 2 ^ 52 - 1 by decide]
  have e1 : (2 : ℚ) ^ (((2047 : ℕ) : ℤ) - 1075) = 4 * (2 : ℚ) ^ (970 : ℤ) := by
    rw [show ((2047 : ℕ) : ℤ) - 1075 = 2 + 970 by norm_num, zpow_add₀ (by norm_num)]
    norm_num
  have e2 : (2 : ℚ) ^ (((2046 : ℕ) : ℤ) - 1075) = 2 * (2 : ℚ) ^ (970 : ℤ) := by
    rw [show ((2046 : ℕ) : ℤ) - 1075 = 1 + 970 by norm_num, zpow_add₀ (by norm_num)]
    norm_num
  rw [e1, e2]
  generalize (2 : ℚ) ^ (970 : ℤ) = y
  push_cast
  ring

theorem closer_above {x p q : ℚ} (h : p < q) : |x - p| < |x - q| ↔ x < (p + q) / 2 := by
  rcases abs_cases (x - p) with ⟨h1, h1'⟩ | ⟨h1, h1'⟩ <;> rcases abs_cases (x - q) with ⟨h2, h2'⟩ | ⟨h2, h2'⟩ <;>
    rw [h1, h2] <;> constructor <;> intro h' <;> linarith

theorem equal_above {x p q : ℚ} (h : p < q) : |x - p| = |x - q| ↔ x = (p + q) / 2 := by
  rcases abs_cases (x - p) with ⟨h1, h1'⟩ | ⟨h1, h1'⟩ <;> rcases abs_cases (x - q) with ⟨h2, h2'⟩ | ⟨h2, h2'⟩ <;>
    rw [h1, h2] <;> constructor <;> intro h' <;> linarith

theorem closer_below {x p q : ℚ} (h : q < p) : |x - p| < |x - q| ↔ (p + q) / 2 < x := by
  rcases abs_cases (x - p) with ⟨h1, h1'⟩ | ⟨h1, h1'⟩ <;> rcases abs_cases (x - q) with ⟨h2, h2'⟩ | ⟨h2, h2'⟩ <;>
    rw [h1, h2] <;> constructor <;> intro h' <;> linarith

theorem equal_below {x p q : ℚ} (h : q < p) : |x - p| = |x - q| ↔ x = (p + q) / 2 := by
  rcases abs_cases (x - p) with ⟨h1, h1'⟩ | ⟨h1, h1'⟩ <;> rcases abs_cases (x - q) with ⟨h2, h2'⟩ | ⟨h2, h2'⟩ <;>
    rw [h1, h2] <;> constructor <;> intro h' <;> linarith

/-- Reading yields `b` exactly between the middles to the neighbours; the middles belong to the even one. -/
theorem readsAs_iff {b : Nat} (h0 : b ≠ 0) (hb : b < 2047 * 2 ^ 52) (x : ℚ) :
    ReadsAs x b ↔ (halfDown b < x ∨ (halfDown b = x ∧ fractionOf b % 2 = 0)) ∧
      (x < halfUp b ∨ (x = halfUp b ∧ fractionOf b % 2 = 0)) := by
  have hb63 : b < 2 ^ 63 := lt_trans hb (by decide)
  have low := magnitude_lt (show b - 1 < b by omega) hb.le
  have high := magnitude_lt (show b < b + 1 by omega) hb
  constructor
  · intro ⟨_, _, hov, hn⟩
    constructor
    · rcases hn (b - 1) (by omega) ((isFinite_iff (by omega)).2 (by omega)) (by omega) with h | ⟨h, he⟩
      · left
        exact (closer_below low).1 h
      · right
        exact ⟨((equal_below low).1 h).symm, he⟩
    · rcases Nat.lt_or_ge (b + 1) (2047 * 2 ^ 52) with hlt | hge
      · rcases hn (b + 1) (by omega) ((isFinite_iff (by omega)).2 hlt) (by omega) with h | ⟨h, he⟩
        · left
          exact (closer_above high).1 h
        · right
          exact ⟨(equal_above high).1 h, he⟩
      · left
        have : b = 2047 * 2 ^ 52 - 1 := by omega
        rw [this, halfUp_max]
        exact hov
  · intro ⟨hl, hu⟩
    refine ⟨hb63, (isFinite_iff hb63).2 hb, ?_, ?_⟩
    · rcases Nat.lt_or_ge (b + 1) (2047 * 2 ^ 52) with hlt | hge
      · have h1 : halfUp b < magnitude (b + 1) := by unfold halfUp; linarith
        have h2 : magnitude (b + 1) ≤ magnitude (2047 * 2 ^ 52 - 1) := magnitude_mono (by omega) (by omega)
        have h3 : magnitude (2047 * 2 ^ 52 - 1) < overflowLimit := by
          rw [← halfUp_max]
          have := magnitude_lt (show 2047 * 2 ^ 52 - 1 < 2047 * 2 ^ 52 - 1 + 1 by omega) (by decide)
          have mid : ∀ p q : ℚ, p < q → p < (p + q) / 2 := fun p q h => by linarith
          exact mid _ _ this
        rcases hu with h | ⟨h, _⟩ <;> linarith
      · have : b = 2047 * 2 ^ 52 - 1 := by omega
        subst this
        rw [halfUp_max] at hu
        rcases hu with h | ⟨_, h⟩
        · exact h
        · exact absurd h (by decide)
    · intro o ho hfo hne
      rw [isFinite_iff ho] at hfo
      rcases Nat.lt_or_ge o b with hlt | hge
      · have hob := magnitude_lt hlt hb.le
        have hm := magnitude_mono (show o ≤ b - 1 by omega) (by omega)
        rcases hl with h | ⟨h, he⟩
        · left
          rw [closer_below hob]
          unfold halfDown at h
          linarith
        · rcases lt_or_eq_of_le hm with hm | hm
          · left
            rw [closer_below hob]
            unfold halfDown at h
            linarith
          · right
            refine ⟨?_, he⟩
            rw [equal_below hob]
            unfold halfDown at h
            linarith
      · have hbo : b < o := by omega
        have hob := magnitude_lt hbo hfo.le
        have hm := magnitude_mono (show b + 1 ≤ o by omega) hfo.le
        rcases hu with h | ⟨h, he⟩
        · left
          rw [closer_above hob]
          unfold halfUp at h
          linarith
        · rcases lt_or_eq_of_le hm with hm | hm
          · left
            rw [closer_above hob]
            unfold halfUp at h
            linarith
          · right
            refine ⟨?_, he⟩
            rw [equal_above hob]
            unfold halfUp at h
            linarith

section
variable {b : Nat} {d : Finite} (sp : DecodeSpec b d)
include sp

theorem DecodeSpec.hi_eq : d.hi = halfUp b := by
  have h1 := sp.value
  have h2 := sp.plus
  unfold Finite.hi halfUp
  unfold Finite.value at h1
  rw [add_mul, h1, h2]
  ring

theorem DecodeSpec.lo_eq (h : b ≠ 2 ^ 52) : d.lo = halfDown b := by
  have h1 := sp.value
  have h2 := sp.minus h
  unfold Finite.lo halfDown
  unfold Finite.value at h1
  rw [sub_mul, h1, h2]
  ring

/-- Where the first digit would be a zero, the value is close to the power of ten. -/
theorem DecodeSpec.small (hb : b < 2047 * 2 ^ 52) (h0 : b ≠ 0) (k : ℤ) (h1 : d.value < (10 : ℚ) ^ (k - 1))
    (h2 : (10 : ℚ) ^ (k - 1) ≤ d.hi) : 95 * (10 : ℚ) ^ (k - 1) ≤ 100 * d.value := by
  have p : (0 : ℚ) < (2 : ℚ) ^ d.exp := by positivity
  by_cases hbig : 20 * d.plus ≤ d.mant
  · have : (20 : ℚ) * d.plus ≤ d.mant := by exact_mod_cast hbig
    have hle : 20 * d.hi ≤ 21 * d.value := by
      unfold Finite.hi Finite.value
      have := mul_le_mul_of_nonneg_right this p.le
      linarith
    have hv : 0 < d.value := by
      have : (0 : ℚ) < d.mant := by exact_mod_cast sp.ok.pos
      unfold Finite.value
      positivity
    linarith
  · have he : exponentOf b = 0 := by
      by_contra hc
      have := sp.big hc
      have := sp.plus_one
      omega
    obtain ⟨e1, e2⟩ := sp.ulp he
    have hb9 : b ≤ 19 := by
      have := sp.plus_one
      omega
    have hp := sp.plus_one
    have hv : d.value = b * (2 : ℚ) ^ (-1074 : ℤ) := by
      rw [sp.value, magnitude_eq]
      unfold mantissaOf ulpExp
      rw [if_pos he, if_pos he]
      unfold fractionOf
      rw [Nat.mod_eq_of_lt (by omega)]
    have hu : d.hi ≤ (b + 1) * (2 : ℚ) ^ (-1074 : ℤ) := by
      have h2z : (2 : ℚ) ^ (-1074 : ℤ) = 2 * (2 : ℚ) ^ (-1075 : ℤ) := by
        rw [← two_zpow_succ]
        norm_num
      unfold Finite.hi
      rw [e1, e2, h2z]
      have : (d.plus : ℚ) ≤ 2 := by
        rcases hp with h | h <;> rw [h] <;> norm_num
      have pp : (0 : ℚ) < (2 : ℚ) ^ (-1075 : ℤ) := by positivity
      have := mul_le_mul_of_nonneg_right this pp.le
      push_cast
      linarith
    have t1 : (10 : ℚ) ^ (-324 : ℤ) ≤ (2 : ℚ) ^ (-1074 : ℤ) := (tenLeTwo_iff _ _).1 (by decide +kernel)
    have t2 : (2 : ℚ) ^ (-1069 : ℤ) < (10 : ℚ) ^ (-321 : ℤ) := by
      rw [← not_le, ← tenLeTwo_iff]
      decide +kernel
    have t3 : (2 : ℚ) ^ (-1069 : ℤ) = 32 * (2 : ℚ) ^ (-1074 : ℤ) := by
      rw [show (-1069 : ℤ) = 5 + -1074 by norm_num, zpow_add₀ (by norm_num)]
      norm_num
    have hb1 : (1 : ℚ) ≤ b := by exact_mod_cast (show 1 ≤ b by omega)
    have hb2 : (b : ℚ) ≤ 19 := by exact_mod_cast hb9
    have pp : (0 : ℚ) < (2 : ℚ) ^ (-1074 : ℤ) := by positivity
    -- the only powers of ten in question
    have k1 : k - 1 < -321 := by
      by_contra hc
      have : (10 : ℚ) ^ (-321 : ℤ) ≤ (10 : ℚ) ^ (k - 1) := zpow_le_zpow_right₀ (by norm_num) (by omega)
      have : (b + 1) * (2 : ℚ) ^ (-1074 : ℤ) ≤ 32 * (2 : ℚ) ^ (-1074 : ℤ) :=
        mul_le_mul_of_nonneg_right (by linarith) pp.le
      linarith
    have k2 : -324 < k - 1 := by
      by_contra hc
      have : (10 : ℚ) ^ (k - 1) ≤ (10 : ℚ) ^ (-324 : ℤ) := zpow_le_zpow_right₀ (by norm_num) (by omega)
      have : 1 * (2 : ℚ) ^ (-1074 : ℤ) ≤ b * (2 : ℚ) ^ (-1074 : ℤ) := mul_le_mul_of_nonneg_right hb1 pp.le
      linarith
    have tab : ∀ b, b < 20 → ∀ j, j < 2 → b * 10 ^ (322 + j) < 2 ^ 1074 → 2 ^ 1074 ≤ (b + 1) * 10 ^ (322 + j) →
        95 * 2 ^ 1074 ≤ 100 * b * 10 ^ (322 + j) := by
      decide +kernel
    obtain ⟨j, hj, hk⟩ : ∃ j : ℕ, j < 2 ∧ k - 1 = -((322 + j : ℕ) : ℤ) := ⟨(-(k - 1) - 322).toNat, by omega, by omega⟩
    have ht := tab b (by omega) j hj
    generalize 322 + j = e at *
    have f1 : (10 : ℚ) ^ (k - 1) = 1 / ((10 ^ e : ℕ) : ℚ) := by
      rw [hk, zpow_neg, zpow_natCast, one_div, Nat.cast_pow]
      rfl
    have f2 : (2 : ℚ) ^ (-1074 : ℤ) = 1 / ((2 ^ 1074 : ℕ) : ℚ) := by
      rw [show (-1074 : ℤ) = -((1074 : ℕ) : ℤ) by norm_num, zpow_neg, zpow_natCast, one_div, Nat.cast_pow]
      rfl
    have g1 : (0 : ℚ) < ((10 ^ e : ℕ) : ℚ) := by exact_mod_cast (show 0 < 10 ^ e by positivity)
    have g2 : (0 : ℚ) < ((2 ^ 1074 : ℕ) : ℚ) := by exact_mod_cast (show 0 < 2 ^ 1074 by positivity)
    have h3 := le_trans h2 hu
    rw [hv, f1, f2] at h1
    rw [f1, f2] at h3
    rw [hv, f1, f2]
    generalize 2 ^ 1074 = P at *
    generalize 10 ^ e = T at *
    rw [mul_one_div, div_lt_div_iff₀ g2 g1] at h1
    rw [mul_one_div, div_le_div_iff₀ g1 g2] at h3
    rw [mul_one_div, mul_one_div, ← mul_div_assoc, div_le_div_iff₀ g1 g2]
    have h1' : b * T < P := by
      have : ((b * T : ℕ) : ℚ) < P := by push_cast; linarith
      exact_mod_cast this
    have h3' : P ≤ (b + 1) * T := by
      have : (P : ℚ) ≤ (((b + 1) * T : ℕ) : ℚ) := by push_cast; linarith
      exact_mod_cast this
    exact_mod_cast ht h1' h3'

end
end Emio
