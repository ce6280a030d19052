import Verif.Lemmas.Exact
/-
`decode` splits a double exactly, and the order and spacing of the doubles.
-/
namespace Emio

/-- The integral mantissa of a double. -/
def mantissaOf (b : Nat) : Nat := if exponentOf b = 0 then fractionOf b else 2 ^ 52 + fractionOf b

/-- The exponent of its unit in the last place. -/
def ulpExp (b : Nat) : ℤ := if exponentOf b = 0 then -1074 else (exponentOf b : ℤ) - 1075

theorem magnitude_eq (b : Nat) : magnitude b = mantissaOf b * (2 : ℚ) ^ ulpExp b := by
  unfold magnitude mantissaOf ulpExp
  split
  · rfl
  · push_cast
    rfl

theorem exponentOf_low (bits : Nat) : exponentOf (bits % 2 ^ 63) = exponentOf bits := by
  unfold exponentOf
  omega

theorem fractionOf_low (bits : Nat) : fractionOf (bits % 2 ^ 63) = fractionOf bits := by
  unfold fractionOf
  omega

theorem magnitude_low (bits : Nat) : magnitude (bits % 2 ^ 63) = magnitude bits := by
  unfold magnitude
  rw [exponentOf_low, fractionOf_low]

theorem two_zpow_succ (z : ℤ) : (2 : ℚ) ^ (z + 1) = 2 * (2 : ℚ) ^ z := by
  rw [zpow_add_one₀ (by norm_num), mul_comm]

/-- Neighbouring doubles are one unit in the last place of the lower one apart. -/
theorem magnitude_succ {b : Nat} (h : b < 2047 * 2 ^ 52) :
    magnitude (b + 1) = magnitude b + (2 : ℚ) ^ ulpExp b := by
  rw [magnitude_eq, magnitude_eq]
  by_cases hf : fractionOf b + 1 < 2 ^ 52
  · have hE : exponentOf (b + 1) = exponentOf b := by
      unfold exponentOf fractionOf at *
      omega
    have hF : fractionOf (b + 1) = fractionOf b + 1 := by
      unfold fractionOf at *
      omega
    have hu : ulpExp (b + 1) = ulpExp b := by unfold ulpExp; rw [hE]
    have hm : mantissaOf (b + 1) = mantissaOf b + 1 := by
      unfold mantissaOf
      rw [hE, hF]
      split <;> omega
    rw [hu, hm]
    push_cast
    ring
  · have hE : exponentOf (b + 1) = exponentOf b + 1 := by
      unfold exponentOf fractionOf at *
      omega
    have hF : fractionOf (b + 1) = 0 := by
      unfold fractionOf at *
      omega
    have hm : mantissaOf (b + 1) = 2 ^ 52 := by
      unfold mantissaOf
      rw [if_neg (by omega), hF]
      rfl
    have hfr : fractionOf b = 2 ^ 52 - 1 := by
      unfold fractionOf at *
      omega
    by_cases h0 : exponentOf b = 0
    · have hu : ulpExp (b + 1) = ulpExp b := by
        unfold ulpExp
        rw [hE, h0]
        rfl
      have hm' : mantissaOf b = 2 ^ 52 - 1 := by unfold mantissaOf; rw [if_pos h0, hfr]
      rw [hu, hm, hm']
      push_cast
      ring
    · have hu : ulpExp (b + 1) = ulpExp b + 1 := by
        unfold ulpExp
        rw [hE, if_neg h0, if_neg (by omega)]
        push_cast
        ring
      have hm' : mantissaOf b = 2 ^ 53 - 1 := by unfold mantissaOf; rw [if_neg h0, hfr]; rfl
      rw [hu, hm, hm', two_zpow_succ]
      push_cast
      ring

theorem magnitude_mono {a b : Nat} (hab : a ≤ b) (hb : b ≤ 2047 * 2 ^ 52) : magnitude a ≤ magnitude b := by
  induction b, hab using Nat.le_induction with
  | base => exact le_rfl
  | succ b _ ih =>
    refine le_trans (ih (by omega)) ?_
    rw [magnitude_succ (by omega)]
    have : (0 : ℚ) < 2 ^ ulpExp b := by positivity
    linarith

theorem magnitude_lt {a b : Nat} (hab : a < b) (hb : b ≤ 2047 * 2 ^ 52) : magnitude a < magnitude b := by
  refine lt_of_lt_of_le ?_ (magnitude_mono (show a + 1 ≤ b by omega) hb)
  rw [magnitude_succ (by omega)]
  have : (0 : ℚ) < 2 ^ ulpExp a := by positivity
  linarith

theorem isFinite_iff {b : Nat} (h : b < 2 ^ 63) : IsFinite b ↔ b < 2047 * 2 ^ 52 := by
  unfold IsFinite exponentOf
  omega

theorem ulpExp_bounds {b : Nat} (h : b < 2047 * 2 ^ 52) : -1074 ≤ ulpExp b ∧ ulpExp b ≤ 971 := by
  unfold ulpExp exponentOf
  split <;> omega

/-- The number that `decode` yields. -/
structure DecodeSpec (b : Nat) (d : Finite) : Prop where
  ok : FiniteOk d
  value : d.value = magnitude b
  minus_one : d.minus = 1
  plus_one : d.plus = 1 ∨ d.plus = 2
  plus : d.plus * (2 : ℚ) ^ d.exp = (magnitude (b + 1) - magnitude b) / 2
  minus : b ≠ 2 ^ 52 → d.minus * (2 : ℚ) ^ d.exp = (magnitude b - magnitude (b - 1)) / 2
  inclusive : d.inclusive = (decide (exponentOf b = 0) || decide (fractionOf b % 2 = 0))
  big : exponentOf b ≠ 0 → 2 ^ 53 ≤ d.mant
  even : d.mant % 2 = 0
  ulp : exponentOf b = 0 → d.exp = -1075 ∧ d.mant = 2 * b
  size : d.mant + d.plus < (d.minus + d.plus) * 10 ^ 16

theorem decode_spec {bits : Nat} (hb : bits < 2 ^ 64) (hf : IsFinite bits) (h0 : bits % 2 ^ 63 ≠ 0) :
    (decode bits).category = .finite ∧ (decode bits).negative = signBit bits ∧
      DecodeSpec (bits % 2 ^ 63) (decode bits).finite := by
  have hneg : decide (bits / 2 ^ 63 ≠ 0) = signBit bits := by
    unfold signBit
    rw [Bool.eq_iff_iff, decide_eq_true_iff, beq_iff_eq]
    omega
  have hlt : bits % 2 ^ 63 < 2047 * 2 ^ 52 := by
    unfold IsFinite exponentOf at hf
    omega
  have hE : bits / 2 ^ 52 % 2 ^ 11 = exponentOf (bits % 2 ^ 63) := by unfold exponentOf; omega
  have hF : bits % 2 ^ 52 = fractionOf (bits % 2 ^ 63) := by unfold fractionOf; omega
  have hE' : exponentOf (bits % 2 ^ 63) < 2047 := by unfold exponentOf; omega
  have hF' : fractionOf (bits % 2 ^ 63) < 2 ^ 52 := by unfold fractionOf; omega
  unfold decode
  simp only [if_neg h0, hneg]
  rw [hE, hF]
  have hbF : exponentOf (bits % 2 ^ 63) = 0 → fractionOf (bits % 2 ^ 63) = bits % 2 ^ 63 := by
    unfold exponentOf fractionOf
    omega
  have hpred : ∀ b, b ≠ 0 → b < 2047 * 2 ^ 52 → magnitude b = magnitude (b - 1) + (2 : ℚ) ^ ulpExp (b - 1) := by
    intro b h1 h2
    have := magnitude_succ (b := b - 1) (by omega)
    rwa [Nat.sub_add_cancel (by omega)] at this
  have hp := hpred _ h0 hlt
  have hs := magnitude_succ hlt
  have hb63 : bits % 2 ^ 63 = exponentOf (bits % 2 ^ 63) * 2 ^ 52 + fractionOf (bits % 2 ^ 63) := by
    unfold exponentOf fractionOf
    omega
  have hup : exponentOf (bits % 2 ^ 63 - 1) = if fractionOf (bits % 2 ^ 63) = 0 then exponentOf (bits % 2 ^ 63) - 1
      else exponentOf (bits % 2 ^ 63) := by
    unfold exponentOf fractionOf
    split <;> omega
  generalize bits % 2 ^ 63 = b at *
  have hm := magnitude_eq b
  generalize hEE : exponentOf b = e at *
  generalize hFF : fractionOf b = f at *
  by_cases he0 : e = 0
  · have e1 : ((e : Nat) : Int) - 1075 = -1075 := by omega
    simp only [e1, if_true, if_neg (show ¬ (-1075 : Int) = 972 by decide), ne_eq, not_true_eq_false, if_false]
    refine ⟨by trivial, by trivial, ?_⟩
    have hfb : f = b := hbF he0
    have hul : ulpExp b = -1074 := by unfold ulpExp; rw [hEE, if_pos he0]
    have hul' : ulpExp (b - 1) = -1074 := by
      unfold ulpExp
      rw [hup, if_pos]
      rw [he0]
      split <;> rfl
    have hman : mantissaOf b = f := by unfold mantissaOf; rw [hEE, if_pos he0, hFF]
    have h2 : (2 : ℚ) ^ (-1074 : ℤ) = 2 * (2 : ℚ) ^ (-1075 : ℤ) := by
      rw [← two_zpow_succ]
      norm_num
    rw [hul] at hs hm
    rw [hul'] at hp
    rw [hman] at hm
    refine ⟨⟨?_, ?_, ?_, ?_⟩, ?_, rfl, Or.inl rfl, ?_, ?_, ?_, ?_, ?_, ?_, ?_⟩
    · simp only; omega
    · simp only; omega
    · simp only; omega
    · simp only; omega
    · unfold Finite.value
      rw [hm, h2]
      push_cast
      ring
    · rw [hs, h2]
      push_cast
      ring
    · intro _
      rw [hp, h2]
      push_cast
      ring
    · rw [hEE, hFF, he0]
      simp
    · intro hc
      omega
    · simp only
      omega
    · intro _
      refine ⟨rfl, ?_⟩
      simp only
      omega
    · simp only
      omega
  · have e1 : ¬ ((e : Nat) : Int) - 1075 = -1075 := by omega
    have e2 : ¬ ((e : Nat) : Int) - 1075 = 972 := by omega
    simp only [e1, e2, ne_eq, not_false_eq_true, if_true, if_false]
    have hul : ulpExp b = (e : ℤ) - 1075 := by unfold ulpExp; rw [hEE, if_neg he0]
    have hman : mantissaOf b = 2 ^ 52 + f := by unfold mantissaOf; rw [hEE, if_neg he0, hFF]
    rw [hul] at hs hm
    rw [hman] at hm
    by_cases hf0 : f = 0
    · subst hf0
      rw [Nat.zero_add, if_pos rfl]
      refine ⟨by trivial, by trivial, ?_⟩
      have h2 : (2 : ℚ) ^ ((e : ℤ) - 1075) = 4 * (2 : ℚ) ^ ((e : ℤ) - 1075 - 2) := by
        have h3 := two_zpow_succ ((e : ℤ) - 1075 - 2)
        have h4 := two_zpow_succ ((e : ℤ) - 1075 - 2 + 1)
        rw [show (e : ℤ) - 1075 - 2 + 1 + 1 = (e : ℤ) - 1075 by ring, h3] at h4
        rw [h4]
        ring
      refine ⟨⟨?_, ?_, ?_, ?_⟩, ?_, rfl, Or.inr rfl, ?_, ?_, ?_, ?_, ?_, ?_, ?_⟩
      · simp only; omega
      · simp only; omega
      · simp only; omega
      · simp only; omega
      · unfold Finite.value
        rw [hm, h2]
        push_cast
        ring
      · rw [hs, h2]
        push_cast
        ring
      · intro hc
        have hul' : ulpExp (b - 1) = (e : ℤ) - 1075 - 2 + 1 := by
          unfold ulpExp
          rw [hup, if_pos rfl, if_neg (by omega)]
          omega
        rw [hul', two_zpow_succ] at hp
        rw [hp]
        push_cast
        ring
      · rw [hEE, hFF]
        simp
      · intro _
        simp only
        omega
      · simp only
      · intro hc
        omega
      · simp only
        omega
    · rw [if_neg (show ¬ f + 2 ^ 52 = 2 ^ 52 by omega)]
      refine ⟨by trivial, by trivial, ?_⟩
      have h2 : (2 : ℚ) ^ ((e : ℤ) - 1075) = 2 * (2 : ℚ) ^ ((e : ℤ) - 1075 - 1) := by
        rw [← two_zpow_succ]
        ring_nf
      refine ⟨⟨?_, ?_, ?_, ?_⟩, ?_, rfl, Or.inl rfl, ?_, ?_, ?_, ?_, ?_, ?_, ?_⟩
      · simp only; omega
      · simp only; omega
      · simp only; omega
      · simp only; omega
      · unfold Finite.value
        rw [hm, h2]
        push_cast
        ring
      · rw [hs, h2]
        push_cast
        ring
      · intro hc
        have hul' : ulpExp (b - 1) = (e : ℤ) - 1075 := by
          unfold ulpExp
          rw [hup, if_neg hf0, if_neg he0]
        rw [hul', h2] at hp
        rw [hp]
        push_cast
        ring
      · rw [hEE, hFF]
        simp [he0]
      · intro _
        simp only
        omega
      · simp only
        omega
      · intro hc
        omega
      · simp only
        omega

/-- The classes. -/
theorem decode_zero {bits : Nat} (hb : bits < 2 ^ 64) (h0 : bits % 2 ^ 63 = 0) :
    (decode bits).category = .zero ∧ (decode bits).negative = signBit bits := by
  unfold decode
  simp only [if_pos h0]
  refine ⟨trivial, ?_⟩
  unfold signBit
  rw [Bool.eq_iff_iff, decide_eq_true_iff, beq_iff_eq]
  omega

theorem decode_special {bits : Nat} (hb : bits < 2 ^ 64) (h : ¬ IsFinite bits) :
    (decode bits).category = (if fractionOf bits = 0 then .infinity else .nan) ∧ (decode bits).negative = signBit bits := by
  have h0 : bits % 2 ^ 63 ≠ 0 := by
    unfold IsFinite exponentOf at h
    omega
  have hE : bits / 2 ^ 52 % 2 ^ 11 = 2047 := by
    unfold IsFinite exponentOf at h
    omega
  unfold decode
  simp only [if_neg h0]
  rw [hE]
  simp only [if_neg (show ¬ ((2047 : Nat) : Int) - 1075 = -1075 by decide), if_pos (show ((2047 : Nat) : Int) - 1075 = 972 by decide)]
  refine ⟨rfl, ?_⟩
  unfold signBit
  rw [Bool.eq_iff_iff, decide_eq_true_iff, beq_iff_eq]
  omega

end Emio
