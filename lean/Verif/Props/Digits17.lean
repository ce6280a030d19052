import Verif.Props.Order
/-
Property C89: 17 significant digits tell every double from all others.
-/
namespace Emio
open Spec

/-- Neighbouring doubles differ by at least the 2^53-rd part of their magnitude. -/
theorem gap_up {b : ℕ} (hb : b < 2047 * 2 ^ 52) : magnitude b < 2 ^ 53 * (magnitude (b + 1) - magnitude b) := by
  have hm : mantissaOf b < 2 ^ 53 := by unfold mantissaOf fractionOf; split <;> omega
  rw [magnitude_succ hb, add_sub_cancel_left, magnitude_eq]
  exact mul_lt_mul_of_pos_right (by exact_mod_cast hm) (by positivity)

theorem gap_down {b : ℕ} (h0 : b ≠ 0) (hb : b < 2047 * 2 ^ 52) : magnitude b ≤ 2 ^ 53 * (magnitude b - magnitude (b - 1)) := by
  have h := gap_up (b := b - 1) (by omega)
  have hm : mantissaOf (b - 1) < 2 ^ 53 := by unfold mantissaOf fractionOf; split <;> omega
  have hs := magnitude_succ (b := b - 1) (by omega)
  rw [Nat.sub_add_cancel (by omega)] at hs
  rw [hs, add_sub_cancel_left, magnitude_eq]
  have : ((mantissaOf (b - 1) : ℚ) + 1) ≤ 2 ^ 53 := by exact_mod_cast hm
  have := mul_le_mul_of_nonneg_right this (show (0 : ℚ) ≤ 2 ^ ulpExp (b - 1) by positivity)
  linarith

/-- What is as close as that to a double is read as the double. -/
theorem close_reads {b : ℕ} (h0 : b ≠ 0) (hb : b < 2047 * 2 ^ 52) {x : ℚ} (hx : |x - magnitude b| ≤ 1 / 2 * (magnitude b / 10 ^ 16)) :
    ReadsAs x b := by
  have hpos : 0 < magnitude b := by
    have := magnitude_lt (show 0 < b by omega) hb.le
    rwa [magnitude_zero] at this
  have hup := gap_up hb
  have hdown := gap_down h0 hb
  have hlt : magnitude b / 10 ^ 16 < magnitude b / 2 ^ 53 := div_lt_div_of_pos_left hpos (by positivity) (by norm_num)
  have h1 : magnitude b / 2 ^ 53 < magnitude (b + 1) - magnitude b := by rw [div_lt_iff₀ (by positivity)]; linarith
  have h2 : magnitude b / 2 ^ 53 ≤ magnitude b - magnitude (b - 1) := by rw [div_le_iff₀ (by positivity)]; linarith
  rw [abs_le] at hx
  rw [readsAs_iff h0 hb]
  unfold halfDown halfUp
  exact ⟨Or.inl (by linarith), Or.inl (by linarith)⟩

theorem log_le {v : ℚ} (hv : 0 < v) : (10 : ℚ) ^ Int.log 10 v ≤ v := by
  have := Int.zpow_log_le_self (b := 10) (by norm_num) hv
  exact_mod_cast this

/-- Numbers rounded to 17 or more digits. -/
theorem roundDigits_reads {b n : ℕ} (hb : b < 2047 * 2 ^ 52) (hn : 17 ≤ n) : ReadsAs (roundDigits n (magnitude b)) b := by
  rcases Nat.eq_zero_or_pos b with rfl | h0
  · rw [magnitude_zero]
    simpa [roundDigits] using reads_zero
  have hpos : 0 < magnitude b := by
    have := magnitude_lt h0 hb.le
    rwa [magnitude_zero] at this
  refine close_reads (by omega) hb (((C83_error n _ hpos.le).2 (by omega) hpos.ne').trans ?_)
  refine mul_le_mul_of_nonneg_left ?_ (by norm_num)
  rw [le_div_iff₀ (by positivity)]
  have h1 : (10 : ℚ) ^ (Int.log 10 (magnitude b) + 1 - (n : ℤ)) * 10 ^ 16 ≤ (10 : ℚ) ^ Int.log 10 (magnitude b) := by
    rw [← zpow_natCast, ← zpow_add₀ (by norm_num)]
    exact zpow_le_zpow_right₀ (by norm_num) (by push_cast; omega)
  exact h1.trans (log_le hpos)

/-- Numbers rounded to so many decimals that there are 17 digits. -/
theorem roundDecimals_reads {b p : ℕ} (hb : b < 2047 * 2 ^ 52) (h : (10 : ℚ) ^ 16 ≤ magnitude b * 10 ^ p) :
    ReadsAs (roundDecimals p (magnitude b)) b := by
  rcases Nat.eq_zero_or_pos b with rfl | h0
  · rw [magnitude_zero] at h
    norm_num at h
  have hpos : 0 < magnitude b := by
    have := magnitude_lt h0 hb.le
    rwa [magnitude_zero] at this
  refine close_reads (by omega) hb ((C83_error p _ hpos.le).1.trans ?_)
  rw [div_eq_mul_one_div (1 / 2 : ℚ)]
  refine mul_le_mul_of_nonneg_left ?_ (by norm_num)
  rw [le_div_iff₀ (by positivity), div_mul_eq_mul_div, one_mul, div_le_iff₀ (by positivity)]
  exact h

/-! ### C89 17 digits -/

/-- The specification asks for 17 or more significant digits of every number. -/
def Spec.SpecText.Asks17 (t : SpecText) : Prop :=
  ((t.type = some 'e' ∨ t.type = some 'E') ∧ 16 ≤ t.precValue) ∨
  ((t.type = none ∨ t.type = some 'g' ∨ t.type = some 'G') ∧ 17 ≤ t.precValue)

theorem finite_low {bits : ℕ} (hf : IsFinite bits) : bits % 2 ^ 63 < 2047 * 2 ^ 52 := by
  unfold IsFinite exponentOf at hf
  omega

/-- C89: with 17 significant digits, the text of a finite double is its sign and a decimal literal that is read as the
double, and as no other. -/
theorem C89_17_digits (bits : ℕ) (hb : bits < 2 ^ 64) (hf : IsFinite bits) (t : SpecText) (wf : t.WellFormed)
    (fits : t.Fits) (hal : CoreTy.Allows .double t) (h : t.Asks17) :
    ∃ literal x, formatStr ("{:".toList ++ t.text ++ "}".toList) [(CoreArg.double bits).farg] =
        .ok () (paddedNumber t.meaning (signOf t.meaning (signBit bits)) literal) ∧
      Denotes literal x ∧ ReadsAs x (bits % 2 ^ 63) := by
  have hp : ∀ n : ℤ, 0 ≤ n → n ≤ t.precValue → n ≤ precisionOf t.meaning := by
    intro n h0 h
    unfold precisionOf
    rw [if_pos (show 0 ≤ t.meaning.precision from h0.trans h)]
    exact h.trans (Int.self_le_toNat _)
  have hnd : ¬ (t.type = none ∧ t.prec = none) := by
    rintro ⟨h1, h2⟩
    have : t.precValue = -1 := by unfold SpecText.precValue; rw [h2]
    rcases h with ⟨_, h⟩ | ⟨_, h⟩ <;> omega
  obtain ⟨literal, h1, h2⟩ := C42_significant_digits_are_correctly_rounded bits hb hf t wf fits hal
    (by rcases h with ⟨h | h, _⟩ | ⟨h | h | h, _⟩ <;> rw [h] <;> simp) hnd
  refine ⟨literal, _, h1, h2, ?_⟩
  rw [← magnitude_low bits]
  refine roundDigits_reads (finite_low hf) ?_
  rcases h with ⟨h, h17⟩ | ⟨h, h17⟩
  · rw [if_pos h]
    have := hp 16 (by norm_num) h17
    omega
  · rw [if_neg (by rcases h with h | h | h <;> rw [h] <;> simp)]
    have := hp 17 (by norm_num) h17
    omega

/-- C89: in fixed notation it is so if the number has 17 digits with that many decimals. -/
theorem C89_fixed (bits : ℕ) (hb : bits < 2 ^ 64) (hf : IsFinite bits) (t : SpecText) (wf : t.WellFormed)
    (fits : t.Fits) (hal : CoreTy.Allows .double t) (ht : t.type = some 'f' ∨ t.type = some 'F')
    (h : (10 : ℚ) ^ 16 ≤ magnitude bits * 10 ^ precisionOf t.meaning) :
    ∃ literal x, formatStr ("{:".toList ++ t.text ++ "}".toList) [(CoreArg.double bits).farg] =
        .ok () (paddedNumber t.meaning (signOf t.meaning (signBit bits)) literal) ∧
      Denotes literal x ∧ ReadsAs x (bits % 2 ^ 63) := by
  obtain ⟨literal, h1, h2⟩ := C42_fixed_is_correctly_rounded bits hb hf t wf fits hal ht
  refine ⟨literal, _, h1, h2, ?_⟩
  rw [← magnitude_low bits] at h ⊢
  exact roundDecimals_reads (finite_low hf) h

theorem paddedNumber_bare {s : Specs} (hw : s.width = 0) (front digits : Str) : paddedNumber s front digits = front ++ digits := by
  unfold paddedNumber padded
  have h0 : ∀ n, fillCount s n = 0 := fun n => by simp [fillCount, hw]
  simp only [h0]
  split
  · simp
  · unfold surround; simp; split <;> rfl

/-- C89: so different finite doubles have different texts (0 and -0 as well), as far as they are not padded. -/
theorem C89_different_texts (a b : ℕ) (ha : a < 2 ^ 64) (hb : b < 2 ^ 64) (fa : IsFinite a) (fb : IsFinite b) (t : SpecText)
    (wf : t.WellFormed) (fits : t.Fits) (hal : CoreTy.Allows .double t) (h : t.Asks17) (bare : t.width = []) (hne : a ≠ b) :
    formatStr ("{:".toList ++ t.text ++ "}".toList) [(CoreArg.double a).farg] ≠
      formatStr ("{:".toList ++ t.text ++ "}".toList) [(CoreArg.double b).farg] := by
  obtain ⟨la, x, e1, d1, r1⟩ := C89_17_digits a ha fa t wf fits hal h
  obtain ⟨lb, y, e2, d2, r2⟩ := C89_17_digits b hb fb t wf fits hal h
  have hw : t.meaning.width = 0 := by show (t.widthValue : Int) = 0; unfold SpecText.widthValue; rw [bare]; rfl
  rw [e1, e2, paddedNumber_bare hw, paddedNumber_bare hw]
  intro heq
  have heq : signOf t.meaning (signBit a) ++ la = signOf t.meaning (signBit b) ++ lb := by injection heq
  have digit : ∀ {l : Str} {z : ℚ}, Denotes l z → ∃ c cs, l = c :: cs ∧ c.isDigit := by
    rintro l z ⟨d, hd, rfl, -⟩
    cases hi : d.int with
    | nil => exact absurd hi hd.int.1
    | cons c cs => exact ⟨c, _, by unfold Decimal.text; rw [hi]; rfl, hd.int.2 c (by rw [hi]; simp)⟩
  obtain ⟨ca, csa, rfl, ga⟩ := digit d1
  obtain ⟨cb, csb, rfl, gb⟩ := digit d2
  have nd : ∀ c : Char, c.isDigit → c ≠ '-' ∧ c ≠ '+' ∧ c ≠ ' ' := by
    intro c hc
    refine ⟨?_, ?_, ?_⟩ <;> rintro rfl <;> revert hc <;> decide
  have na := nd ca ga
  have nb := nd cb gb
  have key : signBit a = signBit b ∧ ca :: csa = cb :: csb := by
    unfold signOf at heq
    cases ea : signBit a <;> cases eb : signBit b <;> simp only [ea, eb, Bool.false_eq_true, if_false, if_true] at heq
    · refine ⟨rfl, ?_⟩
      split_ifs at heq <;> simpa using heq
    · exfalso
      split_ifs at heq <;> simp at heq
      exact na.1 heq.1
    · exfalso
      split_ifs at heq <;> simp at heq
      exact nb.1 heq.1.symm
    · refine ⟨rfl, ?_⟩
      simpa using heq
  rw [key.2] at d1
  have hxy := C39_reading_is_unique.1 _ _ _ d1 d2
  rw [hxy] at r1
  have hm := C39_reading_is_unique.2 _ _ _ r1 r2
  have hs := key.1
  unfold signBit at hs
  rw [Bool.eq_iff_iff] at hs
  simp only [beq_iff_eq] at hs
  omega

/-- 16 digits are not enough: 1 and the next double. -/
theorem C89_16_digits_are_not_enough :
    formatStr "{:.15e}".toList [(CoreArg.double 0x3FF0000000000000).farg] =
      formatStr "{:.15e}".toList [(CoreArg.double 0x3FF0000000000001).farg] := by
  decide +kernel

/-- `{:.17g}` and `{:+.16e}` of 1/3. -/
example : formatStr "{:.17g}".toList [(CoreArg.double 0x3FD5555555555555).farg] = .ok () "0.33333333333333331".toList ∧
    formatStr "{:.16e}".toList [(CoreArg.double 0x3FD5555555555555).farg] = .ok () "3.3333333333333331e-01".toList := by
  decide +kernel

example : ∃ t : SpecText, t.WellFormed ∧ t.Fits ∧ CoreTy.Allows .double t ∧ t.Asks17 ∧ t.width = [] ∧ t.text = "+.16e".toList :=
  ⟨{ sign := '+', prec := some "16".toList, type := 'e' },
    ⟨by simp, by simp, by simp, by simp, by decide, by simp, by intro c hc; left; simp at hc; subst hc; rfl⟩,
    by unfold SpecText.Fits; decide, ⟨by decide, by simp⟩, Or.inl ⟨Or.inl rfl, by decide⟩, rfl, rfl⟩

/-- 123456.0 with 11 decimals. -/
example : (10 : ℚ) ^ 16 ≤ magnitude 0x40FE240000000000 * 10 ^ precisionOf { type := 'f', precision := 11 } := by decide +kernel

end Emio
