import Verif.Spec.Floats
import Verif.Props.Unified
import Verif.Props.Digits17
/-
Property C95: the text of a float is read as the float.
-/
namespace Emio
open Spec

/-! ### The order and spacing of floats -/

def floatMantissa (b : Nat) : Nat := if floatExponent b = 0 then floatFraction b else 2 ^ 23 + floatFraction b

def floatUlp (b : Nat) : ℤ := if floatExponent b = 0 then -149 else (floatExponent b : ℤ) - 150

theorem floatMagnitude_eq (b : Nat) : floatMagnitude b = floatMantissa b * (2 : ℚ) ^ floatUlp b := by
  unfold floatMagnitude floatMantissa floatUlp
  split
  · rfl
  · push_cast
    rfl

theorem floatMagnitude_succ {b : Nat} (h : b < 255 * 2 ^ 23) :
    floatMagnitude (b + 1) = floatMagnitude b + (2 : ℚ) ^ floatUlp b := by
  rw [floatMagnitude_eq, floatMagnitude_eq]
  by_cases hf : floatFraction b + 1 < 2 ^ 23
  · have hE : floatExponent (b + 1) = floatExponent b := by
      unfold floatExponent floatFraction at *
      omega
    have hF : floatFraction (b + 1) = floatFraction b + 1 := by
      unfold floatFraction at *
      omega
    have hu : floatUlp (b + 1) = floatUlp b := by unfold floatUlp; rw [hE]
    have hm : floatMantissa (b + 1) = floatMantissa b + 1 := by
      unfold floatMantissa
      rw [hE, hF]
      split <;> omega
    rw [hu, hm]
    push_cast
    ring
  · have hE : floatExponent (b + 1) = floatExponent b + 1 := by
      unfold floatExponent floatFraction at *
      omega
    have hF : floatFraction (b + 1) = 0 := by
      unfold floatFraction at *
      omega
    have hm : floatMantissa (b + 1) = 2 ^ 23 := by
      unfold floatMantissa
      rw [if_neg (by omega), hF]
      rfl
    have hfr : floatFraction b = 2 ^ 23 - 1 := by
      unfold floatFraction at *
      omega
    by_cases h0 : floatExponent b = 0
    · have hu : floatUlp (b + 1) = floatUlp b := by
        unfold floatUlp
        rw [hE, h0]
        rfl
      have hm' : floatMantissa b = 2 ^ 23 - 1 := by unfold floatMantissa; rw [if_pos h0, hfr]
      rw [hu, hm, hm']
      push_cast
      ring
    · have hu : floatUlp (b + 1) = floatUlp b + 1 := by
        unfold floatUlp
        rw [hE, if_neg h0, if_neg (by omega)]
        push_cast
        ring
      have hm' : floatMantissa b = 2 ^ 24 - 1 := by unfold floatMantissa; rw [if_neg h0, hfr]; rfl
      rw [hu, hm, hm', two_zpow_succ]
      push_cast
      ring

theorem floatMagnitude_mono {a b : Nat} (hab : a ≤ b) (hb : b ≤ 255 * 2 ^ 23) : floatMagnitude a ≤ floatMagnitude b := by
  induction b, hab using Nat.le_induction with
  | base => exact le_rfl
  | succ b _ ih =>
    refine le_trans (ih (by omega)) ?_
    rw [floatMagnitude_succ (by omega)]
    have : (0 : ℚ) < 2 ^ floatUlp b := by positivity
    linarith

theorem floatMagnitude_lt {a b : Nat} (hab : a < b) (hb : b ≤ 255 * 2 ^ 23) : floatMagnitude a < floatMagnitude b := by
  refine lt_of_lt_of_le ?_ (floatMagnitude_mono (show a + 1 ≤ b by omega) hb)
  rw [floatMagnitude_succ (by omega)]
  have : (0 : ℚ) < 2 ^ floatUlp a := by positivity
  linarith

theorem float_finite_lt {b : Nat} (hb : b < 2 ^ 31) : FloatFinite b ↔ b < 255 * 2 ^ 23 := by
  unfold FloatFinite floatExponent
  omega

theorem float_top : floatMagnitude (255 * 2 ^ 23) = 2 ^ 128 ∧ floatMagnitude (255 * 2 ^ 23 - 1) = (2 ^ 24 - 1) * 2 ^ 104 := by
  decide +kernel

/-- What lies strictly within half the distances to the neighbours is read as the float. -/
theorem near_reads_float {b : ℕ} (h0 : b ≠ 0) (hb : b < 255 * 2 ^ 23) {x : ℚ}
    (hl : floatMagnitude (b - 1) + floatMagnitude b < 2 * x) (hu : 2 * x < floatMagnitude b + floatMagnitude (b + 1)) :
    ReadsAsFloat x b := by
  refine ⟨by omega, (float_finite_lt (by omega)).2 hb, ?_, fun o ho hof hne => Or.inl ?_⟩
  · have h1 := floatMagnitude_mono (show b ≤ 255 * 2 ^ 23 - 1 by omega) (by omega)
    have h2 := floatMagnitude_mono (show b + 1 ≤ 255 * 2 ^ 23 by omega) (by omega)
    rw [float_top.2] at h1
    rw [float_top.1] at h2
    norm_num at h1 h2 ⊢
    linarith
  · have hof := (float_finite_lt ho).1 hof
    rcases Nat.lt_or_ge o b with hlt | hge
    · have h1 := floatMagnitude_mono (show o ≤ b - 1 by omega) (by omega)
      have h2 := floatMagnitude_lt (show b - 1 < b by omega) (by omega)
      rw [abs_lt, abs_of_pos (show 0 < x - floatMagnitude o by linarith)]
      constructor <;> linarith
    · have h1 := floatMagnitude_mono (show b + 1 ≤ o by omega) (by omega)
      have h2 := floatMagnitude_lt (show b < b + 1 by omega) (by omega)
      rw [abs_lt, abs_of_neg (show x - floatMagnitude o < 0 by linarith)]
      constructor <;> linarith

theorem reads_zero_float : ReadsAsFloat 0 0 := by
  refine ⟨by decide, by decide, by norm_num, fun o ho hof hne => Or.inl ?_⟩
  have hz : floatMagnitude 0 = 0 := by decide +kernel
  have := floatMagnitude_lt (show 0 < o by omega) ((float_finite_lt ho).1 hof).le
  rw [hz] at this ⊢
  rw [sub_zero, abs_zero, zero_sub, abs_neg, abs_of_pos this]
  exact this

/-! ### Floats among the doubles -/

theorem widen_even (b : Nat) : widenFloat b % 2 = 0 := by
  obtain ⟨s, e, f, h1, h2, h3, h4, h5, h6, h7, h8, h9⟩ := widen_fields b
  have hf : f % 2 = 0 := by
    by_cases h255 : floatExponent b = 255
    · rw [(h6 h255).2]; omega
    · by_cases hz : floatExponent b = 0
      · by_cases hfz : floatFraction b = 0
        · rw [(h8 hz hfz).2]
        · rw [(h9 hz hfz).2]
          have hlt : floatFraction b < 2 ^ 23 := Nat.mod_lt _ (by decide)
          have hlog : (floatFraction b).log2 < 23 := (Nat.log2_lt hfz).2 hlt
          obtain ⟨k, hk⟩ : ∃ k, 52 - (floatFraction b).log2 = k + 1 := ⟨51 - (floatFraction b).log2, by omega⟩
          rw [hk, pow_succ, ← Nat.mul_assoc]
          omega
      · rw [(h7 h255 hz).2]; omega
  omega

/-- What is read as the double a float is, is read as the float. -/
theorem reads_widened {b : ℕ} (hb : b < 2 ^ 31) (hf : FloatFinite b) {x : ℚ} (h : ReadsAs x (widenFloat b % 2 ^ 63)) :
    ReadsAsFloat x b := by
  obtain ⟨h1, h2, h3, h4⟩ := h
  have key : ∀ o, floatExponent o ≠ 255 → magnitude (widenFloat o % 2 ^ 63) = floatMagnitude o ∧
      widenFloat o % 2 ^ 63 < 2047 * 2 ^ 52 ∧ widenFloat o % 2 ^ 63 % 2 = 0 := by
    intro o ho
    obtain ⟨g1, g2, _⟩ := C70_float_is_exact o ho
    have := widen_even o
    exact ⟨by rw [magnitude_low]; exact g2, finite_low g1, by omega⟩
  have fin : ∀ d, d < 2047 * 2 ^ 52 → d < 2 ^ 63 ∧ IsFinite d := by
    intro d hd
    unfold IsFinite exponentOf
    omega
  obtain ⟨k1, k2, k3⟩ := key b (by unfold FloatFinite at hf; omega)
  rw [k1] at h4
  have hbl := (float_finite_lt hb).1 hf
  refine ⟨hb, hf, ?_, fun o ho hof hne => Or.inl ?_⟩
  · by_contra hc
    push_neg at hc
    have hd : magnitude (1150 * 2 ^ 52 + (2 ^ 24 - 1) * 2 ^ 28) = (2 ^ 25 - 1) * 2 ^ 103 := by decide +kernel
    have hm : floatMagnitude b ≤ (2 ^ 24 - 1) * 2 ^ 104 := by
      rw [← float_top.2]
      exact floatMagnitude_mono (by omega) (by omega)
    have hlt : floatMagnitude b < (2 ^ 25 - 1) * 2 ^ 103 := lt_of_le_of_lt hm (by norm_num)
    have hne : 1150 * 2 ^ 52 + (2 ^ 24 - 1) * 2 ^ 28 ≠ widenFloat b % 2 ^ 63 := by
      intro he
      rw [he, k1] at hd
      exact absurd hd hlt.ne
    obtain ⟨f1, f2⟩ := fin (1150 * 2 ^ 52 + (2 ^ 24 - 1) * 2 ^ 28) (by norm_num)
    have h5 := h4 _ f1 f2 hne
    rw [hd, abs_of_pos (show 0 < x - floatMagnitude b by linarith), abs_of_nonneg (show 0 ≤ x - (2 ^ 25 - 1) * 2 ^ 103 by linarith)] at h5
    rcases h5 with h5 | ⟨h5, _⟩ <;> linarith
  · obtain ⟨l1, l2, l3⟩ := key o (by unfold FloatFinite at hof; omega)
    have hol := (float_finite_lt ho).1 hof
    have hmne : floatMagnitude o ≠ floatMagnitude b := by
      rcases Nat.lt_or_ge o b with h | h
      · exact (floatMagnitude_lt h hbl.le).ne
      · exact (floatMagnitude_lt (show b < o by omega) hol.le).ne'
    have hwne : widenFloat o % 2 ^ 63 ≠ widenFloat b % 2 ^ 63 := by
      intro he
      rw [he, k1] at l1
      exact hmne l1.symm
    rcases h4 _ (fin _ l2).1 (fin _ l2).2 hwne with h5 | ⟨h5, _⟩
    · rwa [l1] at h5
    · exfalso
      rw [l1] at h5
      -- a double strictly between the two floats is closer to the middle
      have close : ∀ d, d < 2047 * 2 ^ 52 → d ≠ widenFloat b % 2 ^ 63 → |x - floatMagnitude b| ≤ |x - magnitude d| := by
        intro d hd hdne
        rcases h4 d (fin d hd).1 (fin d hd).2 hdne with h | ⟨h, _⟩
        · exact h.le
        · exact h.le
      have hsum : floatMagnitude b + floatMagnitude o = 2 * x := by
        rcases abs_eq_abs.1 h5 with h | h
        · exact absurd (by linarith) hmne
        · linarith
      rcases Nat.lt_or_ge (widenFloat b % 2 ^ 63) (widenFloat o % 2 ^ 63) with hlt | hge
      · have m1 := magnitude_lt (show widenFloat b % 2 ^ 63 < widenFloat b % 2 ^ 63 + 1 by omega) (by omega)
        have m2 := magnitude_lt (show widenFloat b % 2 ^ 63 + 1 < widenFloat o % 2 ^ 63 by omega) (by omega)
        rw [k1] at m1
        rw [l1] at m2
        have hc := close (widenFloat b % 2 ^ 63 + 1) (by omega) (by omega)
        rw [abs_of_pos (show 0 < x - floatMagnitude b by linarith), le_abs] at hc
        rcases hc with hc | hc <;> linarith
      · have m1 := magnitude_lt (show widenFloat o % 2 ^ 63 < widenFloat o % 2 ^ 63 + 1 by omega) (by omega)
        have m2 := magnitude_lt (show widenFloat o % 2 ^ 63 + 1 < widenFloat b % 2 ^ 63 by omega) (by omega)
        rw [l1] at m1
        rw [k1] at m2
        have hc := close (widenFloat o % 2 ^ 63 + 1) (by omega) (by omega)
        rw [abs_of_neg (show x - floatMagnitude b < 0 by linarith), le_abs] at hc
        rcases hc with hc | hc <;> linarith

/-! ### C95 Floats -/

theorem float_low {b : Nat} (hf : FloatFinite b) :
    FloatFinite (b % 2 ^ 31) ∧ widenFloat (b % 2 ^ 31) % 2 ^ 63 = widenFloat b % 2 ^ 63 := by
  have he : floatExponent (b % 2 ^ 31) = floatExponent b := by unfold floatExponent; omega
  refine ⟨by unfold FloatFinite at *; omega, ?_⟩
  obtain ⟨s, e, f, h1, h2, h3, h4, h5, h6, h7, h8, h9⟩ := widen_fields b
  obtain ⟨s', e', f', g1, g2, g3, g4, g5, g6, g7, g8, g9⟩ := widen_fields (b % 2 ^ 31)
  have hfr : floatFraction (b % 2 ^ 31) = floatFraction b := by unfold floatFraction; omega
  rw [he, hfr] at g6 g7 g8 g9
  have heq : e = e' ∧ f = f' := by
    unfold FloatFinite at hf
    by_cases hz : floatExponent b = 0
    · by_cases hfz : floatFraction b = 0
      · obtain ⟨a1, a2⟩ := h8 hz hfz
        obtain ⟨b1, b2⟩ := g8 hz hfz
        exact ⟨a1.trans b1.symm, a2.trans b2.symm⟩
      · obtain ⟨a1, a2⟩ := h9 hz hfz
        obtain ⟨b1, b2⟩ := g9 hz hfz
        exact ⟨a1.trans b1.symm, a2.trans b2.symm⟩
    · obtain ⟨a1, a2⟩ := h7 (by omega) hz
      obtain ⟨b1, b2⟩ := g7 (by omega) hz
      exact ⟨a1.trans b1.symm, a2.trans b2.symm⟩
  obtain ⟨rfl, rfl⟩ := heq
  omega

/-- The full property: the text of a finite float is read as the float, and nothing with fewer digits is. -/
def FloatsAreShortest : Prop :=
  ∀ b, b < 2 ^ 31 → FloatFinite b → ∀ text, formatStr "{}".toList [(UserArg.float b).farg] = .ok () text →
    (∃ x, Denotes text x ∧ ReadsAsFloat x b) ∧
    ∀ (n D : ℕ) (q : ℤ), D < 10 ^ n → ReadsAsFloat (D * (10 : ℚ) ^ q) b → significantDigits text ≤ n

theorem tenth_reads : ReadsAsFloat ((1 : ℕ) * (10 : ℚ) ^ (-1 : ℤ)) 0x3DCCCCCD := by
  refine near_reads_float (by decide) (by decide) ?_ ?_
  · rw [show floatMagnitude (0x3DCCCCCD - 1) = 13421772 / 2 ^ 27 by decide +kernel,
      show floatMagnitude 0x3DCCCCCD = 13421773 / 2 ^ 27 by decide +kernel]
    norm_num
  · rw [show floatMagnitude (0x3DCCCCCD + 1) = 13421774 / 2 ^ 27 by decide +kernel,
      show floatMagnitude 0x3DCCCCCD = 13421773 / 2 ^ 27 by decide +kernel]
    norm_num

/-- It does not hold: 0.1f is written as 0.10000000149011612, with 17 digits, since it is converted to a double. -/
theorem C95_shortest_violated : ¬ FloatsAreShortest := by
  intro h
  have h1 : formatStr "{}".toList [(UserArg.float 0x3DCCCCCD).farg] = .ok () "0.10000000149011612".toList := by decide +kernel
  have h2 := (h 0x3DCCCCCD (by decide) (by decide) _ h1).2 1 1 (-1) (by norm_num) tenth_reads
  exact absurd h2 (by decide)

/-- The first half holds, with every specification without a type and a precision: the text of a finite float is its sign and
a decimal literal that is read as the float (and fill characters). -/
theorem C95_round_trip_partial (b : Nat) (hf : FloatFinite b) (t : SpecText) (wf : t.WellFormed) (fits : t.Fits)
    (h : t.type = none ∧ t.prec = none) :
    ∃ literal x, formatStr ("{:".toList ++ t.text ++ "}".toList) [(UserArg.float b).farg] =
        .ok () (paddedNumber t.meaning (signOf t.meaning (b / 2 ^ 31 % 2 == 1)) literal) ∧
      Denotes literal x ∧ ReadsAsFloat x (b % 2 ^ 31) := by
  obtain ⟨h1, _, h3, h4⟩ := C70_float_is_exact b (by unfold FloatFinite at hf; omega)
  obtain ⟨literal, x, g1, g2, g3⟩ := C39_round_trip (widenFloat b) h4 h1 t wf fits h
  obtain ⟨l1, l2⟩ := float_low hf
  refine ⟨literal, x, ?_, g2, reads_widened (Nat.mod_lt _ (by decide)) l1 (by rw [l2]; exact g3)⟩
  rw [← h3]
  exact g1

/-- The specification asks for 9 or more significant digits of every number. -/
def Spec.SpecText.Asks9 (t : SpecText) : Prop :=
  ((t.type = some 'e' ∨ t.type = some 'E') ∧ 8 ≤ t.precValue) ∨
  ((t.type = none ∨ t.type = some 'g' ∨ t.type = some 'G') ∧ 9 ≤ t.precValue)

/-- What is as close as that to a float is read as the float. -/
theorem close_reads_float {b : ℕ} (h0 : b ≠ 0) (hb : b < 255 * 2 ^ 23) {x : ℚ}
    (hx : |x - floatMagnitude b| ≤ 1 / 2 * (floatMagnitude b / 10 ^ 8)) : ReadsAsFloat x b := by
  have hz : floatMagnitude 0 = 0 := by decide +kernel
  have hpos : 0 < floatMagnitude b := by
    have := floatMagnitude_lt (show 0 < b by omega) hb.le
    rwa [hz] at this
  have gap : ∀ a, a < 255 * 2 ^ 23 → floatMagnitude (a + 1) ≤ 2 ^ 24 * (floatMagnitude (a + 1) - floatMagnitude a) := by
    intro a ha
    have hm : floatMantissa a < 2 ^ 24 := by unfold floatMantissa floatFraction; split <;> omega
    rw [floatMagnitude_succ ha, add_sub_cancel_left, floatMagnitude_eq]
    have : ((floatMantissa a : ℚ) + 1) ≤ 2 ^ 24 := by exact_mod_cast hm
    have := mul_le_mul_of_nonneg_right this (show (0 : ℚ) ≤ 2 ^ floatUlp a by positivity)
    linarith
  have hup := gap b hb
  have hdown := gap (b - 1) (by omega)
  rw [Nat.sub_add_cancel (by omega)] at hdown
  have hmono := floatMagnitude_lt (show b < b + 1 by omega) (by omega)
  rw [abs_le] at hx
  refine near_reads_float h0 hb ?_ ?_ <;> linarith

/-- C95: with 9 or more significant digits, the text of a finite float is its sign and a decimal literal that is read as the
float. -/
theorem C95_9_digits (b : ℕ) (hf : FloatFinite b) (t : SpecText) (wf : t.WellFormed) (fits : t.Fits)
    (hal : CoreTy.Allows .double t) (h : t.Asks9) :
    ∃ literal x, formatStr ("{:".toList ++ t.text ++ "}".toList) [(UserArg.float b).farg] =
        .ok () (paddedNumber t.meaning (signOf t.meaning (b / 2 ^ 31 % 2 == 1)) literal) ∧
      Denotes literal x ∧ ReadsAsFloat x (b % 2 ^ 31) := by
  have hp : ∀ n : ℤ, 0 ≤ n → n ≤ t.precValue → n ≤ precisionOf t.meaning := by
    intro n h0 h
    unfold precisionOf
    rw [if_pos (show 0 ≤ t.meaning.precision from h0.trans h)]
    exact h.trans (Int.self_le_toNat _)
  have hnd : ¬ (t.type = none ∧ t.prec = none) := by
    rintro ⟨h1, h2⟩
    have : t.precValue = -1 := by unfold SpecText.precValue; rw [h2]
    rcases h with ⟨_, h⟩ | ⟨_, h⟩ <;> omega
  obtain ⟨w1, w2, w3, w4⟩ := C70_float_is_exact b (by unfold FloatFinite at hf; omega)
  obtain ⟨literal, h1, h2⟩ := C42_significant_digits_are_correctly_rounded (widenFloat b) w4 w1 t wf fits hal
    (by rcases h with ⟨h | h, _⟩ | ⟨h | h | h, _⟩ <;> rw [h] <;> simp) hnd
  refine ⟨literal, _, by rw [← w3]; exact h1, h2, ?_⟩
  have hb : b % 2 ^ 31 < 255 * 2 ^ 23 := by unfold FloatFinite floatExponent at hf; omega
  have hlow : floatMagnitude (b % 2 ^ 31) = floatMagnitude b := by
    have he : floatExponent (b % 2 ^ 31) = floatExponent b := by unfold floatExponent; omega
    have hfr : floatFraction (b % 2 ^ 31) = floatFraction b := by unfold floatFraction; omega
    unfold floatMagnitude
    rw [he, hfr]
  rw [w2, ← hlow]
  have hn : 9 ≤ (if t.type = some 'e' ∨ t.type = some 'E' then precisionOf t.meaning + 1 else max (precisionOf t.meaning) 1) := by
    rcases h with ⟨h, h9⟩ | ⟨h, h9⟩
    · rw [if_pos h]
      have := hp 8 (by norm_num) h9
      omega
    · rw [if_neg (by rcases h with h | h | h <;> rw [h] <;> simp)]
      have := hp 9 (by norm_num) h9
      omega
  revert hn
  generalize (if t.type = some 'e' ∨ t.type = some 'E' then precisionOf t.meaning + 1 else max (precisionOf t.meaning) 1) = n
  intro hn
  have hz : floatMagnitude 0 = 0 := by decide +kernel
  rcases Nat.eq_zero_or_pos (b % 2 ^ 31) with h0 | h0
  · rw [h0, hz]
    simpa [roundDigits] using reads_zero_float
  have hpos : 0 < floatMagnitude (b % 2 ^ 31) := by
    have := floatMagnitude_lt h0 hb.le
    rwa [hz] at this
  refine close_reads_float (by omega) hb (((C83_error n _ hpos.le).2 (by omega) hpos.ne').trans ?_)
  refine mul_le_mul_of_nonneg_left ?_ (by norm_num)
  rw [le_div_iff₀ (by positivity)]
  have h1 : (10 : ℚ) ^ (Int.log 10 (floatMagnitude (b % 2 ^ 31)) + 1 - (n : ℤ)) * 10 ^ 8 ≤
      (10 : ℚ) ^ Int.log 10 (floatMagnitude (b % 2 ^ 31)) := by
    rw [← zpow_natCast, ← zpow_add₀ (by norm_num)]
    exact zpow_le_zpow_right₀ (by norm_num) (by push_cast; omega)
  exact h1.trans (log_le hpos)

/-- 8 digits are not enough: two floats next to 1000. -/
theorem C95_8_digits_are_not_enough :
    formatStr "{:.7e}".toList [(UserArg.float 0x447A0001).farg] = formatStr "{:.7e}".toList [(UserArg.float 0x447A0002).farg] := by
  decide +kernel

/-- A number is read as one float only. -/
theorem C95_reading_is_unique (x : ℚ) (b b' : Nat) (ha : ReadsAsFloat x b) (hb : ReadsAsFloat x b') : b = b' := by
  by_contra hne
  obtain ⟨h1, h2, h3, h4⟩ := ha
  obtain ⟨g1, g2, g3, g4⟩ := hb
  have a := h4 b' g1 g2 (fun e => hne e.symm)
  have b1 := g4 b h1 h2 hne
  have heq : |x - floatMagnitude b| = |x - floatMagnitude b'| := by
    rcases a with a | a
    · rcases b1 with b1 | b1
      · exact absurd a (not_lt.2 b1.le)
      · exact b1.1.symm
    · exact a.1
  have e1 : floatFraction b % 2 = 0 := by
    rcases a with a | a
    · exact absurd heq (ne_of_lt a)
    · exact a.2
  have e2 : floatFraction b' % 2 = 0 := by
    rcases b1 with b1 | b1
    · exact absurd heq.symm (ne_of_lt b1)
    · exact b1.2
  -- between two doubles with even fractions there is another one, which is closer
  have key : ∀ {b b' : Nat}, b < b' → b' < 2 ^ 31 → FloatFinite b' → FloatFinite b → floatFraction b % 2 = 0 → floatFraction b' % 2 = 0 →
      |x - floatMagnitude b| = |x - floatMagnitude b'| →
      (∀ other, other < 2 ^ 31 → FloatFinite other → other ≠ b → |x - floatMagnitude b| < |x - floatMagnitude other| ∨
        (|x - floatMagnitude b| = |x - floatMagnitude other| ∧ floatFraction b % 2 = 0)) → False := by
    intro b b' hlt h63 hf' hf e1 e2 heq h4
    have hgap : b + 1 < b' := by
      rcases Nat.lt_or_ge (b + 1) b' with h | h
      · exact h
      · have : b' = b + 1 := by omega
        subst this
        unfold floatFraction at e1 e2
        omega
    have hb' : b' ≤ 255 * 2 ^ 23 := by unfold FloatFinite floatExponent at hf'; omega
    have m1 := floatMagnitude_lt (show b < b + 1 by omega) (by omega)
    have m2 := floatMagnitude_lt hgap hb'
    have hmid : x = (floatMagnitude b + floatMagnitude b') / 2 := by
      rcases abs_eq_abs.1 heq with h | h
      · linarith
      · linarith
    have hfm : FloatFinite (b + 1) := by unfold FloatFinite floatExponent at *; omega
    have := h4 (b + 1) (by omega) hfm (by omega)
    have hc : |x - floatMagnitude (b + 1)| < |x - floatMagnitude b| := by
      rw [abs_of_pos (show 0 < x - floatMagnitude b by rw [hmid]; linarith), abs_lt]
      constructor <;> rw [hmid] <;> linarith
    rcases this with h | h
    · linarith
    · linarith [h.1]
  rcases Nat.lt_or_ge b b' with hlt | hge
  · exact key hlt g1 g2 h2 e1 e2 heq h4
  · exact key (show b' < b by omega) h1 h2 g2 e2 e1 heq.symm g4

/-- `{:.9g}` of 0.1f and `{:+}` of the smallest float; the specifications are well-formed. -/
example : formatStr "{:.9g}".toList [(UserArg.float 0x3DCCCCCD).farg] = .ok () "0.100000001".toList ∧
    formatStr "{:+}".toList [(UserArg.float 1).farg] = .ok () "+1.401298464324817e-45".toList ∧
    formatStr "{:.7e}".toList [(UserArg.float 0x447A0001).farg] = .ok () "1.0000001e+03".toList := by
  decide +kernel

example : ∃ t : SpecText, t.WellFormed ∧ t.Fits ∧ CoreTy.Allows .double t ∧ t.Asks9 ∧ t.text = ".8e".toList :=
  ⟨{ prec := some "8".toList, type := 'e' },
    ⟨by simp, by simp, by simp, by simp, by decide, by simp, by intro c hc; left; simp at hc; subst hc; rfl⟩,
    by unfold SpecText.Fits; decide, ⟨by decide, by simp⟩, Or.inl ⟨Or.inl rfl, by decide⟩, rfl⟩

end Emio
