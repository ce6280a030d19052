import Verif.Props.Float
import Verif.Spec.Order
/-
Property C83: formatting keeps the order of floating-point numbers.
-/
namespace Emio
open Spec

theorem roundHalfEven_near {x : ℚ} (h : 0 ≤ x) : |(roundHalfEven x : ℚ) - x| ≤ 1 / 2 := by
  have h1 := Nat.floor_le h
  have h2 := Nat.lt_floor_add_one x
  unfold roundHalfEven
  simp only
  split
  · rw [abs_le]; constructor <;> linarith
  · split
    · push_cast; rw [abs_le]; constructor <;> linarith
    · split
      · rw [abs_le]; constructor <;> linarith
      · push_cast; rw [abs_le]; constructor <;> linarith

theorem roundHalfEven_mono {x y : ℚ} (hx : 0 ≤ x) (h : x ≤ y) : roundHalfEven x ≤ roundHalfEven y := by
  have hy := hx.trans h
  have hf : ⌊x⌋₊ ≤ ⌊y⌋₊ := Nat.floor_mono h
  have b : ∀ z : ℚ, ⌊z⌋₊ ≤ roundHalfEven z ∧ roundHalfEven z ≤ ⌊z⌋₊ + 1 := by
    intro z
    unfold roundHalfEven
    simp only
    split
    · omega
    · split
      · omega
      · split <;> omega
  rcases Nat.lt_or_eq_of_le hf with hlt | heq
  · have := b x; have := b y; omega
  · have bx := b x
    have bY := b y
    by_contra hcon
    have e1 : roundHalfEven x = ⌊x⌋₊ + 1 := by omega
    have e2 : roundHalfEven y = ⌊y⌋₊ := by omega
    unfold roundHalfEven at e1 e2
    simp only at e1 e2
    rw [heq] at e1
    split at e1
    · omega
    · split at e2
      · linarith
      · split at e1
        · split at e2
          · omega
          · linarith
        · split at e2
          · omega
          · split at e1 <;> split at e2 <;> omega

theorem roundDecimals_mono (p : ℕ) {x y : ℚ} (hx : 0 ≤ x) (h : x ≤ y) : roundDecimals p x ≤ roundDecimals p y := by
  unfold roundDecimals
  have hp : (0 : ℚ) < 10 ^ p := by positivity
  have := roundHalfEven_mono (mul_nonneg hx hp.le) (mul_le_mul_of_nonneg_right h hp.le)
  exact div_le_div_of_nonneg_right (by exact_mod_cast this) hp.le

theorem roundDigits_nonneg (n : ℕ) (x : ℚ) : 0 ≤ roundDigits n x := by
  unfold roundDigits
  split
  · exact le_rfl
  · positivity

theorem roundDigits_between {n : ℕ} (hn : 1 ≤ n) {x : ℚ} (hx : 0 < x) :
    (10 : ℚ) ^ Int.log 10 x ≤ roundDigits n x ∧ roundDigits n x ≤ (10 : ℚ) ^ (Int.log 10 x + 1) := by
  unfold roundDigits
  rw [if_neg hx.ne']
  simp only
  have h1 : (10 : ℚ) ^ Int.log 10 x ≤ x := by exact_mod_cast Int.zpow_log_le_self (b := 10) (by decide) hx
  have h2 : x < (10 : ℚ) ^ (Int.log 10 x + 1) := by exact_mod_cast Int.lt_zpow_succ_log_self (b := 10) (by decide) x
  generalize Int.log 10 x = l at h1 h2
  have hp : (0 : ℚ) < (10 : ℚ) ^ ((n : ℤ) - 1 - l) := by positivity
  have hp' : (0 : ℚ) < (10 : ℚ) ^ (l + 1 - n) := by positivity
  have e : ∀ a b : ℤ, (10 : ℚ) ^ a * (10 : ℚ) ^ b = (10 : ℚ) ^ (a + b) := fun a b => (zpow_add₀ (by norm_num) a b).symm
  have i1 : ((10 ^ (n - 1) : ℕ) : ℚ) ≤ x * (10 : ℚ) ^ ((n : ℤ) - 1 - l) := by
    have := mul_le_mul_of_nonneg_right h1 hp.le
    rw [e] at this
    have e2 : l + ((n : ℤ) - 1 - l) = ((n - 1 : ℕ) : ℤ) := by omega
    rw [e2, zpow_natCast] at this
    exact_mod_cast this
  have i2 : x * (10 : ℚ) ^ ((n : ℤ) - 1 - l) < ((10 ^ n : ℕ) : ℚ) := by
    have := mul_lt_mul_of_pos_right h2 hp
    rw [e] at this
    have e2 : l + 1 + ((n : ℤ) - 1 - l) = (n : ℤ) := by omega
    rw [e2, zpow_natCast] at this
    exact_mod_cast this
  have j1 : 10 ^ (n - 1) ≤ roundHalfEven (x * (10 : ℚ) ^ ((n : ℤ) - 1 - l)) := by
    have := Nat.le_floor i1
    unfold roundHalfEven
    simp only
    split
    · exact this
    · split
      · omega
      · split <;> omega
  have j2 : roundHalfEven (x * (10 : ℚ) ^ ((n : ℤ) - 1 - l)) ≤ 10 ^ n := roundHalfEven_le (by positivity) i2
  constructor
  · have : ((10 ^ (n - 1) : ℕ) : ℚ) * (10 : ℚ) ^ (l + 1 - n) ≤
        (roundHalfEven (x * (10 : ℚ) ^ ((n : ℤ) - 1 - l)) : ℚ) * (10 : ℚ) ^ (l + 1 - n) :=
      mul_le_mul_of_nonneg_right (by exact_mod_cast j1) hp'.le
    refine le_trans (le_of_eq ?_) this
    push_cast
    rw [← zpow_natCast, e]
    congr 1
    omega
  · have : (roundHalfEven (x * (10 : ℚ) ^ ((n : ℤ) - 1 - l)) : ℚ) * (10 : ℚ) ^ (l + 1 - n) ≤
        ((10 ^ n : ℕ) : ℚ) * (10 : ℚ) ^ (l + 1 - n) := mul_le_mul_of_nonneg_right (by exact_mod_cast j2) hp'.le
    refine le_trans this (le_of_eq ?_)
    push_cast
    rw [← zpow_natCast, e]
    congr 1
    omega

theorem roundDigits_mono {n : ℕ} (hn : 1 ≤ n) {x y : ℚ} (hx : 0 ≤ x) (h : x ≤ y) : roundDigits n x ≤ roundDigits n y := by
  rcases hx.eq_or_lt with rfl | hx
  · have : roundDigits n 0 = 0 := by unfold roundDigits; simp
    rw [this]; exact roundDigits_nonneg n y
  have hy := hx.trans_le h
  have hlog : Int.log 10 x ≤ Int.log 10 y := Int.log_mono_right hx h
  rcases hlog.eq_or_lt with he | hl
  · unfold roundDigits
    rw [if_neg hx.ne', if_neg hy.ne', ← he]
    simp only
    refine mul_le_mul_of_nonneg_right ?_ (by positivity)
    exact_mod_cast roundHalfEven_mono (by positivity) (mul_le_mul_of_nonneg_right h (by positivity))
  · refine le_trans (roundDigits_between hn hx).2 (le_trans ?_ (roundDigits_between hn hy).1)
    exact zpow_le_zpow_right₀ (by norm_num) (by omega)

/-- Reading keeps the order. -/
theorem readsAs_mono {x y : ℚ} {a b : ℕ} (hx : ReadsAs x a) (hy : ReadsAs y b) (h : magnitude a < magnitude b) : x < y := by
  have hne : a ≠ b := by rintro rfl; exact lt_irrefl _ h
  obtain ⟨a1, a2, a3, a4⟩ := hx
  obtain ⟨b1, b2, b3, b4⟩ := hy
  have e1 : |x - magnitude a| ≤ |x - magnitude b| := by
    rcases a4 b b1 b2 hne.symm with h | h
    · exact h.le
    · exact h.1.le
  have e2 : |y - magnitude b| ≤ |y - magnitude a| := by
    rcases b4 a a1 a2 hne with h | h
    · exact h.le
    · exact h.1.le
  have hx : 2 * x ≤ magnitude a + magnitude b := by
    by_contra hc
    rw [abs_of_nonneg (by linarith)] at e1
    rcases le_total (magnitude b) x with h' | h'
    · rw [abs_of_nonneg (by linarith)] at e1; linarith
    · rw [abs_of_nonpos (by linarith)] at e1; linarith
  have hy : magnitude a + magnitude b ≤ 2 * y := by
    by_contra hc
    rw [abs_of_nonpos (by linarith)] at e2
    rcases le_total y (magnitude a) with h' | h'
    · rw [abs_of_nonpos (by linarith)] at e2; linarith
    · rw [abs_of_nonneg (by linarith)] at e2; linarith
  have hle : x ≤ y := by linarith
  rcases hle.eq_or_lt with rfl | hlt
  · exact absurd (C39_reading_is_unique.2 _ _ _ ⟨a1, a2, a3, a4⟩ ⟨b1, b2, b3, b4⟩) hne
  · exact hlt

theorem magnitude_nonneg (b : ℕ) : 0 ≤ magnitude b := by unfold magnitude; split <;> positivity

theorem magnitude_mod (b : ℕ) : magnitude (b % 2 ^ 63) = magnitude b := by
  have h1 : fractionOf (b % 2 ^ 63) = fractionOf b := by unfold fractionOf; omega
  have h2 : exponentOf (b % 2 ^ 63) = exponentOf b := by unfold exponentOf; omega
  unfold magnitude
  rw [h1, h2]

theorem magnitude_zero : magnitude 0 = 0 := by decide +kernel

/-- What number the text of a double denotes: the shortest one that is read back, or the rounded value. -/
def Shows (t : SpecText) (bits : ℕ) (x : ℚ) : Prop :=
  if t.type = none ∧ t.prec = none then
    ReadsAs x (bits % 2 ^ 63) ∧ x = (shortestDigits (bits % 2 ^ 63)).2.1 *
      (10 : ℚ) ^ ((shortestDigits (bits % 2 ^ 63)).2.2 + 1 - (shortestDigits (bits % 2 ^ 63)).1)
  else if t.type = some 'f' ∨ t.type = some 'F' then x = roundDecimals (precisionOf t.meaning) (magnitude bits)
  else x = roundDigits (if t.type = some 'e' ∨ t.type = some 'E' then precisionOf t.meaning + 1
    else max (precisionOf t.meaning) 1) (magnitude bits)

theorem double_shows (bits : ℕ) (hb : bits < 2 ^ 64) (hf : IsFinite bits) (t : SpecText) (wf : t.WellFormed)
    (fits : t.Fits) (hal : CoreTy.Allows .double t) :
    ∃ literal x, formatStr ("{:".toList ++ t.text ++ "}".toList) [(CoreArg.double bits).farg] =
        .ok () (paddedNumber t.meaning (signOf t.meaning (signBit bits)) literal) ∧ Denotes literal x ∧ Shows t bits x := by
  unfold Shows
  by_cases hd : t.type = none ∧ t.prec = none
  · simp only [if_pos hd]
    obtain ⟨n, D, k, hs, hr⟩ := default_text hb hf wf fits hd
    refine ⟨_, _, hr, shown_denotes t.alt (n := n) (D := D) ?_ ?_ k, ?_⟩
    · rcases hs with ⟨_, rfl, _⟩ | sh
      · exact le_rfl
      · exact sh.n_pos
    · rcases hs with ⟨_, rfl, rfl, _⟩ | sh
      · decide
      · exact sh.D_high
    · rcases hs with ⟨h0, rfl, rfl, rfl⟩ | sh
      · rw [h0]
        have : shortestDigits 0 = (1, 0, 0) := by unfold shortestDigits; rw [if_pos rfl]
        rw [this]
        simp only [Nat.cast_zero, zero_mul, and_true]
        exact reads_zero
      · refine ⟨sh.reads, ?_⟩
        have h0 : bits % 2 ^ 63 ≠ 0 := by
          intro h0
          have h1 := sh.reads
          rw [h0] at h1
          have h2 := C39_reading_is_unique
          have := sh.shortest 0 0 0 (by decide) (by rw [h0]; simpa using reads_zero)
          have := sh.n_pos
          omega
        rw [shortestDigits_eq h0 sh]
        simp
  · simp only [if_neg hd]
    by_cases hff : t.type = some 'f' ∨ t.type = some 'F'
    · obtain ⟨l, h1, h2⟩ := C42_fixed_is_correctly_rounded bits hb hf t wf fits hal hff
      exact ⟨l, _, h1, h2, by rw [if_pos hff]⟩
    · obtain ⟨l, h1, h2⟩ := C42_significant_digits_are_correctly_rounded bits hb hf t wf fits hal
        ⟨fun h => hff (Or.inl h), fun h => hff (Or.inr h)⟩ hd
      exact ⟨l, _, h1, h2, by rw [if_neg hff]⟩

theorem shows_zero (t : SpecText) : Shows t 0 0 := by
  unfold Shows
  split
  · have : shortestDigits (0 % 2 ^ 63) = (1, 0, 0) := by unfold shortestDigits; rw [if_pos (by decide)]
    rw [this]
    simp only [Nat.cast_zero, zero_mul, and_true]
    exact reads_zero
  · split
    · rw [magnitude_zero]
      unfold roundDecimals
      have : roundHalfEven 0 = 0 := roundHalfEven_zero le_rfl (by norm_num)
      simp [this]
    · rw [magnitude_zero]
      unfold roundDigits
      simp

theorem shows_mono {t : SpecText} {a b : ℕ} {x y : ℚ} (fa : IsFinite a) (fb : IsFinite b) (hx : Shows t a x)
    (hy : Shows t b y) (h : magnitude a ≤ magnitude b) :
    x ≤ y ∧ (t.type = none ∧ t.prec = none → magnitude a < magnitude b → x < y) := by
  unfold Shows at hx hy
  by_cases hd : t.type = none ∧ t.prec = none
  · rw [if_pos hd] at hx hy
    have lt : magnitude a < magnitude b → x < y := fun h => readsAs_mono hx.1 hy.1 (by rwa [magnitude_mod, magnitude_mod])
    refine ⟨?_, fun _ => lt⟩
    rcases h.eq_or_lt with he | hl
    · have low : ∀ c, IsFinite c → c % 2 ^ 63 < 2047 * 2 ^ 52 := by
        intro c hc; unfold IsFinite exponentOf at hc; omega
      have hab : a % 2 ^ 63 = b % 2 ^ 63 := by
        rcases Nat.lt_trichotomy (a % 2 ^ 63) (b % 2 ^ 63) with h | h | h
        · have := magnitude_lt h (low b fb).le
          rw [magnitude_mod, magnitude_mod, he] at this
          exact absurd this (lt_irrefl _)
        · exact h
        · have := magnitude_lt h (low a fa).le
          rw [magnitude_mod, magnitude_mod, he] at this
          exact absurd this (lt_irrefl _)
      rw [hx.2, hy.2, hab]
    · exact (lt hl).le
  · rw [if_neg hd] at hx hy
    refine ⟨?_, fun h => absurd h hd⟩
    by_cases hff : t.type = some 'f' ∨ t.type = some 'F'
    · rw [if_pos hff] at hx hy
      rw [hx, hy]
      exact roundDecimals_mono _ (magnitude_nonneg a) h
    · rw [if_neg hff] at hx hy
      rw [hx, hy]
      exact roundDigits_mono (by split <;> omega) (magnitude_nonneg a) h

/-- C83: of two finite numbers formatted with the same specification, the text of the smaller one does not denote a larger
number; without type and precision it denotes a smaller one. -/
theorem C83_order_is_kept (a b : ℕ) (ha : a < 2 ^ 64) (hb : b < 2 ^ 64) (fa : IsFinite a) (fb : IsFinite b) (t : SpecText)
    (wf : t.WellFormed) (fits : t.Fits) (hal : CoreTy.Allows .double t) :
    ∃ la x lb y,
      formatStr ("{:".toList ++ t.text ++ "}".toList) [(CoreArg.double a).farg] =
        .ok () (paddedNumber t.meaning (signOf t.meaning (signBit a)) la) ∧ Denotes la x ∧
      formatStr ("{:".toList ++ t.text ++ "}".toList) [(CoreArg.double b).farg] =
        .ok () (paddedNumber t.meaning (signOf t.meaning (signBit b)) lb) ∧ Denotes lb y ∧
      (valueOf a ≤ valueOf b → signed a x ≤ signed b y) ∧
      (t.type = none ∧ t.prec = none → valueOf a < valueOf b → signed a x < signed b y) := by
  obtain ⟨la, x, a1, a2, a3⟩ := double_shows a ha fa t wf fits hal
  obtain ⟨lb, y, b1, b2, b3⟩ := double_shows b hb fb t wf fits hal
  refine ⟨la, x, lb, y, a1, a2, b1, b2, ?_⟩
  have f0 : IsFinite 0 := by decide +kernel
  have ma := magnitude_nonneg a
  have mb := magnitude_nonneg b
  have z := shows_zero t
  have x0 := shows_mono f0 fa z a3 (by rw [magnitude_zero]; exact ma)
  have y0 := shows_mono f0 fb z b3 (by rw [magnitude_zero]; exact mb)
  rw [magnitude_zero] at x0 y0
  unfold valueOf signed
  cases signBit a <;> cases signBit b <;> simp only [Bool.false_eq_true, if_false, if_true]
  · exact ⟨fun h => (shows_mono fa fb a3 b3 h).1, fun hd h => (shows_mono fa fb a3 b3 h.le).2 hd h⟩
  · refine ⟨fun h => ?_, fun _ h => by linarith⟩
    have e1 := (shows_mono fa f0 a3 z (by rw [magnitude_zero]; linarith)).1
    have e2 := (shows_mono fb f0 b3 z (by rw [magnitude_zero]; linarith)).1
    linarith
  · refine ⟨fun h => by linarith [x0.1, y0.1], fun hd h => ?_⟩
    rcases ma.eq_or_lt with e | e
    · have := y0.2 hd (by linarith)
      linarith [x0.1]
    · have := x0.2 hd e
      linarith [y0.1]
  · exact ⟨fun h => by linarith [(shows_mono fb fa b3 a3 (by linarith)).1],
      fun hd h => by linarith [(shows_mono fb fa b3 a3 (by linarith)).2 hd (by linarith)]⟩

/-- C83: the sign of a finite number has no influence on its digits. -/
theorem C83_sign_is_only_a_sign (bits : ℕ) (hb : bits < 2 ^ 63) (hf : IsFinite bits) (t : SpecText) (wf : t.WellFormed)
    (fits : t.Fits) (hal : CoreTy.Allows .double t) :
    ∃ literal,
      formatStr ("{:".toList ++ t.text ++ "}".toList) [(CoreArg.double bits).farg] =
        .ok () (paddedNumber t.meaning (signOf t.meaning false) literal) ∧
      formatStr ("{:".toList ++ t.text ++ "}".toList) [(CoreArg.double (2 ^ 63 + bits)).farg] =
        .ok () (paddedNumber t.meaning (signOf t.meaning true) literal) := by
  have hmod : (2 ^ 63 + bits) % 2 ^ 63 = bits % 2 ^ 63 := by omega
  have hmag : magnitude (2 ^ 63 + bits) = magnitude bits := by rw [← magnitude_mod, hmod, magnitude_mod]
  have hfin : finiteText t.meaning (2 ^ 63 + bits) = finiteText t.meaning bits := by
    unfold finiteText
    simp only [hmag, hmod]
  have hexp : exponentOf (2 ^ 63 + bits) = exponentOf bits := by unfold exponentOf; omega
  have hf' : IsFinite (2 ^ 63 + bits) := by unfold IsFinite; rw [hexp]; exact hf
  have s1 : signBit bits = false := by
    unfold signBit
    have : bits / 2 ^ 63 % 2 = 0 := by omega
    rw [this]; rfl
  have s2 : signBit (2 ^ 63 + bits) = true := by
    unfold signBit
    have : (2 ^ 63 + bits) / 2 ^ 63 % 2 = 1 := by omega
    rw [this]; rfl
  have r1 := render_double bits (by omega) t wf fits hal
  have r2 := render_double (2 ^ 63 + bits) (by omega) t wf fits hal
  have hl : LosesZero t.meaning (2 ^ 63 + bits) ↔ LosesZero t.meaning bits := by
    unfold LosesZero
    rw [hmag]
    simp only [hf, hf']
  unfold actualText floatText at r1 r2
  by_cases h : LosesZero t.meaning bits
  · rw [if_pos h, s1] at r1
    rw [if_pos (hl.2 h), s2, hfin] at r2
    exact ⟨_, r1, r2⟩
  · rw [if_neg h, if_pos hf, s1] at r1
    rw [if_neg (fun h' => h (hl.1 h')), if_pos hf', s2, hfin] at r2
    exact ⟨_, r1, r2⟩

/-- The error of the rounded values of C42 is at most half a unit of the last digit. -/
theorem C83_error (p : ℕ) (v : ℚ) (hv : 0 ≤ v) :
    |roundDecimals p v - v| ≤ 1 / 2 / 10 ^ p ∧
      (1 ≤ p → v ≠ 0 → |roundDigits p v - v| ≤ 1 / 2 * (10 : ℚ) ^ (Int.log 10 v + 1 - p)) := by
  constructor
  · unfold roundDecimals
    have hp : (0 : ℚ) < 10 ^ p := by positivity
    have h := roundHalfEven_near (mul_nonneg hv hp.le)
    have e : (roundHalfEven (v * 10 ^ p) : ℚ) / 10 ^ p - v = (roundHalfEven (v * 10 ^ p) - v * 10 ^ p) / 10 ^ p := by
      field_simp
    rw [e, abs_div, abs_of_pos hp]
    exact div_le_div_of_nonneg_right h hp.le
  · intro _ h0
    unfold roundDigits
    rw [if_neg h0]
    simp only
    have hp : (0 : ℚ) < (10 : ℚ) ^ (Int.log 10 v + 1 - p) := by positivity
    have h := roundHalfEven_near (x := v * (10 : ℚ) ^ ((p : ℤ) - 1 - Int.log 10 v)) (by positivity)
    generalize hr : (roundHalfEven (v * (10 : ℚ) ^ ((p : ℤ) - 1 - Int.log 10 v)) : ℚ) = r at h
    have e : r * (10 : ℚ) ^ (Int.log 10 v + 1 - p) - v =
        (r - v * (10 : ℚ) ^ ((p : ℤ) - 1 - Int.log 10 v)) * (10 : ℚ) ^ (Int.log 10 v + 1 - p) := by
      rw [sub_mul, mul_assoc, ← zpow_add₀ (by norm_num)]
      have : (p : ℤ) - 1 - Int.log 10 v + (Int.log 10 v + 1 - p) = 0 := by ring
      rw [this, zpow_zero, mul_one]
    rw [e, abs_mul, abs_of_pos hp]
    exact mul_le_mul_of_nonneg_right h hp.le

/-- 0.1 is smaller than 0.3, and its text as well: 0.1 and 0.3 (0x3FD3333333333333). -/
example : valueOf 0x3FB999999999999A < valueOf 0x3FD3333333333333 ∧ valueOf 0xC000000000000000 < valueOf 0x3FB999999999999A ∧
    IsFinite 0x3FB999999999999A ∧ IsFinite 0xC000000000000000 := by decide +kernel

example : SpecText.WellFormed { prec := some ['2'], type := 'f' } ∧ SpecText.Fits { prec := some ['2'], type := 'f' } ∧
    CoreTy.Allows .double { prec := some ['2'], type := 'f' } :=
  ⟨⟨by simp, by simp, by simp, by simp, by simp, by simp, by simp⟩, ⟨by decide +kernel, by decide +kernel⟩,
    ⟨by decide +kernel, by simp⟩⟩

end Emio
