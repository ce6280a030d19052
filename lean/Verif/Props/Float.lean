import Verif.Props.Format
import Verif.Lemmas.Decimal
/-
Properties C38 to C46: floating-point numbers.  A double is given by its bits; `magnitude` is its absolute value, a
rational number.
-/
namespace Emio
open Spec

/-! ### C38 decoding -/

/-- The property: class, sign, value, and half of the distances to the neighbours are right, and the boundaries belong
to the interval of numbers that are rounded to the double exactly if its fraction is even. -/
structure DecodedExactly (bits : Nat) : Prop where
  sign : (decode bits).negative = signBit bits
  zero : bits % 2 ^ 63 = 0 → (decode bits).category = .zero
  infinity : IsInf bits → (decode bits).category = .infinity
  nan : IsNaN bits → (decode bits).category = .nan
  finite : IsFinite bits → bits % 2 ^ 63 ≠ 0 → (decode bits).category = .finite
  value : IsFinite bits → bits % 2 ^ 63 ≠ 0 →
    (decode bits).finite.mant * (2 : ℚ) ^ (decode bits).finite.exp = magnitude bits
  above : IsFinite bits → bits % 2 ^ 63 ≠ 0 →
    (decode bits).finite.plus * (2 : ℚ) ^ (decode bits).finite.exp =
      (magnitude (bits % 2 ^ 63 + 1) - magnitude (bits % 2 ^ 63)) / 2
  below : IsFinite bits → bits % 2 ^ 63 ≠ 0 →
    (decode bits).finite.minus * (2 : ℚ) ^ (decode bits).finite.exp =
      (magnitude (bits % 2 ^ 63) - magnitude (bits % 2 ^ 63 - 1)) / 2
  inclusive : IsFinite bits → bits % 2 ^ 63 ≠ 0 → ((decode bits).finite.inclusive = true ↔ fractionOf bits % 2 = 0)

/-- It does not hold for the smallest normal number: the distance to the one below is not half of that above. -/
theorem C38_smallest_normal_violated : ¬ ∀ bits, bits < 2 ^ 64 → DecodedExactly bits := by
  intro h
  have := (h (2 ^ 52) (by decide)).below (by decide +kernel) (by decide +kernel)
  revert this
  decide +kernel

/-- It does not hold for subnormal numbers with an odd fraction: their boundaries are taken to be inside. -/
theorem C38_odd_subnormal_violated : ¬ ∀ bits, bits < 2 ^ 64 → bits % 2 ^ 63 ≠ 2 ^ 52 → DecodedExactly bits := by
  intro h
  have := (h 1 (by decide) (by decide)).inclusive (by decide +kernel) (by decide +kernel)
  revert this
  decide +kernel

/-- Except for these it holds, and for these only the distance below (the smallest normal number) and the boundaries
(subnormal numbers) are wrong.  Neither does harm: see C39 and C40. -/
theorem C38_decoded_exactly_partial (bits : Nat) (hb : bits < 2 ^ 64) :
    ((exponentOf bits ≠ 0 ∨ fractionOf bits % 2 = 0) → bits % 2 ^ 63 ≠ 2 ^ 52 → DecodedExactly bits) ∧
    (decode bits).negative = signBit bits ∧
    (IsInf bits → (decode bits).category = .infinity) ∧ (IsNaN bits → (decode bits).category = .nan) ∧
    (bits % 2 ^ 63 = 0 → (decode bits).category = .zero) ∧
    (IsFinite bits → bits % 2 ^ 63 ≠ 0 → (decode bits).category = .finite ∧
      (decode bits).finite.mant * (2 : ℚ) ^ (decode bits).finite.exp = magnitude bits ∧
      (decode bits).finite.plus * (2 : ℚ) ^ (decode bits).finite.exp =
        (magnitude (bits % 2 ^ 63 + 1) - magnitude (bits % 2 ^ 63)) / 2 ∧
      (bits % 2 ^ 63 ≠ 2 ^ 52 → (decode bits).finite.minus * (2 : ℚ) ^ (decode bits).finite.exp =
        (magnitude (bits % 2 ^ 63) - magnitude (bits % 2 ^ 63 - 1)) / 2) ∧
      (exponentOf bits ≠ 0 → ((decode bits).finite.inclusive = true ↔ fractionOf bits % 2 = 0))) := by
  have hzero : bits % 2 ^ 63 = 0 → (decode bits).category = .zero := fun h0 => (decode_zero hb h0).1
  have hspecial : ¬ IsFinite bits → (decode bits).category = (if fractionOf bits = 0 then .infinity else .nan) := fun h =>
    (decode_special hb h).1
  have hsign : (decode bits).negative = signBit bits := by
    by_cases h0 : bits % 2 ^ 63 = 0
    · exact (decode_zero hb h0).2
    · by_cases hf : IsFinite bits
      · exact (decode_spec hb hf h0).2.1
      · exact (decode_special hb hf).2
  have hinf : IsInf bits → (decode bits).category = .infinity := by
    intro h
    rw [hspecial (by unfold IsFinite; rw [h.1]; decide), if_pos h.2]
  have hnan : IsNaN bits → (decode bits).category = .nan := by
    intro h
    rw [hspecial (by unfold IsFinite; rw [h.1]; decide), if_neg h.2]
  have hfin : IsFinite bits → bits % 2 ^ 63 ≠ 0 → (decode bits).category = .finite ∧
      (decode bits).finite.mant * (2 : ℚ) ^ (decode bits).finite.exp = magnitude bits ∧
      (decode bits).finite.plus * (2 : ℚ) ^ (decode bits).finite.exp =
        (magnitude (bits % 2 ^ 63 + 1) - magnitude (bits % 2 ^ 63)) / 2 ∧
      (bits % 2 ^ 63 ≠ 2 ^ 52 → (decode bits).finite.minus * (2 : ℚ) ^ (decode bits).finite.exp =
        (magnitude (bits % 2 ^ 63) - magnitude (bits % 2 ^ 63 - 1)) / 2) ∧
      (decode bits).finite.inclusive = (decide (exponentOf bits = 0) || decide (fractionOf bits % 2 = 0)) := by
    intro hf h0
    obtain ⟨h1, _, sp⟩ := decode_spec hb hf h0
    have hv := sp.value
    have hi := sp.inclusive
    rw [magnitude_low] at hv
    rw [exponentOf_low, fractionOf_low] at hi
    exact ⟨h1, hv, sp.plus, sp.minus, hi⟩
  refine ⟨fun hi hne => ?_, hsign, hinf, hnan, hzero, fun hf h0 => ?_⟩
  · refine ⟨hsign, hzero, hinf, hnan, fun hf h0 => (hfin hf h0).1, fun hf h0 => (hfin hf h0).2.1,
      fun hf h0 => (hfin hf h0).2.2.1, fun hf h0 => (hfin hf h0).2.2.2.1 hne, fun hf h0 => ?_⟩
    rw [(hfin hf h0).2.2.2.2]
    simp only [Bool.or_eq_true, decide_eq_true_eq]
    tauto
  · obtain ⟨g1, g2, g3, g4, g5⟩ := hfin hf h0
    refine ⟨g1, g2, g3, g4, fun he => ?_⟩
    rw [g5]
    simp only [Bool.or_eq_true, decide_eq_true_eq]
    tauto

/-- 1.5 = 6755399441055744 · 2^-52; the units are half of the distance of its neighbours. -/
example : decode 0x3FF8000000000000 =
      { negative := false, category := .finite, finite := ⟨3 * 2 ^ 52, 1, 1, -53, true⟩ } ∧ IsFinite 0x3FF8000000000000 ∧ exponentOf 0x3FF8000000000000 ≠ 0 := by decide +kernel

/-! ### C39, C40, C41 the shortest digits -/

/-- No presentation type and no precision. -/
def Spec.SpecText.Default (t : SpecText) : Prop := t.type = none ∧ t.prec = none

theorem default_meaning {t : SpecText} (wf : t.WellFormed) (h : t.Default) :
    t.meaning.type = noChar ∧ t.meaning.precision < 0 := by
  refine ⟨(meaning_type_none wf).2 h.1, ?_⟩
  show t.precValue < 0
  rw [SpecText.precValue, h.2]
  decide

theorem not_fixed_default {t : SpecText} (wf : t.WellFormed) (h : t.Default) (bits : Nat) : ¬ LosesZero t.meaning bits := by
  rintro ⟨h1 | h1, _⟩ <;>
  · rw [(default_meaning wf h).1] at h1
    revert h1
    decide

theorem default_allowed {t : SpecText} (h : t.Default) : CoreTy.Allows .double t := by
  refine ⟨?_, by simp [h.1]⟩
  rw [SpecText.precValue, h.2]
  decide

/-- What the default format of a finite number consists of. -/
theorem default_text {bits : Nat} (hb : bits < 2 ^ 64) (hf : IsFinite bits) {t : SpecText} (wf : t.WellFormed)
    (fits : t.Fits) (h : t.Default) :
    ∃ n D k, (bits % 2 ^ 63 = 0 ∧ n = 1 ∧ D = 0 ∧ k = 1 ∨ Shortest (bits % 2 ^ 63) n D k) ∧
      formatStr ("{:".toList ++ t.text ++ "}".toList) [(CoreArg.double bits).farg] =
        .ok () (paddedNumber t.meaning (signOf t.meaning (signBit bits))
          (if k - 1 < -4 ∨ 16 ≤ k - 1 then scientific false t.alt (lastDigits n D) (k - 1)
          else positional t.alt (lastDigits n D) (k - 1))) := by
  obtain ⟨ht, hp⟩ := default_meaning wf h
  have hr := render_double bits hb t wf fits (default_allowed h)
  rw [actual_eq (not_fixed_default wf h bits)] at hr
  have hlt : bits % 2 ^ 63 < 2 ^ 64 := by omega
  have htext : floatText t.meaning bits = paddedNumber t.meaning (signOf t.meaning (signBit bits))
      (finiteText t.meaning bits) := by unfold floatText; rw [if_pos hf]
  have hfin : finiteText t.meaning bits =
      let r := shortestDigits (bits % 2 ^ 63)
      if r.2.2 < -4 ∨ 16 ≤ r.2.2 then scientific false t.alt (lastDigits r.1 r.2.1) r.2.2
      else positional t.alt (lastDigits r.1 r.2.1) r.2.2 := by
    unfold finiteText
    simp only
    have e1 : ¬ (t.meaning.type = 'f' ∨ t.meaning.type = 'F') := by rw [ht]; decide
    have e2 : ¬ (t.meaning.type = 'e' ∨ t.meaning.type = 'E') := by rw [ht]; decide
    have e3 : (t.meaning.type == 'E' || t.meaning.type == 'F' || t.meaning.type == 'G') = false := by rw [ht]; decide
    rw [if_neg e1, if_neg e2, if_pos ⟨ht, hp⟩, e3]
    rfl
  rw [htext, hfin] at hr
  by_cases h0 : bits % 2 ^ 63 = 0
  · refine ⟨1, 0, 1, Or.inl ⟨h0, rfl, rfl, rfl⟩, ?_⟩
    rw [hr]
    have : shortestDigits (bits % 2 ^ 63) = (1, 0, 0) := by unfold shortestDigits; rw [if_pos h0]
    rw [this]
    rfl
  · have hf' : IsFinite (bits % 2 ^ 63) := by unfold IsFinite; rw [exponentOf_low]; exact hf
    obtain ⟨n, D, k, sh, _⟩ := shortest_double hlt hf' (by rw [Nat.mod_mod]; exact h0)
    rw [Nat.mod_mod] at sh
    refine ⟨n, D, k, Or.inr sh, ?_⟩
    rw [hr, shortestDigits_eq h0 sh]

theorem shown_denotes (point : Bool) {n D : Nat} (hn : 1 ≤ n) (hD : D < 10 ^ n) (k : ℤ) :
    Denotes (if k - 1 < -4 ∨ 16 ≤ k - 1 then scientific false point (lastDigits n D) (k - 1)
      else positional point (lastDigits n D) (k - 1)) (D * (10 : ℚ) ^ (k - n)) := by
  have h0 : lastDigits n D ≠ [] := by
    intro hc
    have := congrArg List.length hc
    rw [lastDigits_length] at this
    simp at this
    omega
  have e : (numeralValue 10 (lastDigits n D) : ℚ) * (10 : ℚ) ^ (k - 1 + 1 - (lastDigits n D).length) =
      D * (10 : ℚ) ^ (k - n) := by
    rw [value_lastDigits, Nat.mod_eq_of_lt hD, lastDigits_length, show k - 1 + 1 = k by ring]
  split
  · rw [← e]; exact scientific_denotes false point (digits_lastDigits _ _) h0 _
  · rw [← e]; exact positional_denotes point (digits_lastDigits _ _) h0 _

theorem reads_zero : ReadsAs 0 0 := by
  have hm : magnitude 0 = 0 := by decide +kernel
  refine ⟨by decide, by decide +kernel, by unfold overflowLimit; positivity, fun other ho hf hne => ?_⟩
  left
  have hlt : 0 < magnitude other := by
    have h := magnitude_lt (show 0 < other by omega) (b := other) (by unfold IsFinite exponentOf at hf; omega)
    rwa [hm] at h
  rw [hm, sub_zero, abs_zero, zero_sub, abs_neg, abs_of_pos hlt]
  exact hlt

/-- C39: without presentation type and precision, a finite double is formatted to a sign and a decimal literal (and fill
characters) such that reading the literal, correctly rounded, yields the double again. -/
theorem C39_round_trip (bits : Nat) (hb : bits < 2 ^ 64) (hf : IsFinite bits) (t : SpecText) (wf : t.WellFormed)
    (fits : t.Fits) (h : t.type = none ∧ t.prec = none) :
    ∃ literal x, formatStr ("{:".toList ++ t.text ++ "}".toList) [(CoreArg.double bits).farg] =
        .ok () (paddedNumber t.meaning (signOf t.meaning (signBit bits)) literal) ∧
      Denotes literal x ∧ ReadsAs x (bits % 2 ^ 63) := by
  obtain ⟨n, D, k, hs, hr⟩ := default_text hb hf wf fits h
  refine ⟨_, _, hr, shown_denotes t.alt (n := n) (D := D) ?_ ?_ k, ?_⟩
  · rcases hs with ⟨_, rfl, _⟩ | sh
    · exact le_rfl
    · exact sh.n_pos
  · rcases hs with ⟨_, rfl, rfl, _⟩ | sh
    · decide
    · exact sh.D_high
  · rcases hs with ⟨h0, rfl, rfl, rfl⟩ | sh
    · rw [h0]
      simpa using reads_zero
    · exact sh.reads

/-- The literal is one number only, and a number is read as one double only. -/
theorem C39_reading_is_unique : (∀ literal x y, Denotes literal x → Denotes literal y → x = y) ∧
    (∀ x b b', ReadsAs x b → ReadsAs x b' → b = b') := by
  refine ⟨fun literal x y h h' => Denotes.unique h h', fun x b b' h h' => ?_⟩
  by_contra hne
  obtain ⟨h1, h2, h3, h4⟩ := h
  obtain ⟨g1, g2, g3, g4⟩ := h'
  have a := h4 b' g1 g2 (fun e => hne e.symm)
  have b1 := g4 b h1 h2 hne
  have heq : |x - magnitude b| = |x - magnitude b'| := by
    rcases a with a | a
    · rcases b1 with b1 | b1
      · exact absurd a (not_lt.2 b1.le)
      · exact b1.1.symm
    · exact a.1
  have e1 : fractionOf b % 2 = 0 := by
    rcases a with a | a
    · exact absurd heq (ne_of_lt a)
    · exact a.2
  have e2 : fractionOf b' % 2 = 0 := by
    rcases b1 with b1 | b1
    · exact absurd heq.symm (ne_of_lt b1)
    · exact b1.2
  -- between two doubles with even fractions there is another one, which is closer
  have key : ∀ {b b' : Nat}, b < b' → b' < 2 ^ 63 → IsFinite b' → IsFinite b → fractionOf b % 2 = 0 → fractionOf b' % 2 = 0 →
      |x - magnitude b| = |x - magnitude b'| →
      (∀ other, other < 2 ^ 63 → IsFinite other → other ≠ b → |x - magnitude b| < |x - magnitude other| ∨
        (|x - magnitude b| = |x - magnitude other| ∧ fractionOf b % 2 = 0)) → False := by
    intro b b' hlt h63 hf' hf e1 e2 heq h4
    have hgap : b + 1 < b' := by
      rcases Nat.lt_or_ge (b + 1) b' with h | h
      · exact h
      · have : b' = b + 1 := by omega
        subst this
        unfold fractionOf at e1 e2
        omega
    have hb' : b' ≤ 2047 * 2 ^ 52 := by unfold IsFinite exponentOf at hf'; omega
    have m1 := magnitude_lt (show b < b + 1 by omega) (by omega)
    have m2 := magnitude_lt hgap hb'
    have hmid : x = (magnitude b + magnitude b') / 2 := by
      rcases abs_eq_abs.1 heq with h | h
      · linarith
      · linarith
    have hfm : IsFinite (b + 1) := by unfold IsFinite exponentOf at *; omega
    have := h4 (b + 1) (by omega) hfm (by omega)
    have hc : |x - magnitude (b + 1)| < |x - magnitude b| := by
      rw [abs_of_pos (show 0 < x - magnitude b by rw [hmid]; linarith), abs_lt]
      constructor <;> rw [hmid] <;> linarith
    rcases this with h | h
    · linarith
    · linarith [h.1]
  rcases Nat.lt_or_ge b b' with hlt | hge
  · exact key hlt g1 g2 h2 e1 e2 heq h4
  · exact key (show b' < b by omega) h1 h2 g2 e2 e1 heq.symm g4

/-- C40: the digits are the shortest ones that are read as the double and of these the closest ones (see `Shortest`).
They are shown in positional notation or with an exponent. -/
theorem C40_shortest_and_closest (bits : Nat) (hb : bits < 2 ^ 64) (hf : IsFinite bits) (h0 : bits % 2 ^ 63 ≠ 0)
    (t : SpecText) (wf : t.WellFormed) (fits : t.Fits) (h : t.type = none ∧ t.prec = none) :
    ∃ n D k, Shortest (bits % 2 ^ 63) n D k ∧
      formatStr ("{:".toList ++ t.text ++ "}".toList) [(CoreArg.double bits).farg] =
        .ok () (paddedNumber t.meaning (signOf t.meaning (signBit bits))
          (if k - 1 < -4 ∨ 16 ≤ k - 1 then scientific false t.alt (lastDigits n D) (k - 1)
          else positional t.alt (lastDigits n D) (k - 1))) := by
  obtain ⟨n, D, k, hs, hr⟩ := default_text hb hf wf fits h
  rcases hs with ⟨h0', _⟩ | sh
  · exact absurd h0' h0
  · exact ⟨n, D, k, sh, hr⟩

/-- 0.1 and 1e23. -/
example : formatStr "{}".toList [(CoreArg.double 0x3FB999999999999A).farg] = .ok () "0.1".toList ∧
    formatStr "{:}".toList [(CoreArg.double 0x44B52D02C7E14AF6).farg] = .ok () "1e+23".toList ∧
    IsFinite 0x3FB999999999999A ∧ 0x3FB999999999999A % 2 ^ 63 ≠ 0 := by decide +kernel

/-- C41: the shortest digits are found with at most 17 digits; the digit buffer of 17 characters is not exceeded, and no
big integer overflows (otherwise the result would be undefined behaviour). -/
theorem C41_at_most_17_digits (bits : Nat) (hb : bits < 2 ^ 64) (hf : IsFinite bits) (h0 : bits % 2 ^ 63 ≠ 0) :
    ∃ digits k, formatShortest (decode bits).finite () = .ok () (digits, k) ∧ 1 ≤ digits.length ∧ digits.length ≤ 17 ∧
      (∀ c ∈ digits, c.isDigit) ∧ digits.head? ≠ some '0' := by
  obtain ⟨n, D, k, sh, hy⟩ := shortest_double hb hf h0
  refine ⟨lastDigits n D, k, hy, ?_, ?_, digits_lastDigits n D, ?_⟩
  · rw [lastDigits_length]; exact sh.n_pos
  · rw [lastDigits_length]; exact sh.n_le
  · intro hc
    have hn := sh.n_pos
    have hlow := sh.D_low
    have hhigh := sh.D_high
    obtain ⟨m, rfl⟩ : ∃ m, n = m + 1 := ⟨n - 1, by omega⟩
    rw [Nat.add_comm, lastDigits_append] at hc
    have e : lastDigits 1 (D / 10 ^ m) = [Char.ofNat (48 + D / 10 ^ m % 10)] := rfl
    rw [e] at hc
    simp only [List.cons_append, List.head?_cons, Option.some.injEq] at hc
    have h1 : 1 ≤ D / 10 ^ m := (Nat.one_le_div_iff (by positivity)).2 (by simpa using hlow)
    have h2 : D / 10 ^ m < 10 := Nat.div_lt_of_lt_mul (by rw [← pow_succ]; exact hhigh)
    generalize D / 10 ^ m = q at *
    interval_cases q <;> revert hc <;> decide

/-- 17 digits are reached: 0.1 + 0.2. -/
example : (formatShortest (decode 0x3FD3333333333334).finite ()).val? = some ("30000000000000004".toList, 0) := by
  decide +kernel

/-! ### C42, C44 fixed notation -/

/-- C42: in fixed notation with precision p, a finite double is formatted to its sign and a literal that denotes its
value rounded to p decimals (half to even). -/
theorem C42_fixed_is_correctly_rounded (bits : Nat) (hb : bits < 2 ^ 64) (hf : IsFinite bits) (t : SpecText)
    (wf : t.WellFormed) (fits : t.Fits) (hal : CoreTy.Allows .double t) (ht : t.type = some 'f' ∨ t.type = some 'F') :
    ∃ literal, formatStr ("{:".toList ++ t.text ++ "}".toList) [(CoreArg.double bits).farg] =
        .ok () (paddedNumber t.meaning (signOf t.meaning (signBit bits)) literal) ∧
      Denotes literal (roundDecimals (precisionOf t.meaning) (magnitude bits)) := by
  have hr := render_double bits hb t wf fits hal
  have hc := (allows_iff .double wf).2 hal
  have f := floatSpecs (meaning_ok fits) hc
  have ht' : t.meaning.type = 'f' ∨ t.meaning.type = 'F' :=
    ht.imp (fun h => (meaning_type_some wf 'f' (by decide)).2 h) (fun h => (meaning_type_some wf 'F' (by decide)).2 h)
  have hfin : finiteText t.meaning bits = fixedPoint (precisionOf t.meaning) t.alt (magnitude bits) := by
    unfold finiteText
    simp only
    rw [if_pos ht']
    rfl
  by_cases hl : LosesZero t.meaning bits
  · have hlen := finiteText_length f hf
    have h0 := ((fixed_emits (meaning_ok fits) f hb hf ht' (k := 1421) (by omega) (by decide)).2 hl).1
    rw [hfin] at h0
    obtain ⟨j, j1, j2, _⟩ := hl.2.2
    refine ⟨_, ?_, fixed_dropLast_denotes (by omega) t.alt (magnitude bits) h0⟩
    rw [hr]
    unfold actualText
    rw [if_pos hl, hfin]
  · refine ⟨_, ?_, fixed_denotes _ t.alt (magnitude bits)⟩
    rw [hr, actual_eq hl]
    unfold floatText
    rw [if_pos hf, hfin]

/-- The property C44: in fixed notation there are exactly p digits behind the point. -/
def FixedHasDecimals : Prop :=
  ∀ (bits : Nat) (t : SpecText), bits < 2 ^ 64 → IsFinite bits → t.WellFormed → t.Fits → CoreTy.Allows .double t →
    (t.type = some 'f' ∨ t.type = some 'F') →
    formatStr ("{:".toList ++ t.text ++ "}".toList) [(CoreArg.double bits).farg] =
      .ok () (paddedNumber t.meaning (signOf t.meaning (signBit bits))
        (fixedPoint (precisionOf t.meaning) t.alt (magnitude bits)))

/-- It does not hold: `{:.2f}` of 0.0999 yields 0.1. -/
theorem C44_lost_zero_violated : ¬ FixedHasDecimals := by
  intro h
  have := h 0x3FB99303B5CC6BA1 { prec := some ['2'], type := 'f' } (by decide) (by decide +kernel)
    ⟨by simp, by simp, by simp, by simp, by simp, by simp, by simp⟩ ⟨by decide +kernel, by decide +kernel⟩
    ⟨by decide +kernel, by simp⟩ (Or.inl rfl)
  revert this
  decide +kernel

/-- Except for the numbers of `LostZero` (see there) it holds; for those exactly the last digit, a zero, is missing. -/
theorem C44_fixed_has_decimals_partial (bits : Nat) (hb : bits < 2 ^ 64) (hf : IsFinite bits) (t : SpecText)
    (wf : t.WellFormed) (fits : t.Fits) (hal : CoreTy.Allows .double t) (ht : t.type = some 'f' ∨ t.type = some 'F') :
    (¬ LostZero (precisionOf t.meaning) (magnitude bits) →
      formatStr ("{:".toList ++ t.text ++ "}".toList) [(CoreArg.double bits).farg] =
        .ok () (paddedNumber t.meaning (signOf t.meaning (signBit bits))
          (fixedPoint (precisionOf t.meaning) t.alt (magnitude bits)))) ∧
    (LostZero (precisionOf t.meaning) (magnitude bits) → ∃ literal,
      fixedPoint (precisionOf t.meaning) t.alt (magnitude bits) = literal ++ ['0'] ∧
      formatStr ("{:".toList ++ t.text ++ "}".toList) [(CoreArg.double bits).farg] =
        .ok () (paddedNumber t.meaning (signOf t.meaning (signBit bits)) literal)) := by
  have hr := render_double bits hb t wf fits hal
  have hc := (allows_iff .double wf).2 hal
  have f := floatSpecs (meaning_ok fits) hc
  have ht' : t.meaning.type = 'f' ∨ t.meaning.type = 'F' :=
    ht.imp (fun h => (meaning_type_some wf 'f' (by decide)).2 h) (fun h => (meaning_type_some wf 'F' (by decide)).2 h)
  have hfin : finiteText t.meaning bits = fixedPoint (precisionOf t.meaning) t.alt (magnitude bits) := by
    unfold finiteText
    simp only
    rw [if_pos ht']
    rfl
  constructor
  · intro hl
    rw [hr, actual_eq (fun h => hl h.2.2)]
    unfold floatText
    rw [if_pos hf, hfin]
  · intro hl
    have hl' : LosesZero t.meaning bits := And.intro ht' (And.intro hf hl)
    have hlen := finiteText_length f hf
    have h0 := ((fixed_emits (meaning_ok fits) f hb hf ht' (k := 1421) (by omega) (by decide)).2 hl').1
    rw [hfin] at h0
    refine ⟨_, h0, ?_⟩
    rw [hr]
    unfold actualText
    rw [if_pos hl', hfin]

/-- The parts of fixed notation: digits, and p digits behind the point. -/
theorem C44_fixed_notation (p : Nat) (point : Bool) (v : ℚ) : ∃ ip fp,
    fixedPoint p point v = ip ++ (if point = true ∨ p ≠ 0 then '.' :: fp else []) ∧ ip ≠ [] ∧ (∀ c ∈ ip, c.isDigit) ∧
    (∀ c ∈ fp, c.isDigit) ∧ fp.length = p ∧ (numeralValue 10 (ip ++ fp) : ℚ) / 10 ^ p = roundDecimals p v := by
  obtain ⟨ip, fp, h1, h2, h3, h4, h5, h6⟩ := fixed_parts p point v
  exact ⟨ip, fp, h1, h2, h3, h4, h5, by rw [h6]; rfl⟩

/-- `{:.2f}` of 0.125 and 2.675 (which is below 2.675), and of the number above. -/
example : formatStr "{:.2f} {:+.2f} {:.2f}".toList (fargs [.double 0x3FC0000000000000, .double 0x4005666666666666,
    .double 0x3FB99303B5CC6BA1]) = .ok () "0.12 +2.67 0.1".toList := by decide +kernel

/-! ### C42, C45 exponents and significant digits -/

/-- C45: with type `e` and precision p there is one digit before and there are p digits behind the point, then an
exponent (see `scientific`); the digits are not preceded by zeros, unless the number is zero, and they denote the number
rounded to p + 1 significant digits. -/
theorem C45_exponent_notation (bits : Nat) (hb : bits < 2 ^ 64) (hf : IsFinite bits) (t : SpecText)
    (wf : t.WellFormed) (fits : t.Fits) (hal : CoreTy.Allows .double t) (ht : t.type = some 'e' ∨ t.type = some 'E') :
    ∃ D x, formatStr ("{:".toList ++ t.text ++ "}".toList) [(CoreArg.double bits).farg] =
        .ok () (paddedNumber t.meaning (signOf t.meaning (signBit bits))
          (scientific (t.type == some 'E') t.alt (lastDigits (precisionOf t.meaning + 1) D) x)) ∧
      D < 10 ^ (precisionOf t.meaning + 1) ∧ (magnitude bits ≠ 0 → 10 ^ precisionOf t.meaning ≤ D) ∧
      D * (10 : ℚ) ^ (x - precisionOf t.meaning) = roundDigits (precisionOf t.meaning + 1) (magnitude bits) := by
  have hr := render_double bits hb t wf fits hal
  have ht' : t.meaning.type = 'e' ∨ t.meaning.type = 'E' :=
    ht.imp (fun h => (meaning_type_some wf 'e' (by decide)).2 h) (fun h => (meaning_type_some wf 'E' (by decide)).2 h)
  have hnf : ¬ (t.meaning.type = 'f' ∨ t.meaning.type = 'F') := by rcases ht' with h | h <;> rw [h] <;> decide
  have hup : (t.meaning.type == 'E' || t.meaning.type == 'F' || t.meaning.type == 'G') = (t.type == some 'E') := by
    rcases ht with h | h
    · rw [(meaning_type_some wf 'e' (by decide)).2 h, h]; decide
    · rw [(meaning_type_some wf 'E' (by decide)).2 h, h]; decide
  obtain ⟨g1, g2, g3⟩ := roundSignificant_value (n := precisionOf t.meaning + 1) (by omega) (v := magnitude bits)
    (by unfold magnitude; split <;> positivity)
  refine ⟨(roundSignificant (precisionOf t.meaning + 1) (magnitude bits)).1,
    (roundSignificant (precisionOf t.meaning + 1) (magnitude bits)).2, ?_, g2, by simpa using g3, ?_⟩
  · rw [hr, actual_eq (fun h => hnf h.1)]
    unfold floatText finiteText
    simp only
    rw [if_pos hf, if_neg hnf, if_pos ht', hup]
    rfl
  · rw [← g1]
    generalize roundSignificant (precisionOf t.meaning + 1) (magnitude bits) = r
    rw [show r.2 + 1 - ((precisionOf t.meaning + 1 : ℕ) : ℤ) = r.2 - precisionOf t.meaning by push_cast; ring]

/-- The parts of exponent notation: the sign of the exponent and at least two digits. -/
theorem C45_exponent_digits (x : ℤ) : ∃ s ds, exponentText x = s :: ds ∧ (s = '+' ∨ s = '-') ∧
    (∀ c ∈ ds, c.isDigit) ∧ 2 ≤ ds.length ∧ (if s = '-' then -(numeralValue 10 ds : ℤ) else numeralValue 10 ds) = x := by
  obtain ⟨s, ds, h1, h2, _, h3, h4, h5⟩ := exponent_parts x
  exact ⟨s, ds, h1, h2, h3, h4, h5⟩

example : formatStr "{:.3e} {:E} {:#.0e}".toList (fargs [.double 0x3FD5555555555555, .double 0x7FEFFFFFFFFFFFFF,
    .double 1]) = .ok () "3.333e-01 1.797693E+308 5.e-324".toList := by decide +kernel

/-- C42: with type `e` the literal denotes the value rounded to p + 1, with type `g`, or without type but with
precision, to p significant digits (at least one), half to even. -/
theorem C42_significant_digits_are_correctly_rounded (bits : Nat) (hb : bits < 2 ^ 64) (hf : IsFinite bits) (t : SpecText)
    (wf : t.WellFormed) (fits : t.Fits) (hal : CoreTy.Allows .double t) (hnf : t.type ≠ some 'f' ∧ t.type ≠ some 'F')
    (hnd : ¬ (t.type = none ∧ t.prec = none)) :
    ∃ literal, formatStr ("{:".toList ++ t.text ++ "}".toList) [(CoreArg.double bits).farg] =
        .ok () (paddedNumber t.meaning (signOf t.meaning (signBit bits)) literal) ∧
      Denotes literal (roundDigits (if t.type = some 'e' ∨ t.type = some 'E' then precisionOf t.meaning + 1
        else max (precisionOf t.meaning) 1) (magnitude bits)) := by
  have hm0 : 0 ≤ magnitude bits := by unfold magnitude; split <;> positivity
  have hne : ∀ {n D : Nat}, 1 ≤ n → lastDigits n D ≠ [] := by
    intro n D hn hc
    have := congrArg List.length hc
    rw [lastDigits_length] at this
    simp at this
    omega
  by_cases he : t.type = some 'e' ∨ t.type = some 'E'
  · obtain ⟨D, x, h1, h2, h3, h4⟩ := C45_exponent_notation bits hb hf t wf fits hal he
    refine ⟨_, h1, ?_⟩
    rw [if_pos he, ← h4]
    have := scientific_denotes (t.type == some 'E') t.alt (digits_lastDigits (precisionOf t.meaning + 1) D) (hne (by omega)) x
    rw [value_lastDigits, Nat.mod_eq_of_lt h2, lastDigits_length] at this
    convert this using 3
    push_cast
    ring
  · rw [if_neg he]
    have hr := render_double bits hb t wf fits hal
    have hnf' : ¬ (t.meaning.type = 'f' ∨ t.meaning.type = 'F') := by
      rintro (h | h)
      · exact hnf.1 ((meaning_type_some wf 'f' (by decide)).1 h)
      · exact hnf.2 ((meaning_type_some wf 'F' (by decide)).1 h)
    have hne' : ¬ (t.meaning.type = 'e' ∨ t.meaning.type = 'E') := by
      rintro (h | h)
      · exact he (Or.inl ((meaning_type_some wf 'e' (by decide)).1 h))
      · exact he (Or.inr ((meaning_type_some wf 'E' (by decide)).1 h))
    have hnd' : ¬ (t.meaning.type = noChar ∧ t.meaning.precision < 0) := by
      rintro ⟨h1, h2⟩
      refine hnd ⟨(meaning_type_none wf).1 h1, ?_⟩
      cases hp : t.prec with
      | none => rfl
      | some p =>
        have : t.precValue < 0 := h2
        rw [SpecText.precValue, hp] at this
        simp at this
        omega
    rw [actual_eq (fun h => hnf' h.1)] at hr
    unfold floatText finiteText at hr
    simp only at hr
    rw [if_pos hf, if_neg hnf', if_neg hne', if_neg hnd'] at hr
    generalize hn : max (precisionOf t.meaning) 1 = n at hr ⊢
    have hn1 : 1 ≤ n := by omega
    obtain ⟨g1, g2, g3⟩ := roundSignificant_value hn1 hm0
    generalize hd : (if t.meaning.alternateForm = true then lastDigits n (roundSignificant n (magnitude bits)).1
      else dropZeros (lastDigits n (roundSignificant n (magnitude bits)).1)) = digits at hr
    have hdig : (∀ c ∈ digits, c.isDigit) ∧ digits ≠ [] ∧
        (numeralValue 10 digits : ℚ) * (10 : ℚ) ^ ((roundSignificant n (magnitude bits)).2 + 1 - digits.length) =
          roundDigits n (magnitude bits) := by
      rw [← g1]
      have hl : (numeralValue 10 (lastDigits n (roundSignificant n (magnitude bits)).1) : ℚ) *
          (10 : ℚ) ^ ((roundSignificant n (magnitude bits)).2 + 1 -
            (lastDigits n (roundSignificant n (magnitude bits)).1).length) =
          (roundSignificant n (magnitude bits)).1 * (10 : ℚ) ^ ((roundSignificant n (magnitude bits)).2 + 1 - n) := by
        rw [value_lastDigits, Nat.mod_eq_of_lt g2, lastDigits_length]
      rw [← hd]
      split
      · exact ⟨digits_lastDigits _ _, hne hn1, hl⟩
      · obtain ⟨k1, k2, k3⟩ := dropZeros_value (digits_lastDigits n (roundSignificant n (magnitude bits)).1) (hne hn1)
          (roundSignificant n (magnitude bits)).2
        exact ⟨k1, k2, by rw [k3, hl]⟩
    obtain ⟨d1, d2, d3⟩ := hdig
    refine ⟨_, hr, ?_⟩
    rw [← d3]
    split
    · exact scientific_denotes _ _ d1 d2 _
    · exact positional_denotes _ d1 d2 _

/-- `{:g}` of 1e6 and 100000, `{:.3}` of 2/3. -/
example : formatStr "{:g} {:g} {:.3}".toList (fargs [.double 0x412E848000000000, .double 0x40F86A0000000000,
    .double 0x3FE5555555555555]) = .ok () "1e+06 100000 0.667".toList := by decide +kernel

/-! ### C43 big integers -/

/-- A big integer represents `n`: 34 blocks of 32 bits with the value `n`, and the size is the number of blocks in
use. -/
structure Represents (x : Bignum) (n : Nat) : Prop where
  length : x.base.length = 34
  blocks : ∀ d ∈ x.base, d < 2 ^ 32
  value : Nat.ofDigits (2 ^ 32) x.base = n
  size : n < (2 ^ 32) ^ x.size ∧ (x.size ≠ 0 → (2 ^ 32) ^ (x.size - 1) ≤ n)

theorem blocks_ofDigits : ∀ (l : List Nat), (∀ d ∈ l, d < W) → blocks l.length (Nat.ofDigits W l) = l := by
  intro l
  induction l with
  | nil => intro _; rfl
  | cons d l ih =>
    intro h
    have hd := h d (by simp)
    rw [List.length_cons, blocks_succ, Nat.ofDigits_cons, Nat.add_mul_mod_self_left, Nat.mod_eq_of_lt hd,
      Nat.add_mul_div_left _ _ W_pos, Nat.div_eq_of_lt hd, Nat.zero_add, ih (fun d hd => h d (by simp [hd]))]

theorem ofDigits_blocks : ∀ (k n : Nat), n < W ^ k → Nat.ofDigits W (blocks k n) = n := by
  intro k
  induction k with
  | zero => intro n h; simp at h; simp [blocks, h]
  | succ k ih =>
    intro n h
    rw [blocks_succ, Nat.ofDigits_cons, ih _ (by rw [pow_succ] at h; exact Nat.div_lt_of_lt_mul (by rw [Nat.mul_comm]; exact h))]
    exact Nat.mod_add_div n W

theorem represents_iff {x : Bignum} {n : Nat} : Represents x n ↔ x = Bignum.canon n ∧ n < 2 ^ 1088 := by
  have hW : (2 ^ 32 : Nat) = W := by decide
  have hcap : (2 ^ 1088 : Nat) = W ^ 34 := by decide +kernel
  constructor
  · rintro ⟨h1, h2, h3, h4, h5⟩
    rw [hW] at h3 h4 h5
    have hlt : n < W ^ 34 := by
      rw [← h3, ← h1]
      exact Nat.ofDigits_lt_base_pow_length (by decide) (by rw [← hW]; exact h2)
    refine ⟨?_, by rw [hcap]; exact hlt⟩
    obtain ⟨sz, base⟩ := x
    simp only at h1 h2 h3 h4 h5
    have e1 : limbs n = sz := by
      cases sz with
      | zero =>
        rw [pow_zero] at h4
        have : n = 0 := by omega
        subst this
        exact limbs_zero
      | succ s => exact limbs_eq (by simpa using h5 (by omega)) h4
    have e2 : blocks Bignum.maxBlocks n = base := by
      rw [← h3, show Bignum.maxBlocks = base.length by rw [h1]; rfl]
      exact blocks_ofDigits base (by rw [← hW]; exact h2)
    unfold Bignum.canon
    rw [e1, e2]
  · rintro ⟨rfl, h⟩
    rw [hcap] at h
    refine ⟨blocks_length _ _, ?_, ?_, ?_⟩
    · rw [hW]; exact Bignum.blocks_lt _ _
    · rw [hW]; exact ofDigits_blocks _ _ h
    · rw [hW]
      refine ⟨(limbs_le_iff _ _).1 le_rfl, fun h0 => ?_⟩
      exact (lt_limbs_iff _ _).1 (by
        have : (Bignum.canon n).size = limbs n := rfl
        rw [this] at h0 ⊢
        omega)

/-- C43: the operations on big integers are exact as long as the results are below 2^1088. -/
theorem C43_operations_are_exact {x y : Bignum} {a b : Nat} (hx : Represents x a) (hy : Represents y b) :
    (a + b < 2 ^ 1088 → ∃ z, x.add y = some z ∧ Represents z (a + b)) ∧
    (b ≤ a → ∃ z, x.sub y = some z ∧ Represents z (a - b)) ∧
    (∀ k, 0 < k → k < 2 ^ 32 → a * k < 2 ^ 1088 → ∃ z, x.mulSmall k = some z ∧ Represents z (a * k)) ∧
    (∀ e, a * 5 ^ e < 2 ^ 1088 → ∃ z, x.mulPow5 e = some z ∧ Represents z (a * 5 ^ e)) ∧
    (∀ e, a ≠ 0 → a * 2 ^ e < 2 ^ 1088 → ∃ z, x.mulPow2 e = some z ∧ Represents z (a * 2 ^ e)) ∧
    x.cmp y = some (compare a b) ∧ x.isZero = decide (a = 0) := by
  obtain ⟨rfl, ha⟩ := represents_iff.1 hx
  obtain ⟨rfl, hb⟩ := represents_iff.1 hy
  have hcap := Bignum.cap_eq
  refine ⟨fun h => ⟨_, Bignum.add_canon (by rw [hcap]; exact h), represents_iff.2 ⟨rfl, h⟩⟩,
    fun h => ⟨_, Bignum.sub_canon (by rw [hcap]; exact ha) h, represents_iff.2 ⟨rfl, lt_of_le_of_lt (Nat.sub_le _ _) ha⟩⟩,
    fun k h0 hk h => ⟨_, Bignum.mulSmall_canon (by rw [show W = 2 ^ 32 by decide]; exact hk) h0 (by rw [hcap]; exact h),
      represents_iff.2 ⟨rfl, h⟩⟩,
    fun e h => ⟨_, Bignum.mulPow5_canon e a (by rw [hcap]; exact h), represents_iff.2 ⟨rfl, h⟩⟩,
    fun e h0 h => ⟨_, Bignum.mulPow2_canon (Or.inl h0) (by rw [hcap]; exact h), represents_iff.2 ⟨rfl, h⟩⟩,
    Bignum.cmp_canon (by rw [hcap]; exact ha) (by rw [hcap]; exact hb), ?_⟩
  rw [Bignum.isZero_canon (by rw [hcap]; exact ha), Bool.eq_iff_iff]
  simp

/-- C43: the constructors. -/
theorem C43_construction_is_exact (v : Nat) (h0 : v ≠ 0) :
    (v < 2 ^ 32 → Represents (Bignum.ofU32 v) v) ∧ (v < 2 ^ 64 → Represents (Bignum.ofU64 v) v) := by
  have hcap : (2 ^ 64 : Nat) < 2 ^ 1088 := Nat.pow_lt_pow_right (by decide) (by decide)
  refine ⟨fun h => ?_, fun h => ?_⟩
  · rw [Bignum.ofU32_eq h0 (by rw [show W = 2 ^ 32 by decide]; exact h)]
    exact represents_iff.2 ⟨rfl, by omega⟩
  · rw [Bignum.ofU64_eq h0 h]
    exact represents_iff.2 ⟨rfl, by omega⟩

example : Represents (Bignum.ofU64 (2 ^ 63)) (2 ^ 63) := (C43_construction_is_exact _ (by decide)).2 (by decide)

/-- C43: digits are generated without undefined behaviour (no access outside of the blocks of a big integer, none
outside of the digit buffer) for every finite double, the shortest ones, any number of significant digits and any
number of decimals. -/
theorem C43_digit_generation_is_defined (bits : Nat) (hb : bits < 2 ^ 64) (hf : IsFinite bits) (h0 : bits % 2 ^ 63 ≠ 0) :
    (∃ r, formatShortest (decode bits).finite () = .ok () r) ∧
    (∀ n : Nat, ∃ r, formatExact (decode bits).finite .significandDigits n () = .ok () r) ∧
    (∀ n : Int, ∃ r, formatExact (decode bits).finite .decimalPoint n () = .ok () r) := by
  obtain ⟨_, _, sp⟩ := decode_spec hb hf h0
  refine ⟨?_, fun n => ?_, fun n => ?_⟩
  · obtain ⟨n, D, k, _, hy⟩ := shortest_double hb hf h0
    exact ⟨_, hy⟩
  · obtain ⟨k, _, _, hy⟩ := formatExact_canon sp.ok .significandDigits n (by intro _; omega)
    exact ⟨_, hy⟩
  · obtain ⟨k, _, _, hy⟩ := formatExact_canon sp.ok .decimalPoint n (by intro h; cases h)
    exact ⟨_, hy⟩

example : IsFinite 1 ∧ 1 % 2 ^ 63 ≠ 0 ∧
    (formatExact (decode 1).finite .significandDigits 5 ()).val? = some ("49407".toList, -323) := by decide +kernel

/-! ### C46 infinities and NaN -/

/-- C46: infinities and NaN are formatted to sign and name, in upper case for the upper case types, and padded like
text; the flag `0` stands for blanks on the left. -/
theorem C46_not_finite (bits : Nat) (hb : bits < 2 ^ 64) (hf : IsInf bits ∨ IsNaN bits) (t : SpecText) (wf : t.WellFormed)
    (fits : t.Fits) (hal : CoreTy.Allows .double t) :
    formatStr ("{:".toList ++ t.text ++ "}".toList) [(CoreArg.double bits).farg] =
      .ok () (padded .left (if t.meaning.zeroFlag then { t.meaning with fill := ' ' } else t.meaning)
        (signOf t.meaning (signBit bits) ++
          (if t.type = some 'E' ∨ t.type = some 'F' ∨ t.type = some 'G' then
            (if fractionOf bits = 0 then "INF".toList else "NAN".toList)
          else if fractionOf bits = 0 then "inf".toList else "nan".toList))) := by
  have hnf : ¬ IsFinite bits := by
    unfold IsFinite
    rcases hf with h | h <;> rw [h.1] <;> decide
  have hr := render_double bits hb t wf fits hal
  rw [actual_eq (fun h => hnf h.2.1)] at hr
  rw [hr]
  unfold floatText
  rw [if_neg hnf]
  have hup : (t.meaning.type == 'E' || t.meaning.type == 'F' || t.meaning.type == 'G') = true ↔
      t.type = some 'E' ∨ t.type = some 'F' ∨ t.type = some 'G' := by
    rw [← meaning_type_some wf 'E' (by decide), ← meaning_type_some wf 'F' (by decide), ← meaning_type_some wf 'G' (by decide)]
    simp [or_assoc]
  have : nonFiniteText t.meaning bits =
      (if t.type = some 'E' ∨ t.type = some 'F' ∨ t.type = some 'G' then
            (if fractionOf bits = 0 then "INF".toList else "NAN".toList)
          else if fractionOf bits = 0 then "inf".toList else "nan".toList) := by
    unfold nonFiniteText
    simp only
    by_cases h : t.type = some 'E' ∨ t.type = some 'F' ∨ t.type = some 'G'
    · rw [if_pos h, if_pos (hup.2 h), if_pos (hup.2 h)]
    · rw [if_neg h, if_neg (fun hh => h (hup.1 hh)), if_neg (fun hh => h (hup.1 hh))]
  rw [this]

/-- With the flag `0` there is no zero and no sign between blanks. -/
example : formatStr "{:06}|{:+06F}|{:*^7e}|{:5}".toList (fargs [.double 0xFFF0000000000000, .double 0x7FF8000000000000,
    .double 0x7FF0000000000000, .double 0x7FF0000000000000]) = .ok () "  -inf|  +NAN|**inf**|inf  ".toList := by decide +kernel

end Emio
