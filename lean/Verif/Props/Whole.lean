import Verif.Spec.Whole
import Verif.Props.Digits17
import Verif.Props.Format
import Verif.Props.Sizes
/-
Property C90: whole numbers are written alike as integers and as floating-point numbers.
-/
namespace Emio
open Spec

theorem lastDigits_mul_pow (j D : ℕ) : lastDigits j (D * 10 ^ j) = List.replicate j '0' := by
  induction j with
  | zero => rfl
  | succ j ih =>
    unfold lastDigits
    rw [pow_succ, ← mul_assoc, Nat.mul_div_cancel _ (by decide), ih, Nat.mul_mod_left, List.replicate_succ']

/-- The magnitude of a double is read as the double. -/
theorem magnitude_reads {b : ℕ} (h0 : b ≠ 0) (hb : b < 2047 * 2 ^ 52) : ReadsAs (magnitude b) b := by
  rw [readsAs_iff h0 hb]
  have l := magnitude_lt (show b - 1 < b by omega) hb.le
  have u := magnitude_lt (show b < b + 1 by omega) hb
  unfold halfDown halfUp
  exact ⟨Or.inl (by linarith), Or.inl (by linarith)⟩

theorem ulpExp_pred (b : ℕ) (hb : b < 2047 * 2 ^ 52) : ulpExp (b - 1) ≤ ulpExp b := by
  unfold ulpExp exponentOf
  split <;> split <;> omega

/-- What is read as a whole number below 10^16 is close to it. -/
theorem whole_close {b m : ℕ} (h0 : b ≠ 0) (hb : b < 2047 * 2 ^ 52) (hm : magnitude b = m) (hlt : m < 10 ^ 16) {x : ℚ}
    (hx : ReadsAs x b) : |x - m| ≤ 1 / 2 ∨ (|x - m| ≤ 1 ∧ 2 ∣ m ∧ 2 ≤ m) := by
  rw [readsAs_iff h0 hb] at hx
  have hup := magnitude_succ hb
  have hdown := magnitude_succ (b := b - 1) (by omega)
  rw [Nat.sub_add_cancel (by omega)] at hdown
  have hpred : (2 : ℚ) ^ ulpExp (b - 1) ≤ (2 : ℚ) ^ ulpExp b := zpow_le_zpow_right₀ (by norm_num) (ulpExp_pred b hb)
  have hclose : |x - m| ≤ 1 / 2 * (2 : ℚ) ^ ulpExp b := by
    unfold halfDown halfUp at hx
    rw [← hm, abs_le]
    obtain ⟨h1, h2⟩ := hx
    constructor
    · rcases h1 with h | ⟨h, _⟩ <;> linarith
    · rcases h2 with h | ⟨h, _⟩ <;> linarith
  have heq := magnitude_eq b
  rw [hm] at heq
  rcases le_or_gt (ulpExp b) 0 with hu | hu
  · left
    have : (2 : ℚ) ^ ulpExp b ≤ 1 := zpow_le_one_of_nonpos₀ (by norm_num) hu
    linarith
  · have hnorm : exponentOf b ≠ 0 := by
      intro h
      unfold ulpExp at hu
      rw [if_pos h] at hu
      omega
    have hmant : 2 ^ 52 ≤ mantissaOf b := by unfold mantissaOf; rw [if_neg hnorm]; omega
    have hu1 : ulpExp b = 1 := by
      by_contra hne
      have h2 : (2 : ℚ) ^ (2 : ℤ) ≤ (2 : ℚ) ^ ulpExp b := zpow_le_zpow_right₀ (by norm_num) (by omega)
      have h3 : (2 ^ 52 : ℚ) * 2 ^ (2 : ℤ) ≤ mantissaOf b * (2 : ℚ) ^ ulpExp b :=
        mul_le_mul (by exact_mod_cast hmant) h2 (by positivity) (by positivity)
      rw [← heq] at h3
      have h4 : (m : ℚ) < 10 ^ 16 := by exact_mod_cast hlt
      norm_num at h3 h4
      linarith
    rw [hu1, zpow_one] at heq hclose
    have heq : m = mantissaOf b * 2 := by exact_mod_cast heq
    exact Or.inr ⟨by linarith, ⟨mantissaOf b, by omega⟩, by omega⟩

/-- The shortest digits of a whole number below 10^16 denote it exactly. -/
theorem whole_shortest {b m : ℕ} (h0 : b ≠ 0) (hb : b < 2047 * 2 ^ 52) (hm : magnitude b = m) (hlt : m < 10 ^ 16) {n D : ℕ} {k : ℤ}
    (hs : Shortest b n D k) : D * (10 : ℚ) ^ (k - n) = m := by
  have hpos : 1 ≤ m := by
    have := magnitude_lt (show 0 < b by omega) hb.le
    rw [magnitude_zero, hm] at this
    exact_mod_cast this
  have exact : ∀ (D' : ℕ) (q : ℤ), D' < 10 ^ n → D' * (10 : ℚ) ^ q = m → D * (10 : ℚ) ^ (k - n) = m := by
    intro D' q hD hq
    have hr : ReadsAs (D' * (10 : ℚ) ^ q) b := by rw [hq, ← hm]; exact magnitude_reads h0 hb
    have := (hs.closest D' q hD hr).1
    rw [hq, hm, sub_self, abs_zero] at this
    have := abs_eq_zero.1 (le_antisymm this (abs_nonneg _))
    linarith
  have hc := whole_close h0 hb hm hlt hs.reads
  have hX : D * (10 : ℚ) ^ (k - n) < (10 : ℚ) ^ k := by
    have : (D : ℚ) < (10 : ℚ) ^ (n : ℤ) := by rw [zpow_natCast]; exact_mod_cast hs.D_high
    have h := mul_lt_mul_of_pos_right this (show (0 : ℚ) < 10 ^ (k - n) by positivity)
    rwa [← zpow_add₀ (by norm_num), add_sub_cancel] at h
  have hm1 : (1 : ℚ) ≤ m := by exact_mod_cast hpos
  have hk0 : 0 ≤ k := by
    by_contra hk
    have h1 : (10 : ℚ) ^ k ≤ (10 : ℚ) ^ (-1 : ℤ) := zpow_le_zpow_right₀ (by norm_num) (by omega)
    have h2 : (10 : ℚ) ^ (-1 : ℤ) = 1 / 10 := by norm_num
    rw [h2] at h1
    rcases hc with h | ⟨h, _, h3⟩ <;> rw [abs_le] at h
    · linarith
    · have : (2 : ℚ) ≤ m := by exact_mod_cast h3
      linarith
  obtain ⟨K, rfl⟩ := Int.eq_ofNat_of_zero_le hk0
  rcases Nat.lt_or_ge n K with hkn | hkn
  · -- a multiple of ten
    obtain ⟨j, rfl⟩ : ∃ j, K = n + (j + 1) := ⟨K - n - 1, by omega⟩
    have e : D * (10 : ℚ) ^ (((n + (j + 1) : ℕ) : ℤ) - n) = ((D * 10 ^ j * 10 : ℕ) : ℚ) := by
      rw [show ((n + (j + 1) : ℕ) : ℤ) - n = ((j + 1 : ℕ) : ℤ) by push_cast; ring, zpow_natCast]
      push_cast
      ring
    rw [e] at hc ⊢
    congr 1
    rcases hc with h | ⟨h, ⟨r, h2⟩, _⟩ <;> rw [abs_le] at h
    · have h1 : ((D * 10 ^ j * 10 : ℕ) : ℚ) < m + 1 := by linarith
      have h2 : (m : ℚ) < ((D * 10 ^ j * 10 : ℕ) : ℚ) + 1 := by linarith
      have h1 : D * 10 ^ j * 10 < m + 1 := by exact_mod_cast h1
      have h2 : m < D * 10 ^ j * 10 + 1 := by exact_mod_cast h2
      omega
    · have h1 : ((D * 10 ^ j * 10 : ℕ) : ℚ) ≤ m + 1 := by linarith
      have h2' : (m : ℚ) ≤ ((D * 10 ^ j * 10 : ℕ) : ℚ) + 1 := by linarith
      have h1 : D * 10 ^ j * 10 ≤ m + 1 := by exact_mod_cast h1
      have h2' : m ≤ D * 10 ^ j * 10 + 1 := by exact_mod_cast h2'
      omega
  · have hX' : D * (10 : ℚ) ^ (((K : ℕ) : ℤ) - n) < ((10 ^ K : ℕ) : ℚ) := by
      rw [Nat.cast_pow, ← zpow_natCast]; exact_mod_cast hX
    have hle : m ≤ 10 ^ K := by
      have : (m : ℚ) < ((10 ^ K + 1 : ℕ) : ℚ) := by
        push_cast at hX' ⊢
        rcases hc with h | ⟨h, _⟩ <;> rw [abs_le] at h <;> linarith
      have : m < 10 ^ K + 1 := by exact_mod_cast this
      omega
    rcases Nat.lt_or_eq_of_le hle with h | h
    · exact exact m 0 (lt_of_lt_of_le h (Nat.pow_le_pow_right (by decide) hkn)) (by simp)
    · refine exact 1 K (Nat.one_lt_pow (by have := hs.n_pos; omega) (by decide)) ?_
      rw [h]
      push_cast
      rw [one_mul, zpow_natCast]

/-- So they are the digits of the number. -/
theorem whole_digits {b m : ℕ} (h0 : b ≠ 0) (hb : b < 2047 * 2 ^ 52) (hm : magnitude b = m) (hlt : m < 10 ^ 16) {n D : ℕ} {k : ℤ}
    (hs : Shortest b n D k) : ∃ j : ℕ, k = j + 1 ∧ j < 16 ∧ positional false (lastDigits n D) (k - 1) = numeral false 10 m := by
  have he := whole_shortest h0 hb hm hlt hs
  have hpos : 1 ≤ m := by
    have := magnitude_lt (show 0 < b by omega) hb.le
    rw [magnitude_zero, hm] at this
    exact_mod_cast this
  have h10 : (10 : ℚ) ≠ 0 := by norm_num
  have hn := hs.n_pos
  have hlow : (10 : ℚ) ^ (k - 1) ≤ m := by
    have h1 : (10 : ℚ) ^ ((n : ℤ) - 1) ≤ D := by
      rw [show (n : ℤ) - 1 = ((n - 1 : ℕ) : ℤ) by omega, zpow_natCast]
      exact_mod_cast hs.D_low
    have := mul_le_mul_of_nonneg_right h1 (show (0 : ℚ) ≤ 10 ^ (k - n) by positivity)
    rw [← zpow_add₀ h10, he] at this
    rwa [show (n : ℤ) - 1 + (k - n) = k - 1 by ring] at this
  have hhigh : (m : ℚ) < (10 : ℚ) ^ k := by
    have h1 : (D : ℚ) < (10 : ℚ) ^ (n : ℤ) := by rw [zpow_natCast]; exact_mod_cast hs.D_high
    have := mul_lt_mul_of_pos_right h1 (show (0 : ℚ) < 10 ^ (k - n) by positivity)
    rw [← zpow_add₀ h10, he] at this
    rwa [add_sub_cancel] at this
  have hk : 1 ≤ k := by
    by_contra hk
    have h1 : (10 : ℚ) ^ k ≤ 1 := zpow_le_one_of_nonpos₀ (by norm_num) (by omega)
    have h2 : (1 : ℚ) ≤ m := by exact_mod_cast hpos
    linarith
  obtain ⟨j, rfl⟩ : ∃ j : ℕ, k = j + 1 := ⟨(k - 1).toNat, by omega⟩
  rw [add_sub_cancel_right, zpow_natCast] at hlow
  have hlow : 10 ^ j ≤ m := by exact_mod_cast hlow
  have hhigh : m < 10 ^ (j + 1) := by
    rw [show ((j : ℤ) + 1) = ((j + 1 : ℕ) : ℤ) by push_cast; rfl, zpow_natCast] at hhigh
    exact_mod_cast hhigh
  have hj : j < 16 := by
    by_contra h
    have := Nat.pow_le_pow_right (show 0 < 10 by decide) (show 16 ≤ j by omega)
    omega
  refine ⟨j, rfl, hj, ?_⟩
  have hnk : n ≤ j + 1 := by
    have hr : ReadsAs ((m : ℚ) * (10 : ℚ) ^ (0 : ℤ)) b := by
      rw [zpow_zero, mul_one, ← hm]
      exact magnitude_reads h0 hb
    exact hs.shortest (j + 1) m 0 hhigh hr
  obtain ⟨r, hr⟩ : ∃ r, j + 1 = n + r := ⟨j + 1 - n, by omega⟩
  have hD : m = D * 10 ^ r := by
    rw [show ((j : ℤ) + 1) - n = ((r : ℕ) : ℤ) by omega, zpow_natCast] at he
    exact_mod_cast he.symm
  rw [numeral_lastDigits j m (Or.inl hlow) hhigh, hr, lastDigits_append, hD, lastDigits_mul_pow,
    Nat.mul_div_cancel _ (by positivity), add_sub_cancel_right]
  unfold positional
  rw [if_neg (by omega)]
  have hl : (lastDigits n D).length = n := lastDigits_length n D
  simp only [hl, show ((j : ℤ) + 1).toNat = n + r by omega]
  rw [if_neg (by simp), List.take_of_length_le (by rw [hl]; exact Nat.le_add_right _ _), Nat.add_sub_cancel_left, List.append_nil]

theorem isWhole_parts {bits : ℕ} {n : ℤ} (h : IsWhole bits n) :
    magnitude bits = (n.natAbs : ℚ) ∧ signBit bits = decide (n < 0) := by
  obtain ⟨_, hv, hz⟩ := h
  have h0 : (0 : ℚ) ≤ magnitude bits := magnitude_nonneg bits
  unfold valueOf signed at hv
  rcases hs : signBit bits with _ | _
  · rw [hs] at hv
    simp only [Bool.false_eq_true, if_false] at hv
    have hn : 0 ≤ n := by rw [hv] at h0; exact_mod_cast h0
    refine ⟨?_, by simp; omega⟩
    rw [hv, ← Int.cast_natCast, Int.natAbs_of_nonneg hn]
  · rw [hs] at hv
    simp only [if_true] at hv
    have hn : n ≤ 0 := by
      have : (n : ℚ) ≤ 0 := by linarith
      exact_mod_cast this
    have hne : n ≠ 0 := fun h => by rw [hz h] at hs; cases hs
    refine ⟨?_, by simp; omega⟩
    have : magnitude bits = ((-n : ℤ) : ℚ) := by push_cast; linarith
    rw [this, ← Int.cast_natCast, Int.ofNat_natAbs_of_nonpos hn]

theorem intText_decimal {s : Specs} (n : ℤ) (h : s.type = noChar) (halt : s.alternateForm = false) :
    intText s n = paddedNumber s (signOf s (n < 0)) (numeral false 10 n.natAbs) := by
  have hp : prefixOf s n = [] := by unfold prefixOf; simp [halt]
  unfold intText
  rw [hp, List.append_nil, h]
  rfl

/-- C90: whole numbers below 10^16 have the same text as integers and as doubles. -/
theorem C90_same_text (ty : IntTy) (n : ℤ) (bits : ℕ) (hty : ty.Std) (hn : ty.Holds n) (hb : bits < 2 ^ 64)
    (h : IsWhole bits n) (hlt : n.natAbs < 10 ^ 16) (t : SpecText) (wf : t.WellFormed) (fits : t.Fits)
    (hal : CoreTy.Allows (.int ty) t) (ht : t.type = none) (hp : t.prec = none) (halt : t.alt = false) :
    formatStr ("{:".toList ++ t.text ++ "}".toList) [(CoreArg.double bits).farg] =
      formatStr ("{:".toList ++ t.text ++ "}".toList) [(CoreArg.int ty n).farg] := by
  obtain ⟨hm, hs⟩ := isWhole_parts h
  rw [C30_integers ty n hty hn t wf fits hal (by rw [ht]; simp), intText_decimal n ((meaning_type_none wf).2 ht) halt]
  obtain ⟨N, D, k, hsh, hr⟩ := default_text hb h.1 wf fits ⟨ht, hp⟩
  rw [hr, hs, halt]
  have hm' : magnitude (bits % 2 ^ 63) = (n.natAbs : ℚ) := by rw [magnitude_low, hm]
  rcases hsh with ⟨h0, rfl, rfl, rfl⟩ | hsh
  · rw [h0, magnitude_zero] at hm'
    have : n.natAbs = 0 := by exact_mod_cast hm'.symm
    rw [this]
    rfl
  · by_cases h0 : bits % 2 ^ 63 = 0
    · exfalso
      have := hsh.shortest 0 0 0 (by decide) (by rw [h0, Nat.cast_zero, zero_mul]; exact reads_zero)
      have := hsh.n_pos
      omega
    · obtain ⟨j, hk, hj, hd⟩ := whole_digits h0 (finite_low h.1) hm' hlt hsh
      rw [if_neg (by omega), hd]

theorem roundHalfEven_nat (m : ℕ) : roundHalfEven (m : ℚ) = m := by
  unfold roundHalfEven
  simp

/-- C90: whole numbers of any size have the same text as integers and, without decimals, as doubles. -/
theorem C90_no_decimals (ty : IntTy) (n : ℤ) (bits : ℕ) (hty : ty.Std) (hn : ty.Holds n) (hb : bits < 2 ^ 64)
    (h : IsWhole bits n) (t : SpecText) (wf : t.WellFormed) (fits : t.Fits)
    (hal : CoreTy.Allows (.int ty) t) (ht : t.type = none) (hp : t.prec = none) (halt : t.alt = false) :
    formatStr ("{:".toList ++ t.noDecimals.text ++ "}".toList) [(CoreArg.double bits).farg] =
      formatStr ("{:".toList ++ t.text ++ "}".toList) [(CoreArg.int ty n).farg] := by
  obtain ⟨hm, hs⟩ := isWhole_parts h
  rw [C30_integers ty n hty hn t wf fits hal (by rw [ht]; simp), intText_decimal n ((meaning_type_none wf).2 ht) halt]
  have wf' : t.noDecimals.WellFormed := by
    refine ⟨wf.fill, wf.align, wf.sign, wf.width, wf.widthHead, ?_, ?_⟩ <;> intro c hc <;> cases hc
    · exact ⟨by simp, by simp⟩
    · exact Or.inl rfl
  have hpv : t.noDecimals.precValue = 0 := rfl
  have fits' : t.noDecimals.Fits := ⟨fits.1, by rw [hpv]; decide⟩
  have hal' : CoreTy.Allows .double t.noDecimals := by
    refine ⟨by rw [hpv]; decide, fun c hc => ?_⟩
    cases hc
    simp
  have hprec : precisionOf t.noDecimals.meaning = 0 := by rfl
  rw [(C44_fixed_has_decimals_partial bits hb h.1 t.noDecimals wf' fits' hal' (Or.inl rfl)).1 (by
    rw [hprec]; rintro ⟨j, _, hj, _⟩; omega), hprec, hs, hm]
  have : fixedPoint 0 t.noDecimals.alt (n.natAbs : ℚ) = numeral false 10 n.natAbs := by
    unfold fixedPoint
    rw [show t.noDecimals.alt = false from halt, pow_zero, mul_one, roundHalfEven_nat]
    simp
  rw [this]
  rfl

/-- C90: the text of an integer does not depend on its type. -/
theorem C90_any_integer_type (ty ty' : IntTy) (n : ℤ) (hty : ty.Std) (hty' : ty'.Std) (hn : ty.Holds n) (hn' : ty'.Holds n)
    (t : SpecText) (wf : t.WellFormed) (fits : t.Fits) (hal : CoreTy.Allows (.int ty) t) (hal' : CoreTy.Allows (.int ty') t) :
    formatStr ("{:".toList ++ t.text ++ "}".toList) [(CoreArg.int ty n).farg] =
      formatStr ("{:".toList ++ t.text ++ "}".toList) [(CoreArg.int ty' n).farg] := by
  by_cases hO : t.type = some 'O'
  · have fails : ∀ ty : IntTy, ty.Std → ty.Holds n → CoreTy.Allows (.int ty) t →
        formatStr ("{:".toList ++ t.text ++ "}".toList) [(CoreArg.int ty n).farg] = .err () .invalidFormat := by
      intro ty h1 h2 h3
      have := (C22_fails_iff_O (Template.single (some t)) [.int ty n] (single_suits wf fits h3) (by simp [ValidArg, h1, h2])).2.2
        ⟨0, 0, _, _, rfl, rfl, rfl, hO, trivial⟩
      rwa [single_text] at this
    rw [fails ty hty hn hal, fails ty' hty' hn' hal']
  · rw [C30_integers ty n hty hn t wf fits hal hO, C30_integers ty' n hty' hn' t wf fits hal' hO]

/-- From 10^16 on the texts differ (10^16 as an integer and as a double), and -0 is shown with its sign. -/
theorem C90_limits : IsWhole 0x4341C37937E08000 (10 ^ 16) ∧
    formatStr "{}".toList [(CoreArg.int i64 (10 ^ 16)).farg] = .ok () "10000000000000000".toList ∧
    formatStr "{}".toList [(CoreArg.double 0x4341C37937E08000).farg] = .ok () "1e+16".toList ∧
    formatStr "{}".toList [(CoreArg.double 0x8000000000000000).farg] = .ok () "-0".toList := by
  refine ⟨⟨by unfold IsFinite; decide +kernel, by decide +kernel, by decide +kernel⟩, by decide +kernel, by decide +kernel, by decide +kernel⟩

/-- -42 as an int and as a double, `{:+07}`. -/
example : IsWhole 0xC045000000000000 (-42) ∧ IntTy.Holds i32 (-42) ∧
    formatStr "{:+07}".toList [(CoreArg.int i32 (-42)).farg] = .ok () "-000042".toList ∧
    formatStr "{:+07}".toList [(CoreArg.double 0xC045000000000000).farg] = .ok () "-000042".toList ∧
    formatStr "{:+07.0f}".toList [(CoreArg.double 0xC045000000000000).farg] = .ok () "-000042".toList := by
  refine ⟨⟨by unfold IsFinite; decide +kernel, by decide +kernel, by decide +kernel⟩, by decide +kernel, by decide +kernel, by decide +kernel, by decide +kernel⟩

example : ∃ t : SpecText, t.WellFormed ∧ t.Fits ∧ CoreTy.Allows (.int i32) t ∧ t.type = none ∧ t.prec = none ∧ t.alt = false ∧
    t.text = "+07".toList ∧ t.noDecimals.text = "+07.0f".toList :=
  ⟨{ sign := '+', zero := true, width := ['7'] }, by constructor <;> simp, by unfold SpecText.Fits; decide,
    by simp [CoreTy.Allows, SpecText.ForInteger], rfl, rfl, rfl, rfl, rfl⟩

end Emio
