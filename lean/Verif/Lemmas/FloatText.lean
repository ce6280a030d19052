import Verif.Lemmas.FloatDigits
/-
Helper lemmas: formatting a floating-point number writes the specified text.
-/
namespace Emio
open Spec

/-! ### The shortest digits -/

theorem Shortest.unique {b n D n' D' : ℕ} {k k' : ℤ} (s : Shortest b n D k) (s' : Shortest b n' D' k') :
    n = n' ∧ D = D' ∧ k = k' := by
  have hn : n = n' := Nat.le_antisymm (s.shortest _ _ _ s'.D_high s'.reads) (s'.shortest _ _ _ s.D_high s.reads)
  subst hn
  obtain ⟨a1, a2⟩ := s.closest _ _ s'.D_high s'.reads
  obtain ⟨b1, b2⟩ := s'.closest _ _ s.D_high s.reads
  have heq := le_antisymm a1 b1
  have hX : (D : ℚ) * (10 : ℚ) ^ (k - n) = D' * (10 : ℚ) ^ (k' - n) := le_antisymm (b2 heq.symm) (a2 heq)
  have low : ∀ {E : ℕ} {j : ℤ}, 10 ^ (n - 1) ≤ E → (10 : ℚ) ^ (j - 1) ≤ E * (10 : ℚ) ^ (j - n) := by
    intro E j h
    have : ((10 : ℚ) ^ (n - 1)) ≤ E := by exact_mod_cast h
    have := mul_le_mul_of_nonneg_right this (show (0 : ℚ) ≤ (10 : ℚ) ^ (j - n) by positivity)
    rw [← zpow_natCast, ← zpow_add₀ (by norm_num)] at this
    have hn := s.n_pos
    rwa [show ((n - 1 : ℕ) : ℤ) + (j - n) = j - 1 by omega] at this
  have high : ∀ {E : ℕ} {j : ℤ}, E < 10 ^ n → E * (10 : ℚ) ^ (j - n) < (10 : ℚ) ^ j := by
    intro E j h
    have : (E : ℚ) < (10 : ℚ) ^ n := by exact_mod_cast h
    have := mul_lt_mul_of_pos_right this (show (0 : ℚ) < (10 : ℚ) ^ (j - n) by positivity)
    rw [← zpow_natCast, ← zpow_add₀ (by norm_num)] at this
    rwa [show (n : ℤ) + (j - n) = j by ring] at this
  have l1 := low (j := k) s.D_low
  have l2 := low (j := k') s'.D_low
  have u1 := high (j := k) s.D_high
  have u2 := high (j := k') s'.D_high
  have hk : k = k' := by
    have a : k - 1 < k' := (zpow_lt_zpow_iff_right₀ (show (1 : ℚ) < 10 by norm_num)).1 (by linarith)
    have b : k' - 1 < k := (zpow_lt_zpow_iff_right₀ (show (1 : ℚ) < 10 by norm_num)).1 (by linarith)
    omega
  subst hk
  have hp : (10 : ℚ) ^ (k - n) ≠ 0 := by positivity
  exact ⟨rfl, by exact_mod_cast mul_right_cancel₀ hp hX, rfl⟩

/-- There are no zeros at the end of the shortest digits. -/
theorem Shortest.last {b n D : ℕ} {k : ℤ} (s : Shortest b n D k) (h : 1 < n) : D % 10 ≠ 0 := by
  intro hc
  have hD : D = D / 10 * 10 := by omega
  have hlt : D / 10 < 10 ^ (n - 1) := by
    have h2 := s.D_high
    obtain ⟨m, rfl⟩ : ∃ m, n = m + 1 := ⟨n - 1, by omega⟩
    rw [pow_succ] at h2
    rw [Nat.add_sub_cancel]
    omega
  have hr := s.reads
  have e : (D : ℚ) * (10 : ℚ) ^ (k - n) = ((D / 10 : ℕ) : ℚ) * (10 : ℚ) ^ (k - n + 1) := by
    rw [zpow_add_one₀ (by norm_num)]
    have : (D : ℚ) = ((D / 10 : ℕ) : ℚ) * 10 := by exact_mod_cast hD
    rw [this]
    push_cast
    ring
  rw [e] at hr
  have := s.shortest _ _ _ hlt hr
  omega

theorem shortestDigits_eq {b n D : ℕ} {k : ℤ} (h0 : b ≠ 0) (s : Shortest b n D k) : shortestDigits b = (n, D, k - 1) := by
  unfold shortestDigits
  rw [if_neg h0]
  have h := Classical.epsilon_spec (p := fun x : ℕ × ℕ × ℤ => Shortest b x.1 x.2.1 x.2.2) ⟨(n, D, k), s⟩
  obtain ⟨h1, h2, h3⟩ := s.unique h
  simp only [← h1, ← h2, ← h3]

/-! ### Magnitudes -/

theorem magnitude_range {b : ℕ} (h0 : b ≠ 0) (hb : b < 2047 * 2 ^ 52) :
    (10 : ℚ) ^ (-324 : ℤ) ≤ magnitude b ∧ magnitude b < (10 : ℚ) ^ (309 : ℤ) := by
  constructor
  · refine le_trans ?_ (magnitude_mono (show 1 ≤ b by omega) hb.le)
    rw [magnitude_eq, show mantissaOf 1 = 1 by decide, show ulpExp 1 = -1074 by decide]
    have := frac_lt (A := 1) (e := 324) (B := 1) (f := 1074) (by decide +kernel)
    rw [Nat.cast_one, one_mul, one_mul] at this
    rw [Nat.cast_one, one_mul]
    exact this.le
  · refine lt_trans (magnitude_lt hb le_rfl) ?_
    rw [magnitude_eq, show mantissaOf (2047 * 2 ^ 52) = 2 ^ 52 by decide, show ulpExp (2047 * 2 ^ 52) = 972 by decide]
    have e : (((2 ^ 52 : ℕ) : ℚ)) * (2 : ℚ) ^ (972 : ℤ) = ((2 ^ 1024 : ℕ) : ℚ) := by
      rw [show (972 : ℤ) = ((972 : ℕ) : ℤ) by norm_num, zpow_natCast]
      exact_mod_cast (show 2 ^ 52 * 2 ^ 972 = 2 ^ 1024 by decide +kernel)
    rw [e, show (309 : ℤ) = ((309 : ℕ) : ℤ) by norm_num, zpow_natCast]
    exact_mod_cast (show 2 ^ 1024 < 10 ^ 309 by decide +kernel)

theorem roundSignificant_range {b n : ℕ} (hb : b < 2047 * 2 ^ 52) :
    -325 ≤ (roundSignificant n (magnitude b)).2 ∧ (roundSignificant n (magnitude b)).2 ≤ 309 := by
  unfold roundSignificant
  split
  · simp
  · rename_i hv
    have h0 : b ≠ 0 := by
      rintro rfl
      exact hv (by decide +kernel)
    obtain ⟨m1, m2⟩ := magnitude_range h0 hb
    have hpos : 0 < magnitude b := lt_of_lt_of_le (by positivity) m1
    have a := (Int.zpow_le_iff_le_log (b := 10) (x := -324) (by decide) hpos).1 (by exact_mod_cast m1)
    have c := (Int.lt_zpow_iff_log_lt (b := 10) (x := 309) (by decide) hpos).1 (by exact_mod_cast m2)
    simp only
    split <;> simp only <;> omega

theorem Shortest.range {b n D : ℕ} {k : ℤ} (h0 : b ≠ 0) (hb : b < 2047 * 2 ^ 52) (s : Shortest b n D k) :
    -325 ≤ k - 1 ∧ k - 1 ≤ 309 := by
  obtain ⟨r1, r2, r3, r4⟩ := s.reads
  obtain ⟨m1, m2⟩ := magnitude_range h0 hb
  have hn := s.n_pos
  have hlow : (10 : ℚ) ^ (k - 1) ≤ D * (10 : ℚ) ^ (k - n) := by
    have : ((10 : ℚ) ^ (n - 1)) ≤ D := by exact_mod_cast s.D_low
    have := mul_le_mul_of_nonneg_right this (show (0 : ℚ) ≤ (10 : ℚ) ^ (k - n) by positivity)
    rw [← zpow_natCast, ← zpow_add₀ (by norm_num)] at this
    rwa [show ((n - 1 : ℕ) : ℤ) + (k - n) = k - 1 by omega] at this
  have hhigh : D * (10 : ℚ) ^ (k - n) < (10 : ℚ) ^ k := by
    have : (D : ℚ) < (10 : ℚ) ^ n := by exact_mod_cast s.D_high
    have := mul_lt_mul_of_pos_right this (show (0 : ℚ) < (10 : ℚ) ^ (k - n) by positivity)
    rw [← zpow_natCast, ← zpow_add₀ (by norm_num)] at this
    rwa [show (n : ℤ) + (k - n) = k by ring] at this
  generalize (D : ℚ) * (10 : ℚ) ^ (k - n) = X at *
  have hX : 0 < X := lt_of_lt_of_le (by positivity) hlow
  constructor
  · have h := r4 0 (by decide) (by decide) (Ne.symm h0)
    have hm0 : magnitude 0 = 0 := by decide +kernel
    rw [hm0, sub_zero, abs_of_pos hX] at h
    have h' : |X - magnitude b| ≤ X := by
      rcases h with h | ⟨h, _⟩
      · exact h.le
      · exact h.le
    have h2 : magnitude b ≤ 2 * X := by
      have := (abs_le.1 h').1
      linarith
    have h3 : (10 : ℚ) ^ (-325 : ℤ) < (10 : ℚ) ^ k := by
      have e : (10 : ℚ) ^ (-324 : ℤ) = 10 * (10 : ℚ) ^ (-325 : ℤ) := by
        rw [show (-324 : ℤ) = -325 + 1 by norm_num, zpow_add_one₀ (by norm_num), mul_comm]
      have p : (0 : ℚ) < (10 : ℚ) ^ (-325 : ℤ) := by positivity
      rw [e] at m1
      linarith
    have := (zpow_lt_zpow_iff_right₀ (show (1 : ℚ) < 10 by norm_num)).1 h3
    omega
  · have e : overflowLimit < (10 : ℚ) ^ (309 : ℤ) := by
      unfold overflowLimit
      have e : ((2 : ℚ) ^ 54 - 1) * (2 : ℚ) ^ (970 : ℤ) < ((2 ^ 1024 : ℕ) : ℚ) := by
        have : ((2 ^ 1024 : ℕ) : ℚ) = (2 : ℚ) ^ 54 * (2 : ℚ) ^ (970 : ℤ) := by
          push_cast
          rw [← zpow_natCast, ← zpow_natCast, ← zpow_add₀ (by norm_num)]
          norm_num
        rw [this]
        have p : (0 : ℚ) < (2 : ℚ) ^ (970 : ℤ) := by positivity
        exact mul_lt_mul_of_pos_right (by norm_num) p
      refine lt_trans e ?_
      rw [show (309 : ℤ) = ((309 : ℕ) : ℤ) by norm_num, zpow_natCast]
      exact_mod_cast (show 2 ^ 1024 < 10 ^ 309 by decide +kernel)
    have h3 : (10 : ℚ) ^ (k - 1) < (10 : ℚ) ^ (309 : ℤ) := by linarith
    have := (zpow_lt_zpow_iff_right₀ (show (1 : ℚ) < 10 by norm_num)).1 h3
    omega

/-! ### Digits that are shown -/

theorem take_dropZeros (digits : Str) : digits.take (digits.length - (digits.reverse.takeWhile (· == '0')).length) =
    (digits.reverse.dropWhile (· == '0')).reverse := by
  have h := List.takeWhile_append_dropWhile (p := (· == '0')) (l := digits.reverse)
  have h2 := congrArg List.reverse h
  rw [List.reverse_append, List.reverse_reverse] at h2
  have hl : (digits.reverse.dropWhile (· == '0')).reverse.length = digits.length - (digits.reverse.takeWhile (· == '0')).length := by
    have := congrArg List.length h
    simp only [List.length_append, List.length_reverse] at this ⊢
    omega
  rw [← hl]
  generalize (digits.reverse.dropWhile (· == '0')).reverse = x at *
  rw [← h2, List.take_left' rfl]

theorem takeWhile_zeros (digits : Str) : digits.reverse.takeWhile (· == '0') =
    List.replicate (digits.reverse.takeWhile (· == '0')).length '0' := by
  rw [List.eq_replicate_iff]
  refine ⟨rfl, fun c hc => ?_⟩
  have := List.mem_takeWhile_imp hc
  simpa using this

theorem lastDigits_first {n D : ℕ} (hn : 0 < n) (h1 : 10 ^ (n - 1) ≤ D) (h2 : D < 10 ^ n) :
    ∃ c ∈ lastDigits n D, c ≠ '0' := by
  obtain ⟨m, rfl⟩ : ∃ m, n = 1 + m := ⟨n - 1, by omega⟩
  rw [lastDigits_append]
  rw [show 1 + m - 1 = m by omega] at h1
  have hq : D / 10 ^ m < 10 := by
    rw [Nat.div_lt_iff_lt_mul (by positivity), ← pow_succ', show m + 1 = 1 + m by ring]
    exact h2
  have hq1 : 1 ≤ D / 10 ^ m := by
    rw [Nat.le_div_iff_mul_le (by positivity)]
    omega
  refine ⟨Char.ofNat (48 + D / 10 ^ m % 10), by simp [lastDigits], ?_⟩
  have key : ∀ q < 10, 1 ≤ q → Char.ofNat (48 + q % 10) ≠ '0' := by decide
  exact key _ hq hq1

theorem any_of_exists {ds : Str} (h : ∃ c ∈ ds, c ≠ '0') : ds.any (· != '0') = true ∧ ds.all (· == '0') = false := by
  obtain ⟨c, h1, h2⟩ := h
  constructor
  · rw [List.any_eq_true]; exact ⟨c, h1, by simpa using h2⟩
  · rw [List.all_eq_false]; exact ⟨c, h1, by simpa using h2⟩

/-- Digits in the general format. -/
theorem shown_general {fp : FpSpecs} (hg : fp.format = .general) {digits : Str} (h0 : digits ≠ []) (hn : ∃ c ∈ digits, c ≠ '0') :
    (fp.showpoint = false → shownDigits fp digits = dropZeros digits) ∧
    (fp.showpoint = true → fp.precision = digits.length → shownDigits fp digits = digits) := by
  obtain ⟨a1, a2⟩ := any_of_exists hn
  have hd : dropZeros digits = (digits.reverse.dropWhile (· == '0')).reverse := by
    unfold dropZeros
    rw [if_neg (by rw [a2]; simp)]
  have hle : (digits.reverse.takeWhile (· == '0')).length ≤ digits.length := by
    have := (List.takeWhile_sublist (· == '0') (l := digits.reverse)).length_le
    simpa using this
  have htake : digits.take (significandSize fp digits).toNat = dropZeros digits := by
    rw [hd, ← take_dropZeros]
    unfold significandSize
    split
    · congr 1
      omega
    · rename_i hc
      have hl : digits.length = 1 := by
        have : 0 < digits.length := List.length_pos_iff.2 h0
        by_contra hcon
        exact hc ⟨hg, by omega⟩
      obtain ⟨c, rfl⟩ := List.length_eq_one_iff.1 hl
      obtain ⟨c', hc1, hc2⟩ := hn
      have : c' = c := by simpa using hc1
      subst this
      simp [hc2]
  constructor
  · intro hsp
    unfold shownDigits
    rw [htake, hsp]
    simp
  · intro hsp hp
    unfold shownDigits
    rw [htake, hsp, hd]
    simp only [if_true]
    have hsz : (fp.precision - significandSize fp digits).toNat = (digits.reverse.takeWhile (· == '0')).length := by
      unfold significandSize
      split
      · omega
      · rename_i hc
        have hl : digits.length = 1 := by
          have : 0 < digits.length := List.length_pos_iff.2 h0
          by_contra hcon
          exact hc ⟨hg, by omega⟩
        obtain ⟨c, rfl⟩ := List.length_eq_one_iff.1 hl
        obtain ⟨c', hc1, hc2⟩ := hn
        have : c' = c := by simpa using hc1
        subst this
        rw [hp]
        simp [hc2]
    rw [hsz]
    have e : List.replicate (digits.reverse.takeWhile (· == '0')).length '0' = (digits.reverse.takeWhile (· == '0')).reverse := by
      conv_rhs => rw [takeWhile_zeros]
      rw [List.reverse_replicate]
    rw [e, ← List.reverse_append, List.takeWhile_append_dropWhile, List.reverse_reverse]

/-- Nothing is dropped if the last digit is not zero. -/
theorem dropZeros_last {digits : Str} (h0 : digits ≠ []) (h : 1 < digits.length → digits.getLast h0 ≠ '0') :
    dropZeros digits = digits := by
  have hr : digits.reverse ≠ [] := by simpa using h0
  by_cases hl : 1 < digits.length
  · have hlast := h hl
    unfold dropZeros
    rw [if_neg]
    · cases hrev : digits.reverse with
      | nil => exact absurd hrev hr
      | cons c cs =>
        have hc : c = digits.getLast h0 := by
          have hd : digits = cs.reverse ++ [c] := by
            have := congrArg List.reverse hrev
            simpa using this
          simp [hd]
        rw [List.dropWhile_cons_of_neg (by rw [hc]; simpa using hlast), ← hrev, List.reverse_reverse]
    · intro hall
      rw [List.all_eq_true] at hall
      have := hall _ (List.getLast_mem h0)
      exact hlast (by simpa using this)
  · have hl1 : digits.length = 1 := by
      have : 0 < digits.length := List.length_pos_iff.2 h0
      omega
    obtain ⟨c, rfl⟩ := List.length_eq_one_iff.1 hl1
    unfold dropZeros
    by_cases hc : c = '0'
    · subst hc; rfl
    · simp [hc]

/-! ### Specifications -/

theorem toInt16_small {v : Int} (h1 : -32768 ≤ v) (h2 : v < 32768) : toInt16 v = v := by
  unfold toInt16
  omega

/-- Precision and type of a specification that passed the check. -/
structure FloatSpecs (s : Specs) : Prop where
  low : -1 ≤ s.precision
  high : s.precision ≤ 1100
  type : s.type = noChar ∨ s.type = 'f' ∨ s.type = 'F' ∨ s.type = 'e' ∨ s.type = 'E' ∨ s.type = 'g' ∨ s.type = 'G'

theorem floatSpecs {s : Specs} (h : s.Ok) (hc : checkFloatingPointSpecs s = true) : FloatSpecs s := by
  unfold checkFloatingPointSpecs at hc
  simp at hc
  exact ⟨h.precision.1, by omega, by tauto⟩

theorem precisionOf_le {s : Specs} (f : FloatSpecs s) : precisionOf s ≤ 1100 := by
  have := f.high
  unfold precisionOf
  split <;> omega

theorem parse_fixed {s : Specs} (f : FloatSpecs s) (ht : s.type = 'f' ∨ s.type = 'F') :
    parseFpSpecs s = { precision := precisionOf s, format := .fixed, upper := s.type == 'E' || s.type == 'F' || s.type == 'G'
                       showpoint := s.alternateForm || decide (precisionOf s ≠ 0) } := by
  obtain ⟨f1, f2, _⟩ := f
  have he : ¬ (s.type = 'e' ∨ s.type = 'E') := by rcases ht with h | h <;> rw [h] <;> decide
  have hn : s.type ≠ noChar := by rcases ht with h | h <;> rw [h] <;> decide
  have hp : (if s.precision ≥ 0 ∨ s.type = noChar then toInt16 s.precision else 6) = (precisionOf s : ℤ) := by
    unfold precisionOf
    by_cases h0 : 0 ≤ s.precision
    · rw [if_pos (Or.inl h0), if_pos h0, toInt16_small (by omega) (by omega)]; omega
    · rw [if_neg (by tauto), if_neg h0]; rfl
  have hz : decide (s.precision ≠ 0) = decide (precisionOf s ≠ 0) := by
    unfold precisionOf
    rw [decide_eq_decide]
    split <;> omega
  unfold parseFpSpecs
  simp only [hp, he, if_pos ht, if_false, hz]
  rw [if_neg (by simp)]

theorem parse_exp {s : Specs} (f : FloatSpecs s) (ht : s.type = 'e' ∨ s.type = 'E') :
    parseFpSpecs s = { precision := precisionOf s + 1, format := .exp, upper := s.type == 'E' || s.type == 'F' || s.type == 'G'
                       showpoint := s.alternateForm || decide (precisionOf s ≠ 0) } := by
  have hle := precisionOf_le f
  obtain ⟨f1, f2, _⟩ := f
  have hn : s.type ≠ noChar := by rcases ht with h | h <;> rw [h] <;> decide
  have hp : (if s.precision ≥ 0 ∨ s.type = noChar then toInt16 s.precision else 6) = (precisionOf s : ℤ) := by
    unfold precisionOf
    by_cases h0 : 0 ≤ s.precision
    · rw [if_pos (Or.inl h0), if_pos h0, toInt16_small (by omega) (by omega)]; omega
    · rw [if_neg (by tauto), if_neg h0]; rfl
  have hz : decide (s.precision ≠ 0) = decide (precisionOf s ≠ 0) := by
    unfold precisionOf
    rw [decide_eq_decide]
    split <;> omega
  unfold parseFpSpecs
  simp only [hp, if_pos ht, hz]
  rw [toInt16_small (by omega) (by omega), if_neg (by rintro ⟨_, h⟩; omega)]

theorem parse_general {s : Specs} (f : FloatSpecs s) (ht : s.type = 'g' ∨ s.type = 'G' ∨ (s.type = noChar ∧ 0 ≤ s.precision)) :
    parseFpSpecs s = { precision := max (precisionOf s) 1, format := .general
                       upper := s.type == 'E' || s.type == 'F' || s.type == 'G', showpoint := s.alternateForm } := by
  obtain ⟨f1, f2, _⟩ := f
  have he : ¬ (s.type = 'e' ∨ s.type = 'E') := by rcases ht with h | h | ⟨h, _⟩ <;> rw [h] <;> decide
  have hf : ¬ (s.type = 'f' ∨ s.type = 'F') := by rcases ht with h | h | ⟨h, _⟩ <;> rw [h] <;> decide
  have ha : ¬ (s.type = 'a' ∨ s.type = 'A') := by rcases ht with h | h | ⟨h, _⟩ <;> rw [h] <;> decide
  have hp : (if s.precision ≥ 0 ∨ s.type = noChar then toInt16 s.precision else 6) = (precisionOf s : ℤ) := by
    unfold precisionOf
    by_cases h0 : 0 ≤ s.precision
    · rw [if_pos (Or.inl h0), if_pos h0, toInt16_small (by omega) (by omega)]; omega
    · have hn : s.type ≠ noChar := by
        rcases ht with h | h | ⟨h, h'⟩
        · rw [h]; decide
        · rw [h]; decide
        · exact absurd h' h0
      rw [if_neg (by tauto), if_neg h0]; rfl
  unfold parseFpSpecs
  simp only [hp, he, hf, ha, if_false]
  by_cases h0 : precisionOf s = 0
  · rw [if_pos ⟨by simp, by omega⟩, h0]
    rfl
  · rw [if_neg (by rintro ⟨_, h⟩; omega)]
    congr 1
    omega

theorem parse_shortest {s : Specs} (ht : s.type = noChar) (hp : s.precision = -1) :
    parseFpSpecs s = { precision := -1, format := .general, upper := s.type == 'E' || s.type == 'F' || s.type == 'G'
                       showpoint := s.alternateForm } := by
  unfold parseFpSpecs
  have hn : noChar ≠ 'e' ∧ noChar ≠ 'E' ∧ noChar ≠ 'f' ∧ noChar ≠ 'F' ∧ noChar ≠ 'a' ∧ noChar ≠ 'A' := by decide
  simp only [ht, hp, hn, or_true, if_true, or_self, if_false, toInt16]
  rfl

/-! ### Writing -/

theorem significandSize_fixed {fp : FpSpecs} (h : fp.format ≠ .general) (digits : Str) :
    significandSize fp digits = digits.length := by
  unfold significandSize
  rw [if_neg (by tauto)]

theorem finite_write {s : Specs} {dec : Decoded} (h1 : dec.category ≠ .infinity) (h2 : dec.category ≠ .nan) {digits : Str}
    {x : ℤ} (hy : Yields (formatDecimal (parseFpSpecs s) dec) (digits, x + 1)) {text : Str} {k : Nat}
    (he : Emits (do
      let sign ← tryWriteSign s dec.negative
      if useExpFormat (parseFpSpecs s) x then
        writeDecimalExp s (parseFpSpecs s) digits x (dec.negative || s.sign == ' ' || s.sign == '+') sign
      else writeDecimalFixed s (parseFpSpecs s) digits x (dec.negative || s.sign == ' ' || s.sign == '+') sign) text k) :
    Emits (formatAndWriteDecimal s dec) text k := by
  unfold formatAndWriteDecimal
  simp only
  rw [if_neg (by tauto)]
  refine Emits.lift hy ?_
  simp only [writeDecimalFp, Int.add_sub_cancel]
  exact he

theorem noChar_types (c : Char) (h : c = noChar) : c ≠ 'f' ∧ c ≠ 'F' ∧ c ≠ 'e' ∧ c ≠ 'E' ∧ c ≠ 'g' ∧ c ≠ 'G' := by
  subst h
  decide

/-- What is known about a finite double. -/
theorem finite_cases {bits : Nat} (hb : bits < 2 ^ 64) (hf : IsFinite bits) :
    (decode bits).category ≠ .infinity ∧ (decode bits).category ≠ .nan ∧ (decode bits).negative = signBit bits ∧
      bits % 2 ^ 63 < 2047 * 2 ^ 52 ∧
      (((decode bits).category = .zero ∧ bits % 2 ^ 63 = 0 ∧ magnitude bits = 0) ∨
        ((decode bits).category = .finite ∧ bits % 2 ^ 63 ≠ 0 ∧ FiniteOk (decode bits).finite ∧
          (decode bits).finite.value = magnitude bits ∧ magnitude bits ≠ 0)) := by
  have hlt : bits % 2 ^ 63 < 2047 * 2 ^ 52 := by
    unfold IsFinite exponentOf at hf
    omega
  by_cases h0 : bits % 2 ^ 63 = 0
  · obtain ⟨h1, h2⟩ := decode_zero hb h0
    have hm : magnitude bits = 0 := by rw [← magnitude_low, h0]; decide +kernel
    exact ⟨by simp [h1], by simp [h1], h2, hlt, Or.inl ⟨h1, h0, hm⟩⟩
  · obtain ⟨h1, h2, h3⟩ := decode_spec hb hf h0
    have hm : magnitude bits ≠ 0 := by
      rw [← magnitude_low]
      have := (magnitude_range h0 hlt).1
      have p : (0 : ℚ) < (10 : ℚ) ^ (-324 : ℤ) := by positivity
      linarith
    exact ⟨by simp [h1], by simp [h1], h2, hlt, Or.inr ⟨h1, h0, h3.ok, by rw [h3.value, magnitude_low], hm⟩⟩

/-- Exponent notation. -/
theorem exp_emits {s : Specs} (h : s.Ok) (f : FloatSpecs s) {bits : Nat} (hb : bits < 2 ^ 64) (hf : IsFinite bits)
    (ht : s.type = 'e' ∨ s.type = 'E') {k : Nat} (hk : (finiteText s bits).length + 1 ≤ k) (hk2 : k < 2 ^ 31) :
    Emits (formatAndWriteDecimal s (decode bits)) (floatText s bits) k := by
  obtain ⟨c1, c2, c3, hlt, hcase⟩ := finite_cases hb hf
  have hfp := parse_exp f ht
  have htf : ¬ (s.type = 'f' ∨ s.type = 'F') := by rcases ht with h | h <;> rw [h] <;> decide
  have hrange := roundSignificant_range (n := precisionOf s + 1) hlt
  rw [magnitude_low] at hrange
  have htext : finiteText s bits = scientific (s.type == 'E' || s.type == 'F' || s.type == 'G') s.alternateForm
      (lastDigits (precisionOf s + 1) (roundSignificant (precisionOf s + 1) (magnitude bits)).1)
      (roundSignificant (precisionOf s + 1) (magnitude bits)).2 := by
    unfold finiteText
    simp only [if_neg htf, if_pos ht]
  have hshow : ∀ ds : Str, ds.length = precisionOf s + 1 → ∀ x,
      scientific (s.type == 'E' || s.type == 'F' || s.type == 'G') (s.alternateForm || decide (precisionOf s ≠ 0)) ds x =
      scientific (s.type == 'E' || s.type == 'F' || s.type == 'G') s.alternateForm ds x := by
    intro ds hl x
    unfold scientific
    rw [hl]
    congr 2
    by_cases hp : precisionOf s = 0
    · simp [hp]
    · rw [if_pos (by simp [hp]), if_pos (Or.inr (by omega))]
  -- digits
  have hdig : ∃ digits, digits ≠ [] ∧ Yields (formatDecimal (parseFpSpecs s) (decode bits))
      (digits, (roundSignificant (precisionOf s + 1) (magnitude bits)).2 + 1) ∧
      shownDigits (parseFpSpecs s) digits = lastDigits (precisionOf s + 1) (roundSignificant (precisionOf s + 1) (magnitude bits)).1 := by
    rcases hcase with ⟨g1, g2, g3⟩ | ⟨g1, g2, g3, g4, g5⟩
    · refine ⟨['0'], by simp, ?_, ?_⟩
      · unfold formatDecimal
        rw [if_pos g1, g3]
        unfold roundSignificant
        simp only [if_true]
        exact Yields.pure _
      · unfold shownDigits
        rw [significandSize_fixed (by rw [hfp]; simp), hfp, g3]
        unfold roundSignificant
        simp only [if_true, lastDigits_zero]
        by_cases hp : precisionOf s = 0
        · simp [hp]
        · simp [hp, List.replicate_succ]
    · obtain ⟨e1, e2⟩ := exact_significant g3 (n := precisionOf s + 1) (by omega)
      rw [g4] at e1
      refine ⟨lastDigits (precisionOf s + 1) (roundSignificant (precisionOf s + 1) (magnitude bits)).1, ?_, ?_, ?_⟩
      · intro hc
        have := congrArg List.length hc
        rw [lastDigits_length] at this
        simp at this
      · unfold formatDecimal
        rw [if_neg (by rw [g1]; decide), hfp]
        exact_mod_cast e1
      · unfold shownDigits
        rw [significandSize_fixed (by rw [hfp]; simp), hfp, lastDigits_length]
        simp [lastDigits_length, List.take_of_length_le]
  obtain ⟨digits, d1, d2, d3⟩ := hdig
  unfold floatText
  rw [if_pos hf, ← c3]
  refine finite_write c1 c2 d2 ?_
  have huse : useExpFormat (parseFpSpecs s) (roundSignificant (precisionOf s + 1) (magnitude bits)).2 = true := by
    unfold useExpFormat
    rw [hfp]
    simp
  simp only [huse, if_true]
  have hl : 0 < digits.length := List.length_pos_iff.2 d1
  have e : scientific (parseFpSpecs s).upper (parseFpSpecs s).showpoint (shownDigits (parseFpSpecs s) digits)
      (roundSignificant (precisionOf s + 1) (magnitude bits)).2 = finiteText s bits := by
    rw [d3, htext, hfp]
    exact hshow _ (lastDigits_length _ _) _
  rw [← e] at hk ⊢
  refine writeDecimalExp_emits h _ (significandSize_fixed (by rw [hfp]; simp) digits) (by omega) le_rfl (by omega) hk hk2

theorem fixed_emits {s : Specs} (h : s.Ok) (f : FloatSpecs s) {bits : Nat} (hb : bits < 2 ^ 64) (hf : IsFinite bits)
    (ht : s.type = 'f' ∨ s.type = 'F') {k : Nat} (hk : (finiteText s bits).length + 1 ≤ k) (hk2 : k < 2 ^ 31) :
    (¬ LosesZero s bits → Emits (formatAndWriteDecimal s (decode bits)) (floatText s bits) k) ∧
    (LosesZero s bits → finiteText s bits = (finiteText s bits).dropLast ++ ['0'] ∧
      Emits (formatAndWriteDecimal s (decode bits))
        (paddedNumber s (signOf s (signBit bits)) (finiteText s bits).dropLast) k) := by
  obtain ⟨c1, c2, c3, hlt, hcase⟩ := finite_cases hb hf
  have hfp := parse_fixed f ht
  have htext : finiteText s bits = fixedPoint (precisionOf s) s.alternateForm (magnitude bits) := by
    unfold finiteText
    simp only [if_pos ht]
  have hpp : (parseFpSpecs s).precision = (precisionOf s : ℤ) := by rw [hfp]
  have hps : (parseFpSpecs s).showpoint = (s.alternateForm || decide (precisionOf s ≠ 0)) := by rw [hfp]
  have hpf : (parseFpSpecs s).format = .fixed := by rw [hfp]
  have hdig : ∃ digits x, Yields (formatDecimal (parseFpSpecs s) (decode bits)) (digits, x + 1) ∧
      (¬ LostZero (precisionOf s) (magnitude bits) → fixedBody (parseFpSpecs s) digits x = finiteText s bits) ∧
      (LostZero (precisionOf s) (magnitude bits) → fixedBody (parseFpSpecs s) digits x = (finiteText s bits).dropLast ∧
        finiteText s bits = (finiteText s bits).dropLast ++ ['0']) := by
    rcases hcase with ⟨g1, g2, g3⟩ | ⟨g1, g2, g3, g4, g5⟩
    · have hz : roundHalfEven (0 * 10 ^ precisionOf s) = 0 := by
        rw [zero_mul]; decide +kernel
      refine ⟨['0'], 0, ?_, ?_, ?_⟩
      · unfold formatDecimal
        rw [if_pos g1]
        exact Yields.pure _
      · intro _
        rw [htext, fixedPoint_eq, g3, hz]
        unfold fixedBody
        rw [hpp, hps]
        rw [if_neg (by omega), if_pos (by simp)]
        simp only [Nat.zero_div, lastDigits_zero, List.length_singleton]
        have : numeral false 10 0 = ['0'] := by decide
        rw [this]
        by_cases hp0 : precisionOf s = 0
        · rw [hp0]
          cases s.alternateForm <;> rfl
        · rw [if_pos (by simp [hp0]), if_pos (Or.inr hp0)]
          simp
      · rintro ⟨j, _, _, hj, _⟩
        rw [g3, hz] at hj
        have := Nat.pow_pos (n := j) (show 0 < 10 by decide)
        omega
    · obtain ⟨digits, x, _, e2, e3, e4⟩ := fixed_digits g3 hpp hps
      rw [g4, ← htext] at e3 e4
      refine ⟨digits, x, ?_, e3, e4⟩
      unfold formatDecimal
      rw [if_neg (by rw [g1]; decide), hpf]
      simp only [hpp]
      exact e2
  obtain ⟨digits, x, d1, d2, d3⟩ := hdig
  have huse : useExpFormat (parseFpSpecs s) x = false := by
    unfold useExpFormat
    rw [hpf]
    simp
  obtain ⟨y1, y2⟩ := fixedText_fixed (s := s) (fp := parseFpSpecs s) (digits := digits) (x := x) hpf (by rw [hpp]; omega)
  have emits : (fixedBody (parseFpSpecs s) digits x).length + 1 ≤ k →
      Emits (formatAndWriteDecimal s (decode bits))
        (paddedNumber s (signOf s (signBit bits)) (fixedBody (parseFpSpecs s) digits x)) k := by
    intro hk'
    rw [← c3]
    refine finite_write c1 c2 d1 ?_
    simp only [huse, Bool.false_eq_true, if_false]
    exact writeDecimalFixed_emits h _ (significandSize_fixed (by rw [hpf]; simp) digits) y1 y2 hk' hk2
  constructor
  · intro hl
    have hl' : ¬ LostZero (precisionOf s) (magnitude bits) := fun hc => hl ⟨ht, hf, hc⟩
    rw [d2 hl'] at emits
    unfold floatText
    rw [if_pos hf]
    exact emits hk
  · rintro ⟨_, _, hl⟩
    obtain ⟨a, b⟩ := d3 hl
    refine ⟨b, ?_⟩
    rw [a] at emits
    apply emits
    rw [List.length_dropLast]
    omega

/-- The general format, with digits and exponent given. -/
theorem general_emits {s : Specs} (h : s.Ok) {bits : Nat} (hf : IsFinite bits) (neg : (decode bits).negative = signBit bits)
    (c1 : (decode bits).category ≠ .infinity) (c2 : (decode bits).category ≠ .nan)
    (hg : (parseFpSpecs s).format = .general) (hsp : (parseFpSpecs s).showpoint = s.alternateForm)
    {digits shown : Str} {x : ℤ} (hd : digits ≠ []) (hn : digits.any (· != '0') ∨ digits.length = 1)
    (hy : Yields (formatDecimal (parseFpSpecs s) (decode bits)) (digits, x + 1)) (hx : x.natAbs < 1000)
    (hshown : shownDigits (parseFpSpecs s) digits = shown)
    (htext : finiteText s bits = if x < -4 ∨ (if (parseFpSpecs s).precision > 0 then (parseFpSpecs s).precision else 16) ≤ x
      then scientific (parseFpSpecs s).upper s.alternateForm shown x else positional s.alternateForm shown x)
    {k : Nat} (hk : (finiteText s bits).length + 1 ≤ k) (hk2 : k < 2 ^ 31) :
    Emits (formatAndWriteDecimal s (decode bits)) (floatText s bits) k := by
  obtain ⟨r1, r2⟩ := significandSize_range (parseFpSpecs s) hd hn
  unfold floatText
  rw [if_pos hf, ← neg]
  refine finite_write c1 c2 hy ?_
  by_cases hc : x < -4 ∨ (if (parseFpSpecs s).precision > 0 then (parseFpSpecs s).precision else 16) ≤ x
  · rw [if_pos hc] at htext
    have huse : useExpFormat (parseFpSpecs s) x = true := by
      unfold useExpFormat
      rw [hg]
      simpa using hc
    simp only [huse, if_true]
    have e : finiteText s bits = scientific (parseFpSpecs s).upper (parseFpSpecs s).showpoint
        (shownDigits (parseFpSpecs s) digits) x := by rw [htext, hshown, hsp]
    rw [e] at hk ⊢
    exact writeDecimalExp_emits h _ rfl r1 r2 hx hk hk2
  · rw [if_neg hc] at htext
    have huse : useExpFormat (parseFpSpecs s) x = false := by
      unfold useExpFormat
      rw [hg]
      simpa using hc
    simp only [huse, Bool.false_eq_true, if_false]
    obtain ⟨y1, y2⟩ := fixedText_general (x := x) hg hsp rfl r1 r2
    rw [hshown, ← htext] at y1 y2
    exact writeDecimalFixed_emits h _ rfl y1 y2 hk hk2

theorem round_emits {s : Specs} (h : s.Ok) (f : FloatSpecs s) {bits : Nat} (hb : bits < 2 ^ 64) (hf : IsFinite bits)
    (ht : s.type = 'g' ∨ s.type = 'G' ∨ (s.type = noChar ∧ 0 ≤ s.precision)) {k : Nat}
    (hk : (finiteText s bits).length + 1 ≤ k) (hk2 : k < 2 ^ 31) :
    Emits (formatAndWriteDecimal s (decode bits)) (floatText s bits) k := by
  obtain ⟨c1, c2, c3, hlt, hcase⟩ := finite_cases hb hf
  have hfp := parse_general f ht
  have htf : ¬ (s.type = 'f' ∨ s.type = 'F') := by rcases ht with h | h | ⟨h, _⟩ <;> rw [h] <;> decide
  have hte : ¬ (s.type = 'e' ∨ s.type = 'E') := by rcases ht with h | h | ⟨h, _⟩ <;> rw [h] <;> decide
  have htn : ¬ (s.type = noChar ∧ s.precision < 0) := by
    rintro ⟨a, b⟩
    rcases ht with h | h | ⟨_, h⟩
    · rw [h] at a; exact absurd a (by decide)
    · rw [h] at a; exact absurd a (by decide)
    · omega
  have hrange := roundSignificant_range (n := max (precisionOf s) 1) hlt
  rw [magnitude_low] at hrange
  have hpg : (parseFpSpecs s).format = .general := by rw [hfp]
  have hps : (parseFpSpecs s).showpoint = s.alternateForm := by rw [hfp]
  have hpp : (parseFpSpecs s).precision = ((max (precisionOf s) 1 : ℕ) : ℤ) := by rw [hfp]; simp
  have hpu : (parseFpSpecs s).upper = (s.type == 'E' || s.type == 'F' || s.type == 'G') := by rw [hfp]
  have htext : finiteText s bits =
      if (roundSignificant (max (precisionOf s) 1) (magnitude bits)).2 < -4 ∨
          (if (parseFpSpecs s).precision > 0 then (parseFpSpecs s).precision else 16) ≤
            (roundSignificant (max (precisionOf s) 1) (magnitude bits)).2
      then scientific (parseFpSpecs s).upper s.alternateForm
        (if s.alternateForm then lastDigits (max (precisionOf s) 1) (roundSignificant (max (precisionOf s) 1) (magnitude bits)).1
          else dropZeros (lastDigits (max (precisionOf s) 1) (roundSignificant (max (precisionOf s) 1) (magnitude bits)).1))
        (roundSignificant (max (precisionOf s) 1) (magnitude bits)).2
      else positional s.alternateForm
        (if s.alternateForm then lastDigits (max (precisionOf s) 1) (roundSignificant (max (precisionOf s) 1) (magnitude bits)).1
          else dropZeros (lastDigits (max (precisionOf s) 1) (roundSignificant (max (precisionOf s) 1) (magnitude bits)).1))
        (roundSignificant (max (precisionOf s) 1) (magnitude bits)).2 := by
    have hpos : ((max (precisionOf s) 1 : ℕ) : ℤ) > 0 := by omega
    rw [hpp, hpu]
    simp only [if_pos hpos]
    unfold finiteText
    simp only [if_neg htf, if_neg hte, if_neg htn]
  have hdig : ∃ digits, digits ≠ [] ∧ (digits.any (· != '0') ∨ digits.length = 1) ∧
      Yields (formatDecimal (parseFpSpecs s) (decode bits))
        (digits, (roundSignificant (max (precisionOf s) 1) (magnitude bits)).2 + 1) ∧
      shownDigits (parseFpSpecs s) digits =
        if s.alternateForm then lastDigits (max (precisionOf s) 1) (roundSignificant (max (precisionOf s) 1) (magnitude bits)).1
          else dropZeros (lastDigits (max (precisionOf s) 1) (roundSignificant (max (precisionOf s) 1) (magnitude bits)).1) := by
    rcases hcase with ⟨g1, g2, g3⟩ | ⟨g1, g2, g3, g4, g5⟩
    · refine ⟨['0'], by simp, Or.inr rfl, ?_, ?_⟩
      · unfold formatDecimal
        rw [if_pos g1, g3]
        unfold roundSignificant
        simp only [if_true]
        exact Yields.pure _
      · have hss : significandSize (parseFpSpecs s) ['0'] = 1 := by
          unfold significandSize
          rw [if_neg (by rintro ⟨_, h⟩; simp at h)]
          rfl
        unfold shownDigits
        rw [hss, hps, hpp, g3]
        unfold roundSignificant
        simp only [if_true, lastDigits_zero]
        obtain ⟨n, hn⟩ : ∃ n, max (precisionOf s) 1 = n + 1 := ⟨max (precisionOf s) 1 - 1, by omega⟩
        rw [hn]
        cases s.alternateForm
        · simp [dropZeros, List.replicate_succ]
        · simp [List.replicate_succ]
    · obtain ⟨e1, e2⟩ := exact_significant g3 (n := max (precisionOf s) 1) (by omega)
      rw [g4] at e1 e2
      generalize hr : roundSignificant (max (precisionOf s) 1) (magnitude bits) = r at *
      have hne : lastDigits (max (precisionOf s) 1) r.1 ≠ [] := by
        intro hc
        have := congrArg List.length hc
        rw [lastDigits_length] at this
        simp at this
      have hD : r.1 < 10 ^ max (precisionOf s) 1 := by
        rw [← hr]
        unfold roundSignificant
        rw [if_neg g5]
        simp only
        split
        · exact Nat.pow_lt_pow_right (by decide) (by omega)
        · rename_i hc
          refine lt_of_le_of_ne ?_ hc
          have hpos : 0 < magnitude bits := by
            have := (magnitude_range g2 hlt).1
            rw [magnitude_low] at this
            exact lt_of_lt_of_le (by positivity) this
          have l1 := Int.zpow_log_le_self (b := 10) (by decide) hpos
          have l2 := Int.lt_zpow_succ_log_self (b := 10) (by decide) (magnitude bits)
          generalize Int.log 10 (magnitude bits) = y at *
          have := (digits_range (v := magnitude bits) (k := y + 1) (n := max (precisionOf s) 1) (by omega)
            (by rw [Int.add_sub_cancel]; exact_mod_cast l1) (by exact_mod_cast l2)).2
          rwa [show ((max (precisionOf s) 1 : ℕ) : ℤ) - 1 - y = ((max (precisionOf s) 1 : ℕ) : ℤ) - (y + 1) by ring]
      have hfirst := lastDigits_first (n := max (precisionOf s) 1) (by omega) e2 hD
      obtain ⟨s1, s2⟩ := shown_general hpg hne hfirst
      refine ⟨_, hne, Or.inl (any_of_exists hfirst).1, ?_, ?_⟩
      · unfold formatDecimal
        rw [if_neg (by rw [g1]; decide), hpg]
        simp only [hpp]
        rw [if_neg (by unfold noPrecision; omega)]
        exact e1
      · cases ha : s.alternateForm
        · rw [s1 (by rw [hps, ha])]
          simp
        · rw [s2 (by rw [hps, ha]) (by rw [hpp, lastDigits_length])]
          simp
  obtain ⟨digits, d1, d2, d3, d4⟩ := hdig
  exact general_emits h hf c3 c1 c2 hpg hps d1 d2 d3 (by omega) d4 htext hk hk2

theorem shortest_emits {s : Specs} (h : s.Ok) {bits : Nat} (hb : bits < 2 ^ 64) (hf : IsFinite bits)
    (ht : s.type = noChar) (hp : s.precision = -1) {k : Nat}
    (hk : (finiteText s bits).length + 1 ≤ k) (hk2 : k < 2 ^ 31) :
    Emits (formatAndWriteDecimal s (decode bits)) (floatText s bits) k := by
  obtain ⟨c1, c2, c3, hlt, hcase⟩ := finite_cases hb hf
  have hfp := parse_shortest ht hp
  have htf : ¬ (s.type = 'f' ∨ s.type = 'F') := by rw [ht]; decide
  have hte : ¬ (s.type = 'e' ∨ s.type = 'E') := by rw [ht]; decide
  have htn : s.type = noChar ∧ s.precision < 0 := ⟨ht, by omega⟩
  have hpg : (parseFpSpecs s).format = .general := by rw [hfp]
  have hps : (parseFpSpecs s).showpoint = s.alternateForm := by rw [hfp]
  have hpp : (parseFpSpecs s).precision = -1 := by rw [hfp]
  have hpu : (parseFpSpecs s).upper = (s.type == 'E' || s.type == 'F' || s.type == 'G') := by rw [hfp]
  have htext : ∀ n D x, shortestDigits (bits % 2 ^ 63) = (n, D, x) → finiteText s bits =
      if x < -4 ∨ (if (parseFpSpecs s).precision > 0 then (parseFpSpecs s).precision else 16) ≤ x
      then scientific (parseFpSpecs s).upper s.alternateForm (lastDigits n D) x
      else positional s.alternateForm (lastDigits n D) x := by
    intro n D x he
    rw [hpp, hpu]
    simp only [if_neg (show ¬ (-1 : ℤ) > 0 by omega)]
    unfold finiteText
    simp only [if_neg htf, if_neg hte, if_pos htn, he]
  have hshown : ∀ digits : Str, digits ≠ [] → significandSize (parseFpSpecs s) digits = digits.length →
      shownDigits (parseFpSpecs s) digits = digits := by
    intro digits _ hl
    unfold shownDigits
    rw [hl, hpp]
    have : (-1 - (digits.length : ℤ)).toNat = 0 := by omega
    simp [this]
  rcases hcase with ⟨g1, g2, g3⟩ | ⟨g1, g2, g3, g4, g5⟩
  · have he : shortestDigits (bits % 2 ^ 63) = (1, 0, 0) := by unfold shortestDigits; rw [if_pos g2]
    have hss : significandSize (parseFpSpecs s) ['0'] = 1 := by
      unfold significandSize
      rw [if_neg (by rintro ⟨_, h⟩; simp at h)]
      rfl
    refine general_emits h hf c3 c1 c2 hpg hps (digits := ['0']) (x := 0) (by simp) (Or.inr rfl) ?_ (by decide)
      (hshown _ (by simp) hss) (htext 1 0 0 he) hk hk2
    unfold formatDecimal
    rw [if_pos g1]
    exact Yields.pure _
  · obtain ⟨n, D, e, sh, y⟩ := shortest_double hb hf g2
    have he := shortestDigits_eq g2 sh
    have hr := sh.range g2 hlt
    have hn := sh.n_pos
    have hne : lastDigits n D ≠ [] := by
      intro hc
      have := congrArg List.length hc
      rw [lastDigits_length] at this
      simp at this
      omega
    have hfirst := lastDigits_first (by omega) sh.D_low sh.D_high
    have hss : significandSize (parseFpSpecs s) (lastDigits n D) = (lastDigits n D).length := by
      unfold significandSize
      split
      · rename_i hc
        have hn1 : 1 < n := by
          have := hc.2
          rw [lastDigits_length] at this
          omega
        have hlast := sh.last hn1
        obtain ⟨m, rfl⟩ : ∃ m, n = m + 1 := ⟨n - 1, by omega⟩
        have hc0 : Char.ofNat (48 + D % 10) ≠ '0' := by
          have key : ∀ q < 10, q ≠ 0 → Char.ofNat (48 + q) ≠ '0' := by decide
          exact key _ (by omega) hlast
        have : ((lastDigits (m + 1) D).reverse.takeWhile (· == '0')).length = 0 := by
          rw [lastDigits, List.reverse_append]
          simp [hc0]
        rw [this]
        simp
      · rfl
    refine general_emits h hf c3 c1 c2 hpg hps (digits := lastDigits n D) (x := e - 1) hne
      (Or.inl (any_of_exists hfirst).1) ?_ (by omega) (hshown _ hne hss) (htext _ _ _ he) hk hk2
    unfold formatDecimal
    rw [if_neg (by rw [g1]; decide), hpg]
    simp only [hpp]
    rw [if_pos (by rfl), show e - 1 + 1 = e by ring]
    exact y

/-- Numbers that are not finite. -/
theorem nonfinite_emits {s : Specs} (h : s.Ok) {bits : Nat} (hb : bits < 2 ^ 64) (hf : ¬ IsFinite bits) :
    Emits (formatAndWriteDecimal s (decode bits)) (floatText s bits) 1 := by
  obtain ⟨h1, h2⟩ := decode_special hb hf
  unfold formatAndWriteDecimal floatText
  simp only
  rw [if_neg hf, if_pos (by rw [h1]; split <;> simp)]
  have hu : (parseFpSpecs s).upper = (s.type == 'E' || s.type == 'F' || s.type == 'G') := by
    unfold parseFpSpecs
    simp only
    repeat' split
    all_goals rfl
  generalize hs' : (if s.zeroFlag = true then { s with fill := ' ', zeroFlag := false } else s) = s'
  have hz : s'.zeroFlag = false := by
    rw [← hs']
    split
    · rfl
    · rename_i hc; simpa using hc
  have hok : s'.Ok := by
    rw [← hs']
    split
    · exact ⟨h.width, h.precision, by simp⟩
    · exact h
  have hsg : ∀ neg, signOf s' neg = signOf s neg := by
    intro neg
    rw [← hs']
    split <;> rfl
  have hpad : ∀ t, padded .left (if s.zeroFlag = true then { s with fill := ' ' } else s) t = padded .left s' t := by
    intro t
    rw [← hs']
    split <;> rfl
  obtain ⟨c, g1, g2⟩ := (sign_emits s' (decode bits).negative).2 hz
  rw [hpad]
  have e : ∀ t : Str, padded .left s' t = [] ++ padded .left s' t := fun t => rfl
  rw [e]
  refine Emits.bind (a := c) (fun ops => ⟨[], by simp [g1], rfl, by simp, by simp⟩) ?_
  rw [signText_length]
  have hinf : Emits (writeNonFinite (parseFpSpecs s).upper (decide ((decode bits).category = Category.infinity)))
      (nonFiniteText s bits) 1 := by
    unfold writeNonFinite nonFiniteText
    rw [h1, hu]
    by_cases hfr : fractionOf bits = 0
    · rw [if_pos hfr]
      simp only [decide_true, if_true, hfr]
      cases (s.type == 'E' || s.type == 'F' || s.type == 'G')
      · exact (emit_emits (.str _) trivial).mono (Nat.zero_le _)
      · exact (emit_emits (.str _) trivial).mono (Nat.zero_le _)
    · rw [if_neg hfr]
      simp only [reduceCtorEq, decide_false, Bool.false_eq_true, if_false, hfr]
      cases (s.type == 'E' || s.type == 'F' || s.type == 'G')
      · exact (emit_emits (.str _) trivial).mono (Nat.zero_le _)
      · exact (emit_emits (.str _) trivial).mono (Nat.zero_le _)
  have hl3 : (nonFiniteText s bits).length = 3 := by
    unfold nonFiniteText
    simp only
    repeat' split
    all_goals rfl
  have hs1 : (signText c).length ≤ 1 := by rw [← signText_length]; split <;> omega
  rw [h2] at g2
  rw [hsg] at g2
  refine writePadded_emits .left (Or.inl rfl) s' hok ?_ ?_ ?_
  · rw [← g2, List.length_append, hl3, Nat.add_comm]
  · rw [← g2, List.length_append, hl3]; omega
  · rw [← g2]
    by_cases hc : c = noChar
    · subst hc
      rw [if_neg (by simp)]
      exact hinf
    · rw [if_pos hc]
      refine Emits.seq ?_ hinf
      have := emit_emits (.char c) trivial
      unfold signText
      rw [if_pos hc]
      exact this

/-! ### Lengths -/

theorem scientific_length (upper point : Bool) (digits : Str) {x : ℤ} (hx : x.natAbs < 1000) :
    (scientific upper point digits x).length ≤ digits.length + 7 := by
  unfold scientific
  have := exponentText_length hx
  simp only [List.length_append, List.length_cons, List.length_take, this]
  split
  · simp only [List.length_cons, List.length_drop]
    split <;> omega
  · simp only [List.length_nil]
    split <;> omega

theorem positional_length (point : Bool) (digits : Str) {x : ℤ} {n : Nat} (h1 : -5 < x) (h2 : x < n) :
    (positional point digits x).length ≤ max digits.length n + 6 := by
  unfold positional
  split
  · simp only [List.length_cons, List.length_append, List.length_replicate]
    omega
  · simp only [List.length_append, List.length_replicate, List.length_take]
    split
    · simp only [List.length_cons, List.length_drop]
      omega
    · simp only [List.length_nil]
      omega

theorem dropZeros_length (digits : Str) (h : digits ≠ []) : (dropZeros digits).length ≤ digits.length := by
  have := List.length_pos_iff.2 h
  unfold dropZeros
  split
  · simp; omega
  · rw [List.length_reverse]
    have := (List.dropWhile_sublist (· == '0') (l := digits.reverse)).length_le
    simpa using this

theorem numeral_length_pow {n j : Nat} (h : n ≤ 10 ^ j) : (numeral false 10 n).length ≤ j + 1 := by
  induction j generalizing n with
  | zero =>
    rw [pow_zero] at h
    rw [length_numeral_lt false 10 n (by decide) (by omega)]
  | succ j ih =>
    rcases Nat.lt_or_ge n 10 with hn | hn
    · rw [length_numeral_lt false 10 n (by decide) hn]; omega
    · rw [length_numeral_ge false 10 n (by decide) hn]
      have := ih (n := n / 10) (by rw [pow_succ] at h; omega)
      omega

/-- No text of a finite number is longer than 1420 characters. -/
theorem finiteText_length {s : Specs} (f : FloatSpecs s) {bits : Nat} (hf : IsFinite bits) :
    (finiteText s bits).length ≤ 1420 := by
  have hp := precisionOf_le f
  have hlt : bits % 2 ^ 63 < 2047 * 2 ^ 52 := by
    unfold IsFinite exponentOf at hf
    omega
  have range := fun n => roundSignificant_range (n := n) hlt
  simp only [magnitude_low] at range
  unfold finiteText
  simp only
  split
  · rw [fixedPoint_eq, List.length_append]
    have hd : roundHalfEven (magnitude bits * 10 ^ precisionOf s) ≤ 10 ^ (309 + precisionOf s) := by
      by_cases h0 : bits % 2 ^ 63 = 0
      · rw [← magnitude_low, h0, show magnitude 0 = 0 by decide +kernel, zero_mul, show roundHalfEven 0 = 0 by decide +kernel]
        exact Nat.zero_le _
      · obtain ⟨m1, m2⟩ := magnitude_range h0 hlt
        rw [magnitude_low] at m1 m2
        have m0 : 0 < magnitude bits := lt_of_lt_of_le (by positivity) m1
        refine roundHalfEven_le (by positivity) ?_
        push_cast
        rw [pow_add]
        refine mul_lt_mul_of_pos_right ?_ (by positivity)
        rw [← zpow_natCast]
        exact_mod_cast m2
    have hq : roundHalfEven (magnitude bits * 10 ^ precisionOf s) / 10 ^ precisionOf s ≤ 10 ^ 309 := by
      rw [pow_add] at hd
      exact Nat.div_le_of_le_mul (by rw [Nat.mul_comm]; exact hd)
    have hl := numeral_length_pow hq
    split
    · rw [List.length_cons, lastDigits_length]; omega
    · rw [List.length_nil]; omega
  · split
    · refine le_trans (scientific_length _ _ _ (by have := range (precisionOf s + 1); omega)) ?_
      rw [lastDigits_length]; omega
    · split
      · -- the shortest digits
        have hsd : (shortestDigits (bits % 2 ^ 63)).1 ≤ 17 ∧ (shortestDigits (bits % 2 ^ 63)).2.2.natAbs < 1000 := by
          by_cases h0 : bits % 2 ^ 63 = 0
          · unfold shortestDigits
            rw [if_pos h0]
            decide
          · have hb : bits % 2 ^ 63 < 2 ^ 64 := by omega
            have hf' : IsFinite (bits % 2 ^ 63) := by unfold IsFinite; rw [exponentOf_low]; exact hf
            obtain ⟨n, D, k, sh, _⟩ := shortest_double hb hf' (by rw [Nat.mod_mod]; exact h0)
            rw [Nat.mod_mod] at sh
            rw [shortestDigits_eq h0 sh]
            have := sh.range h0 hlt
            have := sh.n_le
            simp only
            omega
        split
        · refine le_trans (scientific_length _ _ _ hsd.2) ?_
          rw [lastDigits_length]; omega
        · refine le_trans (positional_length (n := 16) _ _ (by omega) (by omega)) ?_
          rw [lastDigits_length]; omega
      · generalize hn : max (precisionOf s) 1 = n
        have hdl : (if s.alternateForm = true then lastDigits n (roundSignificant n (magnitude bits)).1
            else dropZeros (lastDigits n (roundSignificant n (magnitude bits)).1)).length ≤ n := by
          split
          · rw [lastDigits_length]
          · refine le_trans (dropZeros_length _ ?_) (by rw [lastDigits_length])
            intro hc
            have := congrArg List.length hc
            rw [lastDigits_length] at this
            simp at this
            omega
        have := range n
        split
        · refine le_trans (scientific_length _ _ _ (by omega)) ?_
          omega
        · refine le_trans (positional_length (n := n) _ _ (by omega) (by omega)) ?_
          omega

/-- Without precision and not in fixed notation there are at most 24 characters. -/
theorem finiteText_short {s : Specs} (hp : s.precision < 0) (ht : ¬ (s.type = 'f' ∨ s.type = 'F')) {bits : Nat}
    (hf : IsFinite bits) : (finiteText s bits).length ≤ 24 := by
  have hp6 : precisionOf s = 6 := by unfold precisionOf; rw [if_neg (by omega)]
  have hlt : bits % 2 ^ 63 < 2047 * 2 ^ 52 := by
    unfold IsFinite exponentOf at hf
    omega
  have range := fun n => roundSignificant_range (n := n) hlt
  simp only [magnitude_low] at range
  unfold finiteText
  simp only [hp6]
  rw [if_neg ht]
  split
  · refine le_trans (scientific_length _ _ _ (by have := range (6 + 1); omega)) ?_
    rw [lastDigits_length]; decide
  · split
    · have hsd : (shortestDigits (bits % 2 ^ 63)).1 ≤ 17 ∧ (shortestDigits (bits % 2 ^ 63)).2.2.natAbs < 1000 := by
        by_cases h0 : bits % 2 ^ 63 = 0
        · unfold shortestDigits
          rw [if_pos h0]
          decide
        · have hb : bits % 2 ^ 63 < 2 ^ 64 := by omega
          have hf' : IsFinite (bits % 2 ^ 63) := by unfold IsFinite; rw [exponentOf_low]; exact hf
          obtain ⟨n, D, k, sh, _⟩ := shortest_double hb hf' (by rw [Nat.mod_mod]; exact h0)
          rw [Nat.mod_mod] at sh
          rw [shortestDigits_eq h0 sh]
          have := sh.range h0 hlt
          have := sh.n_le
          simp only
          omega
      split
      · refine le_trans (scientific_length _ _ _ hsd.2) ?_
        rw [lastDigits_length]; omega
      · refine le_trans (positional_length (n := 16) _ _ (by omega) (by omega)) ?_
        rw [lastDigits_length]; omega
    · have hdl : (if s.alternateForm = true then lastDigits (max 6 1) (roundSignificant (max 6 1) (magnitude bits)).1
          else dropZeros (lastDigits (max 6 1) (roundSignificant (max 6 1) (magnitude bits)).1)).length ≤ 6 := by
        split
        · rw [lastDigits_length]; decide
        · refine le_trans (dropZeros_length _ ?_) (by rw [lastDigits_length]; decide)
          intro hc
          have := congrArg List.length hc
          rw [lastDigits_length] at this
          simp at this
      have := range (max 6 1)
      split
      · refine le_trans (scientific_length _ _ _ (by omega)) ?_
        omega
      · refine le_trans (positional_length (n := 6) _ _ (by omega) (by omega)) ?_
        omega

open Classical in
/-- What is written: in the fixed format a zero may be missing. -/
noncomputable def actualText (s : Specs) (bits : Nat) : Str :=
  if LosesZero s bits then paddedNumber s (signOf s (signBit bits)) (finiteText s bits).dropLast else floatText s bits

/-- Every floating-point number and every specification that passes the check. -/
theorem float_emits {s : Specs} (h : s.Ok) (hc : checkFloatingPointSpecs s = true) {bits : Nat} (hb : bits < 2 ^ 64)
    {k : Nat} (hk1 : 1 ≤ k) (hk : IsFinite bits → (finiteText s bits).length + 1 ≤ k) (hk2 : k < 2 ^ 31) :
    Emits (formatAndWriteDecimal s (decode bits)) (actualText s bits) k := by
  have f := floatSpecs h hc
  unfold actualText
  by_cases hf : IsFinite bits
  · have hk := hk hf
    by_cases hfix : s.type = 'f' ∨ s.type = 'F'
    · obtain ⟨g1, g2⟩ := fixed_emits h f hb hf hfix hk hk2
      split
      · rename_i hl
        exact (g2 hl).2
      · rename_i hl
        exact g1 hl
    · rw [if_neg (fun hl => hfix hl.1)]
      rcases f.type with ht | ht | ht | ht | ht | ht | ht
      · rcases lt_or_ge s.precision 0 with hp | hp
        · exact shortest_emits h hb hf ht (by have := f.low; omega) hk hk2
        · exact round_emits h f hb hf (Or.inr (Or.inr ⟨ht, hp⟩)) hk hk2
      · exact absurd (Or.inl ht) hfix
      · exact absurd (Or.inr ht) hfix
      · exact exp_emits h f hb hf (Or.inl ht) hk hk2
      · exact exp_emits h f hb hf (Or.inr ht) hk hk2
      · exact round_emits h f hb hf (Or.inl ht) hk hk2
      · exact round_emits h f hb hf (Or.inr (Or.inl ht)) hk hk2
  · rw [if_neg (fun hl => hf hl.2.1)]
    exact (nonfinite_emits h hb hf).mono hk1

theorem actual_eq {s : Specs} {bits : Nat} (h : ¬ LosesZero s bits) : actualText s bits = floatText s bits := if_neg h

end Emio
