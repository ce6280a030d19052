import Verif.Lemmas.FloatLayout
import Verif.Lemmas.Exact
import Verif.Lemmas.ShortestDouble
/-
Helper lemmas: the digits of a floating-point number and the text they make up.
-/
namespace Emio
open Spec

/-! ### Digits -/

theorem lastDigits_append (a b n : Nat) : lastDigits (a + b) n = lastDigits a (n / 10 ^ b) ++ lastDigits b n := by
  induction b generalizing n with
  | zero => simp [lastDigits]
  | succ b ih =>
    rw [← Nat.add_assoc, lastDigits, ih, lastDigits, Nat.div_div_eq_div_mul, pow_succ', List.append_assoc]

theorem symbol_ten {d : Nat} (h : d < 10) : symbol false d = Char.ofNat (48 + d % 10) := by
  have key : ∀ d < 10, symbol false d = Char.ofNat (48 + d % 10) := by decide
  exact key d h

/-- The numeral of a number with `j + 1` digits. -/
theorem numeral_lastDigits : ∀ (j n : Nat), (10 ^ j ≤ n ∨ (j = 0 ∧ n = 0)) → n < 10 ^ (j + 1) →
    numeral false 10 n = lastDigits (j + 1) n := by
  intro j
  induction j with
  | zero =>
    intro n _ h2
    rw [Nat.zero_add, pow_one] at h2
    rw [numeral_lt false 10 n (by decide) h2, symbol_ten h2]
    rfl
  | succ j ih =>
    intro n h1 h2
    have h1 : 10 ^ (j + 1) ≤ n := by
      rcases h1 with h | ⟨h, _⟩
      · exact h
      · omega
    have hp : 1 ≤ 10 ^ j := Nat.one_le_pow _ _ (by decide)
    rw [pow_succ] at h1
    have h3 : n / 10 < 10 ^ (j + 1) := by rw [pow_succ] at h2; omega
    rw [numeral_ge false 10 n (by decide) (by omega), ih (n / 10) (Or.inl (by omega)) h3,
      symbol_ten (by omega), Nat.mod_mod]
    rfl

/-! ### Rounding -/

theorem roundHalfEven_le {x : ℚ} {n : Nat} (h0 : 0 ≤ x) (h : x < n) : roundHalfEven x ≤ n := by
  have hf : ⌊x⌋₊ < n := (Nat.floor_lt h0).2 h
  unfold roundHalfEven
  simp only
  repeat' split
  all_goals omega

theorem le_roundHalfEven {x : ℚ} {n : Nat} (h : (n : ℚ) ≤ x) : n ≤ roundHalfEven x := by
  have hf : n ≤ ⌊x⌋₊ := Nat.le_floor h
  unfold roundHalfEven
  simp only
  repeat' split
  all_goals omega

theorem roundHalfEven_zero {x : ℚ} (h0 : 0 ≤ x) (h : x < 1 / 2) : roundHalfEven x = 0 := by
  have hf : ⌊x⌋₊ = 0 := Nat.floor_eq_zero.2 (by linarith)
  unfold roundHalfEven
  simp only [hf, Nat.cast_zero, sub_zero]
  rw [if_pos h]

theorem log_eq {v : ℚ} {k : ℤ} (h1 : (10 : ℚ) ^ (k - 1) ≤ v) (h2 : v < (10 : ℚ) ^ k) : Int.log 10 v = k - 1 := by
  have hv : 0 < v := lt_of_lt_of_le (by positivity) h1
  have a := (Int.zpow_le_iff_le_log (b := 10) (x := k - 1) (by decide) hv).1 (by exact_mod_cast h1)
  have b := (Int.lt_zpow_iff_log_lt (b := 10) (x := k) (by decide) hv).1 (by exact_mod_cast h2)
  omega

/-- A number with the first digit at `k - 1`, in units of `10 ^ (k - n)`. -/
theorem unit_range {v : ℚ} {k : ℤ} (n : Nat) (h1 : (10 : ℚ) ^ (k - 1) ≤ v) (h2 : v < (10 : ℚ) ^ k) :
    (10 : ℚ) ^ ((n : ℤ) - 1) ≤ v * (10 : ℚ) ^ ((n : ℤ) - k) ∧ v * (10 : ℚ) ^ ((n : ℤ) - k) < (10 : ℚ) ^ n := by
  have p : (0 : ℚ) < (10 : ℚ) ^ ((n : ℤ) - k) := by positivity
  constructor
  · have := mul_le_mul_of_nonneg_right h1 p.le
    rw [← zpow_add₀ (by norm_num)] at this
    rwa [show k - 1 + ((n : ℤ) - k) = (n : ℤ) - 1 by ring] at this
  · have := mul_lt_mul_of_pos_right h2 p
    rw [← zpow_add₀ (by norm_num)] at this
    rwa [show k + ((n : ℤ) - k) = (n : ℤ) by ring, zpow_natCast] at this

theorem digits_range {v : ℚ} {k : ℤ} {n : Nat} (hn : 0 < n) (h1 : (10 : ℚ) ^ (k - 1) ≤ v) (h2 : v < (10 : ℚ) ^ k) :
    10 ^ (n - 1) ≤ roundHalfEven (v * (10 : ℚ) ^ ((n : ℤ) - k)) ∧ roundHalfEven (v * (10 : ℚ) ^ ((n : ℤ) - k)) ≤ 10 ^ n := by
  obtain ⟨a, b⟩ := unit_range n h1 h2
  constructor
  · apply le_roundHalfEven
    push_cast
    rw [← zpow_natCast]
    rwa [show ((n - 1 : ℕ) : ℤ) = (n : ℤ) - 1 by omega]
  · refine roundHalfEven_le (le_trans (by positivity) a) ?_
    push_cast
    exact b

/-- The digits of `format_exact` for a number of significant digits. -/
theorem exact_significant {d : Finite} (ok : FiniteOk d) {n : Nat} (hn : 0 < n) :
    Yields (formatExact d .significandDigits n)
      (lastDigits n (roundSignificant n d.value).1, (roundSignificant n d.value).2 + 1) ∧
    10 ^ (n - 1) ≤ (roundSignificant n d.value).1 := by
  obtain ⟨k, h1, h2, hy⟩ := formatExact_canon ok .significandDigits n (by intro _; omega)
  have hv : d.value ≠ 0 := by
    have : (0 : ℚ) < (10 : ℚ) ^ (k - 1) := by positivity
    linarith
  have hlen : digitsLen .significandDigits k n = n := by unfold digitsLen; simp
  rw [hlen] at hy
  obtain ⟨r1, r2⟩ := digits_range hn h1 h2
  unfold roundSignificant
  rw [if_neg hv]
  simp only [log_eq h1 h2]
  rw [show (n : ℤ) - 1 - (k - 1) = n - k by ring]
  generalize roundHalfEven (d.value * (10 : ℚ) ^ ((n : ℤ) - k)) = D at *
  unfold roundedDigits at hy
  by_cases hc : D = 10 ^ n
  · rw [if_pos hc]
    rw [if_neg (by omega), if_neg (by omega)] at hy
    exact ⟨by simpa using hy, le_rfl⟩
  · rw [if_neg hc]
    rw [if_pos (by omega)] at hy
    exact ⟨by simpa using hy, r1⟩

/-! ### Fixed number of decimals -/

theorem replicate_zero_digits {a b n : Nat} (h : n < 10 ^ b) : lastDigits (a + b) n = List.replicate a '0' ++ lastDigits b n := by
  rw [lastDigits_append, Nat.div_eq_of_lt h, lastDigits_zero]

theorem zpow_split (v : ℚ) {k : ℤ} {p : Nat} {len : Nat} (h : (len : ℤ) = k + p) : v * (10 : ℚ) ^ ((len : ℤ) - k) = v * 10 ^ p := by
  rw [h, show k + (p : ℤ) - k = p by ring, zpow_natCast]

theorem lastDigits_pow_take {len m : Nat} (h : m + 1 ≤ len) :
    (lastDigits len (10 ^ (len - 1))).take (m + 1) = '1' :: List.replicate m '0' ∧
      (lastDigits len (10 ^ (len - 1))).drop (m + 1) = List.replicate (len - (m + 1)) '0' := by
  obtain ⟨l, rfl⟩ : ∃ l, len = l + 1 := ⟨len - 1, by omega⟩
  rw [Nat.add_sub_cancel, lastDigits_pow]
  simp only [List.take_succ_cons, List.drop_succ_cons, List.take_replicate, List.drop_replicate]
  refine ⟨?_, ?_⟩
  · rw [show min m l = m by omega]
  · congr 1
    omega

theorem lastDigits_pow_zeros {p j : Nat} (h : p ≤ j) : lastDigits p (10 ^ j) = List.replicate p '0' := by
  have h1 : lastDigits (j - p + 1 + p) (10 ^ j) = lastDigits (j + 1) (10 ^ j) := by congr 1; omega
  have h2 := lastDigits_append (j - p + 1) p (10 ^ j)
  rw [h1, lastDigits_pow] at h2
  have h3 := congrArg (List.drop (j - p + 1)) h2
  rw [List.drop_left' (lastDigits_length _ _), List.drop_succ_cons, List.drop_replicate] at h3
  rw [← h3]
  congr 1
  omega

theorem numeral_pow (m : Nat) : numeral false 10 (10 ^ m) = '1' :: List.replicate m '0' := by
  rw [numeral_lastDigits m _ (Or.inl le_rfl) (Nat.pow_lt_pow_right (by decide) (by omega)), lastDigits_pow]

theorem fixedPoint_eq (p : Nat) (point : Bool) (v : ℚ) : fixedPoint p point v =
    numeral false 10 (roundHalfEven (v * 10 ^ p) / 10 ^ p) ++
      (if point = true ∨ p ≠ 0 then '.' :: lastDigits p (roundHalfEven (v * 10 ^ p)) else []) := rfl

/-- The text of the fixed format. -/
theorem fixed_digits {d : Finite} (ok : FiniteOk d) {fp : FpSpecs} {p : Nat} {alt : Bool} (hp : fp.precision = p)
    (hsp : fp.showpoint = (alt || decide (p ≠ 0))) :
    ∃ digits x, digits ≠ [] ∧
      Yields (do
        let (digits, exp) ← formatExact d .decimalPoint p
        if digits = [] then return (['0'], 1) else return (digits, exp)) (digits, x + 1) ∧
      (¬ LostZero p d.value → fixedBody fp digits x = fixedPoint p alt d.value) ∧
      (LostZero p d.value → fixedBody fp digits x = (fixedPoint p alt d.value).dropLast ∧
        fixedPoint p alt d.value = (fixedPoint p alt d.value).dropLast ++ ['0']) := by
  obtain ⟨k, h1, h2, hy⟩ := formatExact_canon ok .decimalPoint p (by intro h; cases h)
  have hv0 : 0 < d.value := lt_of_lt_of_le (by positivity) h1
  have h10 : (0 : ℚ) < 10 ^ p := by positivity
  have hvp : 0 ≤ d.value * 10 ^ p := by positivity
  -- what is written for zero
  have zero_case : ∀ x : ℤ, x = 0 → roundHalfEven (d.value * 10 ^ p) = 0 →
      fixedBody fp ['0'] x = fixedPoint p alt d.value ∧ ¬ LostZero p d.value := by
    rintro x rfl hz
    refine ⟨?_, ?_⟩
    · rw [fixedPoint_eq]
      unfold fixedBody
      rw [hz, hp, hsp]
      rw [if_neg (by omega), if_pos (by simp)]
      simp only [Nat.zero_div, lastDigits_zero, List.length_singleton]
      have : numeral false 10 0 = ['0'] := by decide
      rw [this]
      by_cases hp0 : p = 0
      · subst hp0
        cases alt <;> rfl
      · rw [if_pos (by simp [hp0]), if_pos (Or.inr hp0)]
        simp
    · rintro ⟨j, _, _, hj, _⟩
      rw [hz] at hj
      have := Nat.pow_pos (n := j) (show 0 < 10 by decide)
      omega
  unfold digitsLen at hy
  simp only at hy
  rcases lt_or_ge (k + p) 0 with hneg | hnn
  · -- far below the last decimal
    have hsmall : d.value * 10 ^ p < 1 / 10 := by
      have hk : (10 : ℚ) ^ k ≤ (10 : ℚ) ^ (-1 - (p : ℤ)) := zpow_le_zpow_right₀ (by norm_num) (by omega)
      have : d.value * 10 ^ p < (10 : ℚ) ^ (-1 - (p : ℤ)) * 10 ^ p := mul_lt_mul_of_pos_right (lt_of_lt_of_le h2 hk) h10
      rw [← zpow_natCast, ← zpow_add₀ (by norm_num), show -1 - (p : ℤ) + p = -1 by ring] at this
      rw [zpow_natCast] at this
      norm_num at this ⊢
      linarith
    have hz : roundHalfEven (d.value * 10 ^ p) = 0 := roundHalfEven_zero hvp (by linarith)
    obtain ⟨z1, z2⟩ := zero_case 0 rfl hz
    refine ⟨['0'], 0, by simp, ?_, fun _ => z1, fun h => absurd h z2⟩
    have hlen : (k + (p : ℤ)).toNat = 0 := by omega
    rw [hlen] at hy
    unfold roundedDigits at hy
    rw [if_pos rfl, if_neg (show ¬ k + 1 > -(p : ℤ) by omega)] at hy
    split at hy
    · refine Yields.bind hy ?_
      simp only [lastDigits, if_true]
      exact Yields.pure _
    · refine Yields.bind hy ?_
      simp only [if_true]
      exact Yields.pure _
  · obtain ⟨len, hlen⟩ : ∃ len : ℕ, (len : ℤ) = k + p := ⟨(k + p).toNat, by omega⟩
    have hlen' : (k + (p : ℤ)).toNat = len := by omega
    rw [hlen', zpow_split d.value hlen] at hy
    obtain ⟨u1, u2⟩ := unit_range len h1 h2
    rw [zpow_split d.value hlen] at u1 u2
    have hle : roundHalfEven (d.value * 10 ^ p) ≤ 10 ^ len := roundHalfEven_le hvp (by push_cast; exact u2)
    have hlow : 0 < len → 10 ^ (len - 1) ≤ roundHalfEven (d.value * 10 ^ p) := by
      intro hl
      apply le_roundHalfEven
      push_cast
      rw [← zpow_natCast]
      rwa [show ((len - 1 : ℕ) : ℤ) = (len : ℤ) - 1 by omega]
    have hlost : LostZero p d.value ↔ (roundHalfEven (d.value * 10 ^ p) = 10 ^ len ∧ 1 ≤ len ∧ len < p) := by
      constructor
      · rintro ⟨j, j1, j2, j3, j4⟩
        have : j = len := by
          have a : j ≤ len := by
            rw [j3] at hle
            exact (Nat.pow_le_pow_iff_right (by decide)).1 hle
          by_contra hne
          have hlt : j ≤ len - 1 := by omega
          have b := lt_of_le_of_lt u1 j4
          have : (10 : ℚ) ^ j ≤ (10 : ℚ) ^ ((len : ℤ) - 1) := by
            rw [← zpow_natCast]
            exact zpow_le_zpow_right₀ (by norm_num) (by omega)
          linarith
        subst this
        exact ⟨j3, j1, j2⟩
      · rintro ⟨a, b, c⟩
        exact ⟨len, b, c, a, u2⟩
    unfold roundedDigits at hy
    rw [fixedPoint_eq]
    generalize roundHalfEven (d.value * 10 ^ p) = N at *
    by_cases hcarry : N < 10 ^ len
    · rw [if_pos hcarry] at hy
      have hnl : ¬ LostZero p d.value := by rw [hlost]; omega
      by_cases hl0 : len = 0
      · subst hl0
        have hN : N = 0 := by simpa using hcarry
        obtain ⟨z1, z2⟩ := zero_case 0 rfl hN
        refine ⟨['0'], 0, by simp, ?_, fun _ => ?_, fun h => absurd h z2⟩
        · refine Yields.bind hy ?_
          simp only [lastDigits, if_true]
          exact Yields.pure _
        · unfold fixedBody
          rw [hN, hp, hsp]
          rw [if_neg (by omega), if_pos (by simp)]
          simp only [Nat.zero_div, lastDigits_zero, List.length_singleton]
          have : numeral false 10 0 = ['0'] := by decide
          rw [this]
          by_cases hp0 : p = 0
          · subst hp0
            cases alt <;> rfl
          · rw [if_pos (by simp [hp0]), if_pos (Or.inr hp0)]
            simp
      · have hlow' := hlow (by omega)
        have hne : lastDigits len N ≠ [] := by
          intro hc
          have := lastDigits_length len N
          rw [hc] at this
          simp at this
          omega
        refine ⟨lastDigits len N, k - 1, hne, ?_, fun _ => ?_, fun h => absurd h hnl⟩
        · refine Yields.bind hy ?_
          simp only [hne, if_false]
          rw [show k - 1 + 1 = k by ring]
          exact Yields.pure _
        · unfold fixedBody
          rw [hp, hsp, lastDigits_length]
          by_cases hk : k - 1 < 0
          · rw [if_pos hk]
            obtain ⟨z, hz⟩ : ∃ z : ℕ, (z : ℤ) = -k := ⟨(-k).toNat, by omega⟩
            have ep : p = z + len := by omega
            have hdiv : N / 10 ^ p = 0 := Nat.div_eq_of_lt (lt_of_lt_of_le hcarry (Nat.pow_le_pow_right (by decide) (by omega)))
            rw [hdiv, if_pos (Or.inr (by omega)), show numeral false 10 0 = ['0'] by decide]
            rw [show (-(k - 1) - 1).toNat = z by omega]
            rw [ep, replicate_zero_digits hcarry]
            rfl
          · rw [if_neg hk]
            obtain ⟨m, hm⟩ : ∃ m : ℕ, (m : ℤ) = k := ⟨k.toNat, by omega⟩
            have el : len = m + p := by omega
            have hnum : numeral false 10 (N / 10 ^ p) = lastDigits m (N / 10 ^ p) := by
              obtain ⟨m', rfl⟩ : ∃ m', m = m' + 1 := ⟨m - 1, by omega⟩
              apply numeral_lastDigits
              · left
                rw [Nat.le_div_iff_mul_le (by positivity), ← pow_add]
                rwa [show m' + p = len - 1 by omega]
              · rw [Nat.div_lt_iff_lt_mul (by positivity), ← pow_add, ← el]
                exact hcarry
            rw [hnum, el, lastDigits_append]
            by_cases hp0 : p = 0
            · subst hp0
              rw [if_pos (by omega)]
              rw [show (k - 1 + 1 - ((m + 0 : ℕ) : ℤ)).toNat = 0 by omega]
              cases alt <;> simp [lastDigits]
            · rw [if_neg (by omega), if_pos (Or.inr hp0)]
              rw [show (k - 1 + 1).toNat = m by omega]
              rw [List.take_left' (lastDigits_length _ _), List.drop_left' (lastDigits_length _ _)]
              rw [show ((p : ℤ) - (((m + p : ℕ) : ℤ) - (k - 1 + 1))).toNat = 0 by omega]
              simp
    · have hN : N = 10 ^ len := by omega
      rw [if_neg hcarry] at hy
      by_cases hl0 : len = 0
      · subst hl0
        rw [if_pos rfl, if_pos (show k + 1 > -(p : ℤ) by omega)] at hy
        have hN1 : N = 1 := by simpa using hN
        have hnl : ¬ LostZero p d.value := by rw [hlost]; omega
        refine ⟨['1'], k, by simp, ?_, fun _ => ?_, fun h => absurd h hnl⟩
        · refine Yields.bind hy ?_
          simp only [List.cons_ne_nil, if_false]
          exact Yields.pure _
        · unfold fixedBody
          rw [hp, hsp, hN1]
          by_cases hp0 : p = 0
          · subst hp0
            have : k = 0 := by omega
            subst this
            cases alt <;> rfl
          · rw [if_pos (by omega), if_pos (Or.inr hp0)]
            obtain ⟨q, rfl⟩ : ∃ q, p = q + 1 := ⟨p - 1, by omega⟩
            have hdiv : 1 / 10 ^ (q + 1) = 0 := Nat.div_eq_of_lt (Nat.one_lt_pow (by omega) (by decide))
            rw [hdiv, replicate_zero_digits (by decide), show (-k - 1).toNat = q by omega]
            rfl
      · rw [if_neg hl0] at hy
        have hne : lastDigits len (10 ^ (len - 1)) ≠ [] := by
          intro hc
          have := lastDigits_length len (10 ^ (len - 1))
          rw [hc] at this
          simp at this
          omega
        refine ⟨lastDigits len (10 ^ (len - 1)), k, hne, ?_, ?_, ?_⟩
        · refine Yields.bind hy ?_
          simp only [hne, if_false]
          exact Yields.pure _
        · intro hnl
          rw [hlost] at hnl
          have hk : 0 ≤ k := by
            by_contra hc
            exact hnl ⟨hN, by omega, by omega⟩
          obtain ⟨m, hm⟩ : ∃ m : ℕ, (m : ℤ) = k := ⟨k.toNat, by omega⟩
          have el : len = m + p := by omega
          have hdiv : N / 10 ^ p = 10 ^ m := by rw [hN, el, pow_add, Nat.mul_div_cancel _ (by positivity)]
          unfold fixedBody
          rw [hp, hsp, lastDigits_length, if_neg (by omega), hdiv, numeral_pow, hN, lastDigits_pow_zeros (p := p) (j := len) (by omega)]
          by_cases hge : k + 1 ≥ len
          · rw [if_pos hge]
            by_cases hp0 : p = 0
            · subst hp0
              obtain ⟨m', rfl⟩ : ∃ m', m = m' + 1 := ⟨m - 1, by omega⟩
              have el : len = m' + 1 := by omega
              subst el
              rw [Nat.add_sub_cancel, lastDigits_pow, show (k + 1 - ((m' + 1 : ℕ) : ℤ)).toNat = 1 by omega]
              rw [if_neg (show ¬ k + 1 = ((m' + 1 : ℕ) : ℤ) by omega)]
              cases alt <;> simp [List.replicate_succ', lastDigits]
            · have hp1 : p = 1 := by omega
              subst hp1
              subst el
              rw [Nat.add_sub_cancel, lastDigits_pow, show (k + 1 - ((m + 1 : ℕ) : ℤ)).toNat = 0 by omega]
              rw [if_pos (show k + 1 = ((m + 1 : ℕ) : ℤ) by omega)]
              cases alt <;> simp
          · rw [if_neg hge]
            obtain ⟨t1, t2⟩ := lastDigits_pow_take (len := len) (m := m) (by omega)
            rw [show (k + 1).toNat = m + 1 by omega, t1, t2, if_pos (Or.inr (by omega))]
            rw [show ((p : ℤ) - ((len : ℤ) - (k + 1))).toNat = 1 by omega]
            rw [List.replicate_append_replicate]
            rw [show len - (m + 1) + 1 = p by omega]
        · intro hl
          obtain ⟨_, l1, l2⟩ := hlost.1 hl
          have hk : k < 0 := by omega
          unfold fixedBody
          rw [hp, hsp, if_pos hk, hN]
          obtain ⟨z, hz⟩ : ∃ z : ℕ, (z : ℤ) = -k - 1 := ⟨(-k - 1).toNat, by omega⟩
          obtain ⟨l, rfl⟩ : ∃ l, len = l + 1 := ⟨len - 1, by omega⟩
          have ep : p = z + (l + 2) := by omega
          have hdiv : 10 ^ (l + 1) / 10 ^ p = 0 := Nat.div_eq_of_lt (Nat.pow_lt_pow_right (by decide) (by omega))
          rw [hdiv, if_pos (Or.inr (by omega)), show numeral false 10 0 = ['0'] by decide]
          rw [show (-k - 1).toNat = z by omega, ep, replicate_zero_digits (a := z) (b := l + 2) (n := 10 ^ (l + 1)) (Nat.pow_lt_pow_right (by decide) (by omega)),
            lastDigits_pow (l + 1), Nat.add_sub_cancel, lastDigits_pow]
          have e : (['0'] ++ '.' :: (List.replicate z '0' ++ '1' :: List.replicate (l + 1) '0')) =
              ('0' :: '.' :: (List.replicate z '0' ++ '1' :: List.replicate l '0')) ++ ['0'] := by
            simp [List.replicate_succ']
          rw [e, List.dropLast_concat]
          exact ⟨rfl, rfl⟩

end Emio
