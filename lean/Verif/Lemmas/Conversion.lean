import Verif.Model.Conversion
import Verif.Spec.Numeral
import Mathlib.Data.Nat.Digits.Lemmas
import Mathlib.Tactic.IntervalCases
/-
Helper lemmas about integer <-> text conversion.
-/
namespace Emio
open Spec

theorem digitToChar_eq (d : Nat) (upper : Bool) (h : d < 36) : digitToChar d upper = symbol upper d := by
  revert d; cases upper <;> decide

theorem numeral_lt (up : Bool) (b n : Nat) (_hb : 2 ≤ b) (h : n < b) : numeral up b n = [symbol up n] := by
  unfold numeral
  split
  · subst_vars; cases up <;> rfl
  · rw [Nat.digits_of_lt b n (by omega) h]; simp

theorem numeral_ge (up : Bool) (b n : Nat) (hb : 2 ≤ b) (h : b ≤ n) :
    numeral up b n = numeral up b (n / b) ++ [symbol up (n % b)] := by
  have h0 : n ≠ 0 := by omega
  have h1 : n / b ≠ 0 := by
    have := Nat.div_pos h (by omega); omega
  rw [numeral, numeral, if_neg h0, if_neg h1, Nat.digits_def' (by omega) (by omega)]
  simp

theorem numeral_ne_nil (up : Bool) (b n : Nat) (hb : 2 ≤ b) : numeral up b n ≠ [] := by
  rcases Nat.lt_or_ge n b with h | h
  · simp [numeral_lt up b n hb h]
  · simp [numeral_ge up b n hb h]

theorem writeNumberLoop_eq (up : Bool) (b : Nat) (hb : 2 ≤ b) (hb' : b ≤ 36) :
    ∀ n right, n ≠ 0 → writeNumberLoop n b up right = numeral up b n ++ right := by
  intro n
  induction n using Nat.strongRecOn with
  | ind n ih =>
    intro right hn
    rw [writeNumberLoop, dif_neg (by omega)]
    rw [digitToChar_eq _ _ (by have := Nat.mod_lt n (show b > 0 by omega); omega)]
    rcases Nat.lt_or_ge n b with h | h
    · rw [Nat.div_eq_of_lt h, writeNumberLoop, dif_pos (Or.inl rfl), numeral_lt up b n hb h, Nat.mod_eq_of_lt h]
      rfl
    · have h1 : n / b ≠ 0 := by
        have := Nat.div_pos h (by omega); omega
      rw [ih (n / b) (Nat.div_lt_self (by omega) (by omega)) _ h1, numeral_ge up b n hb h]
      simp

theorem digits2_eq (v : Nat) (h : v < 100) (up : Bool) :
    digits2 v = [symbol up (v / 10), symbol up (v % 10)] := by
  have : ∀ v : Fin 100, ∀ up : Bool, digits2 v.1 = [symbol up (v.1 / 10), symbol up (v.1 % 10)] := by
    decide +kernel
  exact this ⟨v, h⟩ up

theorem char48_eq (d : Nat) (h : d < 10) (up : Bool) : Char.ofNat (48 + d) = symbol up d := by
  revert d; cases up <;> decide

theorem writeDecimal_eq (up : Bool) : ∀ n right, writeDecimal n right = numeral up 10 n ++ right := by
  intro n
  induction n using Nat.strongRecOn with
  | ind n ih =>
    intro right
    rw [writeDecimal]
    split
    · rename_i h
      rw [ih (n / 100) (Nat.div_lt_self (by omega) (by omega)), digits2_eq _ (Nat.mod_lt _ (by omega)) up]
      rw [numeral_ge up 10 n (by omega) (by omega), numeral_ge up 10 (n / 10) (by omega) (by omega)]
      have h1 : n / 10 / 10 = n / 100 := by omega
      have h2 : n % 100 / 10 = n / 10 % 10 := by omega
      have h3 : n % 100 % 10 = n % 10 := by omega
      rw [h1, h2, h3]; simp
    · split
      · rw [char48_eq n (by omega) up, numeral_lt up 10 n (by omega) (by omega)]; rfl
      · rw [digits2_eq n (by omega) up, numeral_ge up 10 n (by omega) (by omega),
          numeral_lt up 10 (n / 10) (by omega) (by omega)]
        rfl

theorem uintDigit_eq (k : Nat) (up : Bool) (d : Nat) (hk : k = 1 ∨ k = 3 ∨ k = 4) (hu : k ≠ 4 → up = false)
    (hd : d < 2 ^ k) : uintDigit k up d = symbol up d := by
  rcases hk with rfl | rfl | rfl
  · rw [hu (by decide)]; revert d; decide
  · rw [hu (by decide)]; revert d; decide
  · revert d; cases up <;> decide

theorem writeUint_eq (k : Nat) (up : Bool) (hk : k = 1 ∨ k = 3 ∨ k = 4) (hu : k ≠ 4 → up = false) :
    ∀ n right, writeUint k n up right = numeral up (2 ^ k) n ++ right := by
  intro n
  have hb : 2 ≤ 2 ^ k := by rcases hk with rfl | rfl | rfl <;> decide
  induction n using Nat.strongRecOn with
  | ind n ih =>
    intro right
    rw [writeUint]
    rw [Nat.one_shiftLeft, Nat.and_two_pow_sub_one_eq_mod, Nat.shiftRight_eq_div_pow,
      uintDigit_eq k up _ hk hu (Nat.mod_lt _ (by omega))]
    split
    · rename_i h
      have hge : 2 ^ k ≤ n := by
        by_contra hlt
        exact h.1 (Nat.div_eq_of_lt (by omega))
      rw [ih _ (Nat.div_lt_self (by omega) (by omega)), numeral_ge up _ n hb hge]; simp
    · rename_i h
      have hlt : n < 2 ^ k := by
        by_contra hge
        have : 0 < n / 2 ^ k := Nat.div_pos (by omega) (by omega)
        apply h
        constructor
        · omega
        · rcases hk with rfl | rfl | rfl <;> decide
      rw [numeral_lt up _ n hb hlt, Nat.mod_eq_of_lt hlt]; rfl

theorem symbol_false_of_lt10 (d : Nat) (h : d < 10) (up : Bool) : symbol false d = symbol up d := by
  rw [← char48_eq d h false, char48_eq d h up]

theorem numeral_case_irrel (up : Bool) (b : Nat) (hb : 2 ≤ b) (hb' : b ≤ 10) :
    ∀ n, numeral false b n = numeral up b n := by
  intro n
  induction n using Nat.strongRecOn with
  | ind n ih =>
    rcases Nat.lt_or_ge n b with h | h
    · rw [numeral_lt _ b n hb h, numeral_lt _ b n hb h, symbol_false_of_lt10 n (by omega) up]
    · have hm : n % b < b := Nat.mod_lt _ (by omega)
      rw [numeral_ge _ b n hb h, numeral_ge _ b n hb h, ih _ (Nat.div_lt_self (by omega) (by omega)),
        symbol_false_of_lt10 (n % b) (by omega) up]

/-- `write_number` stores exactly the canonical numeral. -/
theorem writeNumber_eq (n b : Nat) (up : Bool) (right : Str) (hb : 2 ≤ b) (hb' : b ≤ 36) :
    writeNumber n b up right = numeral up b n ++ right := by
  unfold writeNumber
  split
  · subst_vars; exact writeDecimal_eq up n right
  split
  · subst_vars; exact writeUint_eq 4 up (by simp) (by simp) n right
  split
  · subst_vars
    rw [writeUint_eq 1 false (by simp) (by simp), numeral_case_irrel up _ (by decide) (by decide)]; rfl
  split
  · subst_vars
    rw [writeUint_eq 3 false (by simp) (by simp), numeral_case_irrel up _ (by decide) (by decide)]; rfl
  split
  · subst_vars; rfl
  · exact writeNumberLoop_eq up b hb hb' n right (by assumption)

theorem length_numeral_lt (up : Bool) (b n : Nat) (hb : 2 ≤ b) (h : n < b) : (numeral up b n).length = 1 := by
  rw [numeral_lt up b n hb h]; rfl

theorem length_numeral_ge (up : Bool) (b n : Nat) (hb : 2 ≤ b) (h : b ≤ n) :
    (numeral up b n).length = (numeral up b (n / b)).length + 1 := by
  rw [numeral_ge up b n hb h]; simp

theorem countDigits10Loop_eq (up : Bool) : ∀ n c, countDigits10Loop n c + 1 = c + (numeral up 10 n).length := by
  intro n
  induction n using Nat.strongRecOn with
  | ind n ih =>
    intro c
    rw [countDigits10Loop]
    have hl := length_numeral_lt up 10
    have hg := length_numeral_ge up 10
    split
    · rw [hl n (by omega) (by omega)]
    split
    · rw [hg n (by omega) (by omega), hl _ (by omega) (by omega)]
    split
    · rw [hg n (by omega) (by omega), hg _ (by omega) (by omega), hl _ (by omega) (by omega)]
    split
    · rw [hg n (by omega) (by omega), hg _ (by omega) (by omega), hg _ (by omega) (by omega), hl _ (by omega) (by omega)]
    · rw [ih (n / 10000) (Nat.div_lt_self (by omega) (by omega)), hg n (by omega) (by omega),
        hg (n / 10) (by omega) (by omega), hg (n / 10 / 10) (by omega) (by omega),
        hg (n / 10 / 10 / 10) (by omega) (by omega)]
      have : n / 10 / 10 / 10 / 10 = n / 10000 := by omega
      rw [this]; omega

theorem countDigitsLoop_eq (up : Bool) (b : Nat) (hb : 2 ≤ b) :
    ∀ n c, n ≠ 0 → countDigitsLoop b n c = c + (numeral up b n).length := by
  intro n
  induction n using Nat.strongRecOn with
  | ind n ih =>
    intro c hn
    rw [countDigitsLoop, dif_neg (by omega)]
    rcases Nat.lt_or_ge n b with h | h
    · rw [Nat.div_eq_of_lt h, countDigitsLoop, dif_pos (Or.inl rfl), length_numeral_lt up b n hb h]
    · have h1 : n / b ≠ 0 := by
        have := Nat.div_pos h (by omega); omega
      rw [ih _ (Nat.div_lt_self (by omega) (by omega)) _ h1, length_numeral_ge up b n hb h]; omega

theorem log2_length (up : Bool) (k : Nat) (hk : 1 ≤ k) :
    ∀ n, n ≠ 0 → Nat.log2 n / k + 1 = (numeral up (2 ^ k) n).length := by
  intro n
  have hb : 2 ≤ 2 ^ k := by
    calc 2 = 2 ^ 1 := rfl
      _ ≤ 2 ^ k := Nat.pow_le_pow_right (by omega) hk
  induction n using Nat.strongRecOn with
  | ind n ih =>
    intro hn
    rcases Nat.lt_or_ge n (2 ^ k) with h | h
    · rw [length_numeral_lt up _ n hb h]
      have : Nat.log2 n < k := (Nat.log2_lt hn).2 h
      rw [Nat.div_eq_of_lt this]
    · have h1 : n / 2 ^ k ≠ 0 := by
        have := Nat.div_pos h (by omega); omega
      rw [length_numeral_ge up _ n hb h, ← ih _ (Nat.div_lt_self (by omega) (by omega)) h1]
      have hle : k ≤ Nat.log2 n := (Nat.le_log2 hn).2 h
      have hlog : Nat.log2 (n / 2 ^ k) = Nat.log2 n - k := by
        apply Nat.le_antisymm
        · have : Nat.log2 (n / 2 ^ k) < Nat.log2 n - k + 1 := by
            rw [Nat.log2_lt h1]
            rw [Nat.div_lt_iff_lt_mul (by omega), ← Nat.pow_add]
            have : Nat.log2 n - k + 1 + k = Nat.log2 n + 1 := by omega
            rw [this]; exact Nat.lt_log2_self
          omega
        · rw [Nat.le_log2 h1, Nat.le_div_iff_mul_le (by omega), ← Nat.pow_add]
          have : Nat.log2 n - k + k = Nat.log2 n := by omega
          rw [this]; exact Nat.log2_self_le hn
      rw [hlog]
      have : Nat.log2 n / k = (Nat.log2 n - k) / k + 1 := by
        rw [← Nat.add_div_right _ (by omega)]; congr 1; omega
      omega

/-- The digit count computed in advance is the length of the numeral. -/
theorem getNumberOfDigits_eq (n b : Nat) (up : Bool) (hb : 2 ≤ b) :
    getNumberOfDigits n b = (numeral up b n).length := by
  unfold getNumberOfDigits
  split
  · subst_vars; rw [numeral]; rfl
  rename_i hn
  split
  · subst_vars
    have := countDigits10Loop_eq up n 1
    unfold countDigits10; omega
  split
  · subst_vars
    rw [countDigits16, if_neg hn, bitWidth, if_neg hn]
    have := log2_length up 4 (by omega) n hn
    have h16 : (2 ^ 4 : Nat) = 16 := rfl
    rw [h16] at this; omega
  split
  · subst_vars
    rw [countDigits2, if_neg hn, bitWidth, if_neg hn]
    have := log2_length up 1 (by omega) n hn
    have h16 : (2 ^ 1 : Nat) = 2 := rfl
    rw [h16] at this; omega
  split
  · subst_vars
    rw [countDigits8, if_neg hn, bitWidth, if_neg hn]
    have := log2_length up 3 (by omega) n hn
    have h16 : (2 ^ 3 : Nat) = 8 := rfl
    rw [h16] at this; omega
  · rcases Nat.lt_or_ge n b with h | h
    · rw [Nat.div_eq_of_lt h, countDigitsLoop, dif_pos (Or.inl rfl), length_numeral_lt up b n hb h]
    · have h1 : n / b ≠ 0 := by
        have := Nat.div_pos h (by omega); omega
      rw [countDigitsLoop_eq up b hb _ _ h1, length_numeral_ge up b n hb h]; omega

/-- `to_absolute` is the absolute value, including the minimum of the signed types. -/
theorem toAbsolute_eq (t : IntTy) (v : Int) (ht : t.Std) (hv : t.Holds v) : toAbsolute t v = v.natAbs := by
  obtain ⟨s, b⟩ := t
  simp only [IntTy.Std] at ht
  simp only [IntTy.Holds, IntTy.min, IntTy.max] at hv
  cases s
  · simp [toAbsolute] at *; omega
  · simp only [toAbsolute, absModulus]
    rcases ht with rfl | rfl | rfl | rfl <;> simp at hv ⊢ <;> split <;> omega

end Emio
