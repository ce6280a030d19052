import Verif.Props.Writer
/-
Decimal numerals.
-/
namespace Emio
open Spec

theorem symbolValue_isDigit {c : Char} (h : (symbolValue 10 c).isSome) : c.isDigit := by
  unfold symbolValue at h
  simp only at h
  split at h
  · rename_i hr
    simp only [Char.isDigit, ge_iff_le, Bool.and_eq_true, decide_eq_true_eq, UInt32.le_iff_toNat_le]
    exact hr
  · split at h
    · rename_i hr
      rw [Option.filter_some, if_neg (by simp)] at h
      simp at h
    · split at h
      · rw [Option.filter_some, if_neg (by simp)] at h
        simp at h
      · simp at h

theorem numeral_digits (n : Nat) : numeral false 10 n ≠ [] ∧ (∀ c ∈ numeral false 10 n, c.isDigit) ∧
    numeralValue 10 (numeral false 10 n) = n := by
  obtain ⟨⟨h1, h2⟩, h3⟩ := numeral_value false 10 n (by decide) (by decide)
  exact ⟨h1, fun c hc => symbolValue_isDigit (h2 c hc), h3⟩

end Emio
