import Verif.Spec.FloatText
/-
Specification: which rational number a decimal literal denotes.  Independent of the model.
-/
namespace Emio.Spec

/-- A decimal literal: digits, possibly a point and digits, possibly a letter, a sign and digits. -/
structure Decimal where
  int : Str
  frac : Option Str := none
  exp : Option (Char × Char × Str) := none

namespace Decimal

/-- As it is written. -/
def text (d : Decimal) : Str :=
  d.int ++ (match d.frac with | some f => '.' :: f | none => []) ++
    (match d.exp with | some (e, s, ds) => e :: s :: ds | none => [])

/-- Digits where there have to be digits. -/
structure WellFormed (d : Decimal) : Prop where
  int : d.int ≠ [] ∧ ∀ c ∈ d.int, c.isDigit
  frac : ∀ f, d.frac = some f → ∀ c ∈ f, c.isDigit
  exp : ∀ e s ds, d.exp = some (e, s, ds) → (e = 'e' ∨ e = 'E') ∧ (s = '+' ∨ s = '-') ∧ ds ≠ [] ∧ ∀ c ∈ ds, c.isDigit

/-- The exponent. -/
def exponent (d : Decimal) : ℤ :=
  match d.exp with
  | some (_, s, ds) => if s = '-' then -(numeralValue 10 ds : ℤ) else numeralValue 10 ds
  | none => 0

/-- The digits behind the point. -/
def decimals (d : Decimal) : Str := d.frac.getD []

/-- The number it denotes. -/
def value (d : Decimal) : ℚ :=
  numeralValue 10 (d.int ++ d.decimals) * (10 : ℚ) ^ (d.exponent - d.decimals.length)

end Decimal

/-- The text is a decimal literal and denotes the number. -/
def Denotes (text : Str) (x : ℚ) : Prop := ∃ d : Decimal, d.WellFormed ∧ d.text = text ∧ d.value = x

/-- `v` correctly rounded (half to even) to `p` decimals. -/
def roundDecimals (p : ℕ) (v : ℚ) : ℚ := roundHalfEven (v * 10 ^ p) / 10 ^ p

/-- `v` correctly rounded (half to even) to `n` significant digits. -/
def roundDigits (n : ℕ) (v : ℚ) : ℚ :=
  if v = 0 then 0
  else
    let x := Int.log 10 v
    roundHalfEven (v * (10 : ℚ) ^ (n - 1 - x)) * (10 : ℚ) ^ (x + 1 - n)

example : Decimal.text ⟨"12".toList, some "50".toList, some ('e', '-', "03".toList)⟩ = "12.50e-03".toList ∧
    Decimal.value ⟨"12".toList, some "50".toList, some ('e', '-', "03".toList)⟩ = 1250 / 100000 := by decide +kernel

example : roundDecimals 1 (125 / 100) = 12 / 10 ∧ roundDigits 2 (9999 / 1000) = 10 := by decide +kernel

end Emio.Spec
