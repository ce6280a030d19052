import Verif.Spec.Float
import Verif.Spec.Unified
/-
Specification: reading decimal numbers as floats (IEEE 754 binary32).
-/
namespace Emio.Spec

/-- The pattern of a finite float. -/
def FloatFinite (b : Nat) : Prop := floatExponent b < 255

instance (b : Nat) : Decidable (FloatFinite b) := inferInstanceAs (Decidable (_ < _))

/-- Reading `x` as a float (rounding to nearest, ties to the even fraction) yields the finite float `b` with positive sign: no
other finite float is closer, an equally close one has an odd fraction, and `x` does not overflow. -/
def ReadsAsFloat (x : ℚ) (b : Nat) : Prop :=
  b < 2 ^ 31 ∧ FloatFinite b ∧ x < (2 ^ 25 - 1) * 2 ^ 103 ∧
    ∀ other, other < 2 ^ 31 → FloatFinite other → other ≠ b →
      |x - floatMagnitude b| < |x - floatMagnitude other| ∨
        (|x - floatMagnitude b| = |x - floatMagnitude other| ∧ floatFraction b % 2 = 0)

/-- The number of digits of a decimal number, without the exponent and without zeros at either end. -/
def significantDigits (text : Str) : Nat :=
  ((((text.takeWhile (· ≠ 'e')).filter Char.isDigit).dropWhile (· = '0')).reverse.dropWhile (· = '0')).length

end Emio.Spec
