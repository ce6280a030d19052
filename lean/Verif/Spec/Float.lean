import Mathlib.Data.Rat.Floor
/-
What a double means (IEEE 754 binary64), and what rounding means.  Independent of the model.
-/
namespace Emio

/-- The fraction field of the bit pattern of a double. -/
def fractionOf (bits : Nat) : Nat := bits % 2 ^ 52

/-- The exponent field. -/
def exponentOf (bits : Nat) : Nat := bits / 2 ^ 52 % 2 ^ 11

/-- The sign bit is set. -/
def signBit (bits : Nat) : Bool := bits / 2 ^ 63 % 2 == 1

/-- The pattern of a finite number. -/
def IsFinite (bits : Nat) : Prop := exponentOf bits < 2047

instance (bits : Nat) : Decidable (IsFinite bits) := inferInstanceAs (Decidable (_ < _))

/-- The pattern of an infinity. -/
def IsInf (bits : Nat) : Prop := exponentOf bits = 2047 ∧ fractionOf bits = 0

/-- The pattern of a NaN. -/
def IsNaN (bits : Nat) : Prop := exponentOf bits = 2047 ∧ fractionOf bits ≠ 0

/-- The magnitude of a finite double. -/
def magnitude (bits : Nat) : ℚ :=
  if exponentOf bits = 0 then fractionOf bits * (2 : ℚ) ^ (-1074 : ℤ)
  else (2 ^ 52 + fractionOf bits) * (2 : ℚ) ^ ((exponentOf bits : ℤ) - 1075)

/-- The largest magnitude a reader of decimal numbers still maps to a finite double is below this. -/
def overflowLimit : ℚ := (2 ^ 54 - 1) * (2 : ℚ) ^ (970 : ℤ)

/-- Reading `x` (rounding to nearest, ties to the even fraction) yields the finite double `bits` with positive sign:
no other finite double is closer, an equally close one has an odd fraction, and `x` does not overflow. -/
def ReadsAs (x : ℚ) (bits : Nat) : Prop :=
  bits < 2 ^ 63 ∧ IsFinite bits ∧ x < overflowLimit ∧
    ∀ other, other < 2 ^ 63 → IsFinite other → other ≠ bits →
      |x - magnitude bits| < |x - magnitude other| ∨
        (|x - magnitude bits| = |x - magnitude other| ∧ fractionOf bits % 2 = 0)

/-- `D * 10 ^ (k - n)`, a number with exactly n digits, is the shortest representation of the double `b`: reading it
yields `b`, no number with fewer digits reads as `b`, and no number with that many digits that reads as `b` is closer
to it.  Of two equally close ones it is the larger. -/
structure Shortest (b n D : ℕ) (k : ℤ) : Prop where
  n_pos : 1 ≤ n
  n_le : n ≤ 17
  D_low : 10 ^ (n - 1) ≤ D
  D_high : D < 10 ^ n
  reads : ReadsAs (D * (10 : ℚ) ^ (k - n)) b
  shortest : ∀ (n' D' : ℕ) (q : ℤ), D' < 10 ^ n' → ReadsAs (D' * (10 : ℚ) ^ q) b → n ≤ n'
  closest : ∀ (D' : ℕ) (q : ℤ), D' < 10 ^ n → ReadsAs (D' * (10 : ℚ) ^ q) b →
    |magnitude b - D * (10 : ℚ) ^ (k - n)| ≤ |magnitude b - D' * (10 : ℚ) ^ q| ∧
      (|magnitude b - D * (10 : ℚ) ^ (k - n)| = |magnitude b - D' * (10 : ℚ) ^ q| →
        D' * (10 : ℚ) ^ q ≤ D * (10 : ℚ) ^ (k - n))

/-- Rounding to the nearest integer, ties to even. -/
def roundHalfEven (x : ℚ) : Nat :=
  let f := ⌊x⌋₊
  if x - f < 1 / 2 then f
  else if 1 / 2 < x - f then f + 1
  else if f % 2 = 0 then f else f + 1

/-- The last `n` decimal digits of `d`. -/
def lastDigits : Nat → Nat → List Char
  | 0, _ => []
  | n + 1, d => lastDigits n (d / 10) ++ [Char.ofNat (48 + d % 10)]

end Emio
