import Mathlib.Data.Int.Log
import Verif.Spec.Float
import Verif.Spec.Render
/-
Specification: the text a floating-point number is rendered to.  Independent of the model.
-/
namespace Emio.Spec

/-- An exponent: its sign and at least two digits. -/
def exponentText (x : ℤ) : Str :=
  (if x < 0 then '-' else '+') :: ((if x.natAbs < 10 then ['0'] else []) ++ numeral false 10 x.natAbs)

/-- Digits `d.ddd` followed by an exponent. -/
def scientific (upper point : Bool) (digits : Str) (x : ℤ) : Str :=
  digits.take 1 ++ (if point = true ∨ 1 < digits.length then '.' :: digits.drop 1 else []) ++
    (if upper then 'E' else 'e') :: exponentText x

/-- Digits of which the first one has the weight `10 ^ x`, without an exponent. -/
def positional (point : Bool) (digits : Str) (x : ℤ) : Str :=
  if x < 0 then '0' :: '.' :: (List.replicate (-x - 1).toNat '0' ++ digits)
  else
    let k := (x + 1).toNat
    digits.take k ++ List.replicate (k - digits.length) '0' ++
      (if point = true ∨ k < digits.length then '.' :: digits.drop k else [])

/-- `v` correctly rounded (half to even) to `n` significant digits: the digits as a number, and the exponent of the
first one. -/
def roundSignificant (n : ℕ) (v : ℚ) : ℕ × ℤ :=
  if v = 0 then (0, 0)
  else
    let x := Int.log 10 v
    let d := roundHalfEven (v * (10 : ℚ) ^ (n - 1 - x))
    if d = 10 ^ n then (10 ^ (n - 1), x + 1) else (d, x)

/-- `v` correctly rounded (half to even) to `p` decimals. -/
def fixedPoint (p : ℕ) (point : Bool) (v : ℚ) : Str :=
  let d := roundHalfEven (v * 10 ^ p)
  numeral false 10 (d / 10 ^ p) ++ (if point = true ∨ p ≠ 0 then '.' :: lastDigits p d else [])

/-- Digits without the zeros at the end. -/
def dropZeros (digits : Str) : Str :=
  if digits.all (· == '0') then ['0'] else (digits.reverse.dropWhile (· == '0')).reverse

/-- The shortest digits that are read as the double: their number, the digits as a number, and the exponent of the
first one. -/
noncomputable def shortestDigits (b : ℕ) : ℕ × ℕ × ℤ :=
  if b = 0 then (1, 0, 0)
  else
    let x := Classical.epsilon (fun x : ℕ × ℕ × ℤ => Shortest b x.1 x.2.1 x.2.2)
    (x.1, x.2.1, x.2.2 - 1)

/-- The precision, 6 if there is none. -/
def precisionOf (s : Specs) : ℕ := if 0 ≤ s.precision then s.precision.toNat else 6

/-- A finite number without its sign, given by its bits. -/
noncomputable def finiteText (s : Specs) (bits : ℕ) : Str :=
  let upper := s.type == 'E' || s.type == 'F' || s.type == 'G'
  let p := precisionOf s
  let v := magnitude bits
  if s.type = 'f' ∨ s.type = 'F' then fixedPoint p s.alternateForm v
  else if s.type = 'e' ∨ s.type = 'E' then
    let r := roundSignificant (p + 1) v
    scientific upper s.alternateForm (lastDigits (p + 1) r.1) r.2
  else if s.type = noChar ∧ s.precision < 0 then
    let r := shortestDigits (bits % 2 ^ 63)
    let digits := lastDigits r.1 r.2.1
    if r.2.2 < -4 ∨ 16 ≤ r.2.2 then scientific upper s.alternateForm digits r.2.2
    else positional s.alternateForm digits r.2.2
  else
    let n := max p 1
    let r := roundSignificant n v
    let digits := if s.alternateForm then lastDigits n r.1 else dropZeros (lastDigits n r.1)
    if r.2 < -4 ∨ n ≤ r.2 then scientific upper s.alternateForm digits r.2
    else positional s.alternateForm digits r.2

/-- A number that is not finite. -/
def nonFiniteText (s : Specs) (bits : ℕ) : Str :=
  let upper := s.type == 'E' || s.type == 'F' || s.type == 'G'
  if fractionOf bits = 0 then (if upper then "INF".toList else "inf".toList)
  else if upper then "NAN".toList else "nan".toList

/-- A floating-point number.  The zeros of the zero flag are blanks if the number is not finite. -/
noncomputable def floatText (s : Specs) (bits : ℕ) : Str :=
  if IsFinite bits then paddedNumber s (signOf s (signBit bits)) (finiteText s bits)
  else padded .left (if s.zeroFlag then { s with fill := ' ' } else s) (signOf s (signBit bits) ++ nonFiniteText s bits)

/-! ### A deviation -/

/-- The numbers of which a digit is lost in fixed notation: a number below a power of ten is rounded up to that power,
which is less than one and not the smallest power that can be shown with `p` decimals.  For p = 2: 0.0950 < v < 0.1. -/
def LostZero (p : ℕ) (v : ℚ) : Prop :=
  ∃ j : ℕ, 1 ≤ j ∧ j < p ∧ roundHalfEven (v * 10 ^ p) = 10 ^ j ∧ v * 10 ^ p < 10 ^ j

/-- The finite number is to be shown in fixed notation and a digit is lost. -/
def LosesZero (s : Specs) (bits : ℕ) : Prop :=
  (s.type = 'f' ∨ s.type = 'F') ∧ IsFinite bits ∧ LostZero (precisionOf s) (magnitude bits)

/-! Examples. -/

/-- `"{:e}"` of 1/3 (as a double). -/
example : finiteText { type := 'e' } 0x3FD5555555555555 = "3.333333e-01".toList := by decide +kernel
example : finiteText { type := 'f', precision := 2 } 0x3FD5555555555555 = "0.33".toList := by decide +kernel
/-- 0.125 is halfway: `"{:.2f}"` rounds to even. -/
example : finiteText { type := 'f', precision := 2 } 0x3FC0000000000000 = "0.12".toList := by decide +kernel
example : finiteText { type := 'g' } 0x412E848000000000 = "1e+06".toList := by decide +kernel
example : finiteText { type := 'G', alternateForm := true } 0x40F86A0000000000 = "100000.".toList := by decide +kernel
example : finiteText { precision := 3 } 0x3FE0000000000000 = "0.5".toList := by decide +kernel
example : floatText { type := 'F', sign := '+', width := 6, zeroFlag := true, fill := '0', align := .right } 0x7FF0000000000000 =
    "  +INF".toList := by decide +kernel

end Emio.Spec
