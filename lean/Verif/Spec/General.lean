import Verif.Spec.Decimal
/-
Specification: general notation, like `%g` of C.  Independent of the model.
-/
namespace Emio.Spec

/-- Digits with a point: without the zeros at the end, and without the point if nothing is left behind it.  Without a point
nothing changes. -/
def trimmed (s : Str) : Str :=
  if '.' ∈ s then
    let r := s.reverse.dropWhile (· == '0')
    (if r.head? = some '.' then r.drop 1 else r).reverse
  else s

/-- `d.ddd`. -/
def mantissa (point : Bool) (digits : Str) : Str :=
  digits.take 1 ++ (if point = true ∨ 1 < digits.length then '.' :: digits.drop 1 else [])

/-- General notation of a number with `n` significant digits `D`, the first one with the weight `10 ^ x`, that is `v` in fixed
notation if `x` is at least -4 and less than `n`.  Zeros at the end are dropped unless the alternate form is asked for. -/
def generalText (upper alternate : Bool) (n D : ℕ) (x : ℤ) (v : ℚ) : Str :=
  let shown := fun s => if alternate then s else trimmed s
  if -4 ≤ x ∧ x < n then shown (fixedPoint (n - 1 - x).toNat alternate v)
  else shown (mantissa alternate (lastDigits n D)) ++ (if upper then 'E' else 'e') :: exponentText x

example : trimmed "12.500".toList = "12.5".toList ∧ trimmed "100.00".toList = "100".toList ∧ trimmed "100".toList = "100".toList := by
  decide +kernel
example : generalText false false 6 100000 5 100000 = "100000".toList ∧ generalText false false 6 100000 6 1000000 = "1e+06".toList ∧
    generalText true true 3 125 (-5) (125 / 10000000) = "1.25E-05".toList := by decide +kernel

end Emio.Spec
