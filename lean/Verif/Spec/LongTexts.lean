import Verif.Spec.Argument
import Mathlib.Data.Int.Init
/-
Specification: strings of any length.
-/
namespace Emio.Spec

/-- What is to be padded: the first characters of the string, all of it, or the string in quotes. -/
def strBody (s : Specs) (str : Str) : Str :=
  if s.type = '?' then quoted '"' str else if 0 ≤ s.precision then str.take s.precision.toNat else str

/-- The number of 32 bits that a length is turned into. -/
def as32 (n : Nat) : Int := if n % 2 ^ 32 < 2 ^ 31 then (n % 2 ^ 32 : Nat) else (n % 2 ^ 32 : Nat) - 2 ^ 32

/-- What the library makes of it: it takes the string for one of length `as32`.  `none` if the number of fill characters is no
number of 32 bits. -/
def longText (s : Specs) (str : Str) : Option Str :=
  let body := strBody s str
  if s.width = 0 ∨ s.width < as32 body.length then some body
  else if s.width - as32 body.length ≥ 2 ^ 31 then none
  else some (surround (if s.align = .none then .left else s.align) s.fill (s.width - as32 body.length).toNat body)

end Emio.Spec
