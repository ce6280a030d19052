import Mathlib.Data.Nat.Digits.Defs
/-
Specification: numerals.  Independent of the model.
-/
namespace Emio.Spec

/-- The numeral symbols of both cases. -/
def symbols (upper : Bool) : List Char :=
  (if upper then "0123456789ABCDEFGHIJKLMNOPQRSTUVWXYZ" else "0123456789abcdefghijklmnopqrstuvwxyz").toList

/-- Symbol of a digit below 36. -/
def symbol (upper : Bool) (d : Nat) : Char := (symbols upper).getD d '?'

/-- The canonical base-`b` numeral of `n`: most significant digit first, no leading zeros, "0" for zero.
`Nat.digits` is Mathlib's little-endian digit list. -/
def numeral (upper : Bool) (b n : Nat) : List Char :=
  if n = 0 then ['0'] else (Nat.digits b n).reverse.map (symbol upper)

/-- Canonical numeral of an integer with a minus sign for negative numbers. -/
def intNumeral (upper : Bool) (b : Nat) (n : Int) : List Char :=
  (if n < 0 then ['-'] else []) ++ numeral upper b n.natAbs

/-- Value of a character as a numeral of base `b`, if it is one: 0-9, then a-z or A-Z for 10 to 35. -/
def symbolValue (b : Nat) (c : Char) : Option Nat :=
  let n := c.toNat
  let v? : Option Nat :=
    if 48 ≤ n ∧ n ≤ 57 then some (n - 48)
    else if 97 ≤ n ∧ n ≤ 122 then some (n - 97 + 10)
    else if 65 ≤ n ∧ n ≤ 90 then some (n - 65 + 10)
    else none
  v?.filter (· < b)

/-- The number denoted by a list of digit values, most significant first. -/
def denote (b : Nat) (ds : List Nat) : Nat := ds.foldl (fun a d => a * b + d) 0

end Emio.Spec

namespace Emio.Spec

/-- The number denoted by a digit string of base `b`. -/
def numeralValue (b : Nat) (ds : List Char) : Nat := denote b (ds.filterMap (symbolValue b))

/-- `ds` is a non-empty string of base-`b` digits. -/
def IsNumeral (b : Nat) (ds : List Char) : Prop := ds ≠ [] ∧ ∀ c ∈ ds, (symbolValue b c).isSome

/-- `tail` does not start with a base-`b` digit. -/
def NoDigitNext (b : Nat) (tail : List Char) : Prop := ∀ c ∈ tail.head?, symbolValue b c = none

/-- The seven ASCII characters between '9' and 'A'. -/
def isColonToAt (c : Char) : Bool := 58 ≤ c.toNat && c.toNat ≤ 64

/-- The sign characters a number may start with. -/
inductive Sign | none | plus | minus
  deriving DecidableEq, Repr

def Sign.text : Sign → List Char
  | .none => []
  | .plus => ['+']
  | .minus => ['-']

/-- Value of a signed numeral. -/
def Sign.apply : Sign → Nat → Int
  | .minus, n => -(n : Int)
  | _, n => n

end Emio.Spec
