import Verif.Spec.Numeral
/-
Specification: searching in a text, and the characters parse_int takes for digits.  Independent of the model.
-/
namespace Emio.Spec

/-- Position `i` is the first one at which `P` holds of the text from there on. -/
structure FirstAt (P : List Char → Prop) (s : List Char) (i : Nat) : Prop where
  inside : i ≤ s.length
  here : P (s.drop i)
  first : ∀ j < i, ¬ P (s.drop j)

/-- The text starts with a character satisfying `p`. -/
def StartsWithChar (p : Char → Bool) (s : List Char) : Prop := ∃ c cs, s = c :: cs ∧ p c = true

/-- A base-`b` digit, or one of `:`..`@` taken for the digits 10..16 (a defect of the program, see C03). -/
def digitLike (b : Nat) (c : Char) : Bool :=
  (symbolValue b c).isSome || (isColonToAt c && decide (c.toNat - 48 < b))

end Emio.Spec
