import Verif.Model.Unified
import Verif.Spec.Argument
/-
Specification: the meaning of a float (IEEE 754 binary32) and of arguments of other than core types.
-/
namespace Emio.Spec

def floatFraction (b : Nat) : Nat := b % 2 ^ 23
def floatExponent (b : Nat) : Nat := b / 2 ^ 23 % 2 ^ 8

/-- The magnitude of a finite float. -/
def floatMagnitude (b : Nat) : ℚ :=
  if floatExponent b = 0 then floatFraction b * (2 : ℚ) ^ (-149 : ℤ)
  else (2 ^ 23 + floatFraction b) * (2 : ℚ) ^ ((floatExponent b : ℤ) - 150)

/-- The value belongs to its type. -/
def ValidUser : UserArg → Prop
  | .core a => ValidArg a
  | .integer t n => t.Std ∧ t.Holds n
  | .float b => b < 2 ^ 32
  | .text s => (∀ c ∈ s, c.toNat < 256) ∧ (quoted '"' s).length < 2 ^ 31
  | .chars mem => '\x00' ∈ mem ∧ (∀ c ∈ mem, c.toNat < 256) ∧ (quoted '"' mem).length < 2 ^ 31
  | .enumerator a => ValidUser a
  | .formatAs a => ValidUser a
  | .ptr addr => addr < 2 ^ 64
  | .nullptr => True

end Emio.Spec
