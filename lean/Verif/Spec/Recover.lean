import Verif.Spec.Numeral
/-
Specification: the number in a text.
-/
namespace Emio.Spec

/-- The number a reader sees in a text: its digits of base `b`, negative if there is a minus sign. -/
def numberIn (b : Nat) (text : List Char) : Int :=
  if '-' ∈ text then -(numeralValue b text : Int) else numeralValue b text

/-- Characters that are not digits of the base, nor a minus sign, cannot be mistaken for a part of the number. -/
def Harmless (b : Nat) (c : Char) : Prop := symbolValue b c = none ∧ c ≠ '-'

example : numberIn 16 "**-0x1e**".toList = -30 ∧ numberIn 10 "+00042".toList = 42 := by decide +kernel

end Emio.Spec
