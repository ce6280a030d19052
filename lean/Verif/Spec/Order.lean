import Verif.Spec.Float
/-
Specification: the value of a double with its sign.
-/
namespace Emio.Spec

/-- `x` with the sign of the double. -/
def signed (bits : ℕ) (x : ℚ) : ℚ := if signBit bits then -x else x

/-- The value of a finite double. -/
def valueOf (bits : ℕ) : ℚ := signed bits (magnitude bits)

/-- -1.5 and 2. -/
example : valueOf 0xBFF8000000000000 = -3 / 2 ∧ valueOf 0x4000000000000000 = 2 := by decide +kernel

end Emio.Spec
