import Verif.Spec.Order
import Verif.Spec.FormatSpec
/-
Specification: doubles that are whole numbers, and specifications for showing them like integers.
-/
namespace Emio.Spec

/-- The double is the integer `n` (and not -0). -/
def IsWhole (bits : ℕ) (n : ℤ) : Prop := IsFinite bits ∧ valueOf bits = n ∧ (n = 0 → signBit bits = false)

/-- Without decimals. -/
def SpecText.noDecimals (t : SpecText) : SpecText := { t with prec := some ['0'], type := some 'f' }

/-- 3 and -42. -/
example : IsWhole 0x4008000000000000 3 ∧ IsWhole 0xC045000000000000 (-42) := by
  refine ⟨⟨?_, ?_, ?_⟩, ?_, ?_, ?_⟩ <;> first | decide +kernel | (unfold IsFinite; decide +kernel)

end Emio.Spec
