import Verif.Model.Writer
import Verif.Spec.Escape
/-
Specification: the text each writer function is supposed to append.
-/
namespace Emio.Spec

/-- Text of a call. -/
def callText : WOp → Str
  | .char c => [c]
  | .charN c n => List.replicate n c
  | .str s => s
  | .area _ text => text
  | .int _ n base upper => intNumeral upper base.toNat n
  | .strEscaped s => quoted '"' s
  | .charEscaped c => quoted '\'' [c]

/-- The call makes sense: an area is filled completely, an integer is a value of its type and the base is valid,
characters are bytes. -/
def CallOk : WOp → Prop
  | .area n text => text.length = n
  | .int t n base _ => t.Std ∧ t.Holds n ∧ 2 ≤ base ∧ base ≤ 36
  | .strEscaped s => ∀ c ∈ s, c.toNat < 256
  | .charEscaped c => c.toNat < 256
  | _ => True

/-- The largest number of contiguous characters a call asks for. -/
def callContiguous : WOp → Nat
  | .char _ => 1
  | .area n _ => n
  | .int _ n base upper => (intNumeral upper base.toNat n).length
  | _ => 0

end Emio.Spec
