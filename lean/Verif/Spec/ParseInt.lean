import Verif.Spec.Numeral
/-
Specification: what reading a numeral modulo a power of two can notice.  Independent of the model.
-/
namespace Emio.Spec

/-- The value of the numeral `ds`, reduced modulo `n` after every digit, decreases at some digit. -/
def WrapsDown (n b : Nat) (ds : List Char) : Prop :=
  ∃ (pre suf : List Char) (c : Char), ds = pre ++ c :: suf ∧ numeralValue b (pre ++ [c]) % n < numeralValue b pre % n

end Emio.Spec
