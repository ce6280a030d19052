import Verif.Props.Reader
/- C03: the values of `char` where it is a signed type. -/
namespace Emio

/-- C03: where `char` is signed, the value of a byte is the one number from -128 to 127 that is congruent to it. -/
theorem C03_signed_char_value (c : Char) (hc : c.toNat < 256) (v : Int) :
    signedCharVal c = v ↔ -128 ≤ v ∧ v < 128 ∧ v % 256 = c.toNat := by
  unfold signedCharVal
  split <;> omega

example : signedCharVal (Char.ofNat 128) = -128 ∧ signedCharVal (Char.ofNat 127) = 127 := by decide

end Emio
