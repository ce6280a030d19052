import Verif.Spec.FloatText
/-
The characters of a floating-point number that are written in one piece.
-/
namespace Emio.Spec

open Classical in
/-- How many characters of a finite number are written in one piece: all but the padding, and but the sign if the number is
padded with zeros behind its sign. -/
noncomputable def onePiece (s : Specs) (bits : Nat) : Nat :=
  (if s.zeroFlag then 0 else (signOf s (signBit bits)).length) +
    (if LosesZero s bits then (finiteText s bits).length - 1 else (finiteText s bits).length)

end Emio.Spec
