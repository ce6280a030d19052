import Verif.Spec.Render
/- A formatted number in a buffer of fixed size: padding may be cut, the number itself is there or not. -/
namespace Emio.Spec

/-- What stands to the left and to the right of a text in a field. -/
def around (align : Align) (fill : Char) (k : Nat) : Str × Str :=
  match align with
  | .left => ([], List.replicate k fill)
  | .right => (List.replicate k fill, [])
  | .center => (List.replicate (k / 2) fill, List.replicate (k - k / 2) fill)
  | .none => ([], [])

/-- A formatted text in three parts: what may be cut, what is written at once, and what may be cut again. -/
structure Parts where
  left : Str
  body : Str
  right : Str

/-- A text with padding. -/
def paddedParts (dflt : Align) (s : Specs) (body : Str) : Parts :=
  { left := (around (if s.align = .none then dflt else s.align) s.fill (fillCount s body.length)).1
    body := body
    right := (around (if s.align = .none then dflt else s.align) s.fill (fillCount s body.length)).2 }

/-- The parts of a number: with the zero flag sign, base prefix and zeros stand apart from the digits, without it the sign
and the base prefix belong to the number. -/
def numberParts (s : Specs) (front digits : Str) : Parts :=
  if s.zeroFlag then
    { left := front ++ List.replicate (fillCount s (front ++ digits).length) '0', body := digits, right := [] }
  else paddedParts .right s (front ++ digits)

/-- The parts of an integer. -/
def intParts (s : Specs) (n : Int) : Parts :=
  if s.type = 'c' then paddedParts .left s [Char.ofNat (n % 256).toNat]
  else numberParts s (signOf s (n < 0) ++ prefixOf s n) (numeral (s.type == 'X') (baseOf s.type) n.natAbs)

/-- What is left of the parts if there is room for `room` characters: the body as a whole or not at all. -/
def Parts.kept (p : Parts) (room : Nat) : Str :=
  if room < p.left.length then p.left.take room
  else if room < p.left.length + p.body.length then p.left
  else (p.left ++ p.body ++ p.right).take room

end Emio.Spec
