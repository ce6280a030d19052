import Verif.Model.FormatSpecs
import Verif.Spec.Escape
/-
Specification: the text an argument is rendered to (all kinds but floating point).
-/
namespace Emio.Spec

/-- Fill characters needed to reach the width. -/
def fillCount (s : Specs) (len : Nat) : Nat := s.width.toNat - len

/-- `text` surrounded by `k` fill characters. -/
def surround (align : Align) (fill : Char) (k : Nat) (text : Str) : Str :=
  match align with
  | .left => text ++ List.replicate k fill
  | .right => List.replicate k fill ++ text
  | .center => List.replicate (k / 2) fill ++ text ++ List.replicate (k - k / 2) fill
  | .none => text

/-- `text` padded to the width, `dflt` being the alignment if none is given. -/
def padded (dflt : Align) (s : Specs) (text : Str) : Str :=
  surround (if s.align = .none then dflt else s.align) s.fill (fillCount s text.length) text

/-- The sign of a number. -/
def signOf (s : Specs) (negative : Bool) : Str :=
  if negative then ['-'] else if s.sign = '+' then ['+'] else if s.sign = ' ' then [' '] else []

/-- The base of an integer presentation type. -/
def baseOf (type : Char) : Nat :=
  if type = 'x' ∨ type = 'X' then 16 else if type = 'b' ∨ type = 'B' then 2 else if type = 'o' then 8 else 10

/-- The prefix of the alternate form. -/
def prefixOf (s : Specs) (n : Int) : Str :=
  if s.alternateForm = true ∧ (s.type = 'x' ∨ s.type = 'X' ∨ s.type = 'b' ∨ s.type = 'B') then ['0', s.type]
  else if s.alternateForm = true ∧ s.type = 'o' ∧ n ≠ 0 then ['0']
  else []

/-- A number whose sign and prefix precede the zeros of the zero flag. -/
def paddedNumber (s : Specs) (front digits : Str) : Str :=
  if s.zeroFlag then front ++ List.replicate (fillCount s (front ++ digits).length) '0' ++ digits
  else padded .right s (front ++ digits)

/-- An integer. -/
def intText (s : Specs) (n : Int) : Str :=
  if s.type = 'c' then padded .left s [Char.ofNat (n % 256).toNat]
  else paddedNumber s (signOf s (n < 0) ++ prefixOf s n) (numeral (s.type == 'X') (baseOf s.type) n.natAbs)

/-- A string. -/
def strText (s : Specs) (str : Str) : Str :=
  if s.type = '?' then padded .left s (quoted '"' str)
  else padded .left s (if 0 ≤ s.precision then str.take s.precision.toNat else str)

/-- A truth value. -/
def boolText (s : Specs) (b : Bool) : Str :=
  if s.type = noChar ∨ s.type = 's' then padded .left s (if b then "true".toList else "false".toList)
  else intText s (if b then 1 else 0)

/-- A character. -/
def charText (s : Specs) (c : Char) : Str :=
  if s.type = '?' then padded .left s (quoted '\'' [c])
  else if s.type = noChar ∨ s.type = 'c' then padded .left s [c]
  else intText s c.toNat

/-- A pointer. -/
def ptrText (s : Specs) (addr : Nat) : Str := padded .right s (['0', 'x'] ++ numeral false 16 addr)

example : intText { fill := '*', align := .center, alternateForm := true, width := 10, type := 'X' } (-255) =
    "**-0XFF***".toList := by decide +kernel

example : intText { fill := '0', align := .right, sign := '+', zeroFlag := true, width := 6 } 42 = "+00042".toList := by
  decide +kernel

end Emio.Spec
