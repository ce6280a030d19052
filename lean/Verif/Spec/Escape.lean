import Verif.Spec.Numeral
/-
Specification: escaped text.  Independent of the model.
-/
namespace Emio.Spec

/-- Two lower-case hexadecimal digits. -/
def hex2 (n : Nat) : List Char := [symbol false (n / 16 % 16), symbol false (n % 16)]

/-- A character as it appears in escaped text: the five usual escapes, both quotes escaped, other printable ASCII
characters as they are, everything else as `\xHH`. -/
def escapeChar (c : Char) : List Char :=
  if c = '\n' then ['\\', 'n']
  else if c = '\r' then ['\\', 'r']
  else if c = '\t' then ['\\', 't']
  else if c = '\\' then ['\\', '\\']
  else if c = '\'' then ['\\', '\'']
  else if c = '"' then ['\\', '"']
  else if 0x20 ≤ c.toNat ∧ c.toNat < 0x7f then [c]
  else ['\\', 'x'] ++ hex2 c.toNat

/-- Escaped text. -/
def escape (s : List Char) : List Char := s.flatMap escapeChar

/-- Escaped text in quotes. -/
def quoted (quote : Char) (s : List Char) : List Char := [quote] ++ escape s ++ [quote]


end Emio.Spec
