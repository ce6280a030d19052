import Verif.Spec.NotCut
import Verif.Spec.Argument
/- What is left of the fields of a format string in a buffer of fixed size. -/
namespace Emio.Spec

/-- The whole text. -/
def Parts.text (p : Parts) : Str := p.left ++ p.body ++ p.right

/-- A text that may be cut anywhere. -/
def Parts.Soft (p : Parts) : Prop := p.body = [] ∧ p.right = []

/-- The parts of an argument: of all numbers, also of truth values and characters shown as numbers, the number itself is
written at once; all other texts may be cut anywhere. -/
def PartsOf : CoreArg → Specs → Parts → Prop
  | .int _ n, s, p => p = intParts s n
  | .pointer addr, s, p => p = paddedParts .right s (['0', 'x'] ++ numeral false 16 addr)
  | .double bits, s, p =>
    if IsFinite bits then
      ∃ digits, p = numberParts s (signOf s (signBit bits)) digits ∧ (¬ LosesZero s bits → digits = finiteText s bits)
    else p.Soft
  | .bool b, s, p => if s.type = noChar ∨ s.type = 's' then p.Soft else p = intParts s (if b then 1 else 0)
  | .char c, s, p => if s.type = noChar ∨ s.type = 'c' ∨ s.type = '?' then p.Soft else p = intParts s c.toNat
  | .string _, _, p => p.Soft

/-- What is left of literal text before each field, the fields, and literal text at the end. -/
def keptFields (room : Nat) : List (Str × Parts) → Str → Str
  | [], last => last.take room
  | (lit, p) :: rest, last =>
    if room < lit.length then lit.take room
    else if room < lit.length + p.text.length then lit ++ p.kept (room - lit.length)
    else lit ++ p.text ++ keptFields (room - (lit.length + p.text.length)) rest last

end Emio.Spec
