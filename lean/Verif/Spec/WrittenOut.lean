import Verif.Spec.Template
/-
Specification: what is meant if a part of a format specification is left out.
-/
namespace Emio.Spec

/-- The presentation type that is meant if none is given.  (Floating-point numbers have none for what `{}` does.) -/
def usualType : CoreTy → Option Char
  | .int _ => some 'd'
  | .bool => some 's'
  | .char => some 'c'
  | .pointer => some 'p'
  | .string => some 's'
  | .double => none

/-- Numbers are written to the right, everything else to the left. -/
def usualAlign : CoreTy → Option Char → Char
  | .int _, type => if type = some 'c' then '<' else '>'
  | .bool, type => if type = none ∨ type = some 's' ∨ type = some 'c' then '<' else '>'
  | .char, type => if type = none ∨ type = some 'c' ∨ type = some '?' then '<' else '>'
  | .pointer, _ => '>'
  | .double, _ => '>'
  | .string, _ => '<'

/-- Only negative numbers have a sign.  (A sign can only be given for numbers that may be negative, and, needlessly, for
truth values and for numbers of characters.) -/
def usualSign : CoreTy → Option Char → Option Char
  | .int t, _ => if t.signed then some '-' else none
  | .bool, _ => some '-'
  | .char, type => if type = none ∨ type = some 'c' ∨ type = some '?' then none else some '-'
  | .double, _ => some '-'
  | _, _ => none

/-- Six digits. -/
def usualPrecision : CoreTy → Option Char → Option Str
  | .double, some _ => some ['6']
  | _, _ => none

/-- The specification with everything written out that is not: fill, alignment, sign, precision and type.  A zero that is
overridden by an alignment is left out. -/
def SpecText.writtenOut (ty : CoreTy) (sp : SpecText) : SpecText where
  fill := if sp.align.isSome then some (sp.fill.getD ' ') else if sp.zero then none else some ' '
  align := if sp.align.isSome then sp.align else if sp.zero then none else some (usualAlign ty sp.type)
  sign := sp.sign.orElse fun _ => usualSign ty sp.type
  alt := sp.alt
  zero := sp.zero && sp.align.isNone
  width := if sp.align.isSome then sp.width.dropWhile (· == '0') else sp.width
  prec := sp.prec.orElse fun _ => usualPrecision ty sp.type
  type := sp.type.orElse fun _ => usualType ty

example : (SpecText.writtenOut (.int i32) {}).text = " >-d".toList ∧
    (SpecText.writtenOut (.int i32) { zero := true, width := ['7'], type := 'x' }).text = "-07x".toList ∧
    (SpecText.writtenOut .string { width := ['7'], prec := some ['3'] }).text = " <7.3s".toList ∧
    (SpecText.writtenOut .double { align := '^', zero := true, width := "07".toList, type := 'e' }).text = " ^-7.6e".toList := by
  decide +kernel

end Emio.Spec
