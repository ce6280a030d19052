import Verif.Model.FormatSpecs
import Verif.Spec.Numeral
/-
Specification of the text of a format specification:
`[[fill]align][sign]["#"]["0"][width]["." precision][type]`.
-/
namespace Emio.Spec

/-- The parts of a format specification. -/
structure SpecText where
  fill : Option Char := none
  align : Option Char := none
  sign : Option Char := none
  alt : Bool := false
  zero : Bool := false
  /-- Decimal digits, possibly none. -/
  width : Str := []
  /-- Decimal digits behind the dot. -/
  prec : Option Str := none
  type : Option Char := none

namespace SpecText

/-- The specification as written. -/
def text (t : SpecText) : Str :=
  t.fill.toList ++ t.align.toList ++ t.sign.toList ++ (if t.alt then ['#'] else []) ++ (if t.zero then ['0'] else []) ++
    t.width ++ (match t.prec with | some p => '.' :: p | none => []) ++ t.type.toList

/-- The grammar. -/
structure WellFormed (t : SpecText) : Prop where
  fill : ∀ c ∈ t.fill, t.align.isSome ∧ c ≠ '{' ∧ c ≠ '}'
  align : ∀ c ∈ t.align, c ∈ ['<', '^', '>']
  sign : ∀ c ∈ t.sign, c ∈ ['+', '-', ' ']
  width : ∀ c ∈ t.width, c.isDigit
  /-- A leading zero is the zero flag. -/
  widthHead : t.zero = false → t.width.head? ≠ some '0'
  prec : ∀ p ∈ t.prec, p ≠ [] ∧ ∀ c ∈ p, c.isDigit
  type : ∀ c ∈ t.type, c.isAlpha ∨ c = '?'

/-- The width, 0 if there is none. -/
def widthValue (t : SpecText) : Nat := numeralValue 10 t.width

/-- The precision, -1 if there is none. -/
def precValue (t : SpecText) : Int :=
  match t.prec with
  | some p => numeralValue 10 p
  | none => -1

/-- Width and precision are `int32_t` values. -/
def Fits (t : SpecText) : Prop := t.widthValue < 2 ^ 31 ∧ t.precValue < 2 ^ 31

/-- Alignment character. -/
def alignment : Option Char → Align
  | some '<' => .left
  | some '^' => .center
  | some '>' => .right
  | _ => .none

/-- What the specification asks for.  The zero flag is ignored if there is an alignment. -/
def meaning (t : SpecText) : Specs where
  fill := if t.align.isSome then t.fill.getD ' ' else if t.zero then '0' else ' '
  align := if t.align.isSome then alignment t.align else if t.zero then .right else .none
  sign := t.sign.getD (Char.ofNat 0)
  alternateForm := t.alt
  zeroFlag := t.zero && !t.align.isSome
  width := t.widthValue
  precision := t.precValue
  type := t.type.getD (Char.ofNat 0)

end SpecText

/-- `"*^+#10.3x"`. -/
example : ({ fill := '*', align := '^', sign := '+', alt := true, width := ['1', '0'], prec := some ['3'],
             type := 'x' } : SpecText).text = "*^+#10.3x".toList := rfl

end Emio.Spec
