import Verif.Model.Reader
/-
Model of include/emio/detail/format/specs.hpp and of the functions of include/emio/detail/format/formatter.hpp that read
and check format specifications.

`int32_t` members of the specification are integers.
-/
namespace Emio

/-- `alignment` (detail/format/specs.hpp:33). -/
inductive Align
  | none | left | center | right
  deriving DecidableEq, Repr

/-- `no_sign`, `no_type` (detail/format/specs.hpp:29,31). -/
def noChar : Char := Char.ofNat 0

/-- `no_precision` (detail/format/specs.hpp:30). -/
def noPrecision : Int := -1

/-- `format_specs` (detail/format/specs.hpp:35-44). -/
structure Specs where
  fill : Char := ' '
  align : Align := .none
  sign : Char := noChar
  alternateForm : Bool := false
  zeroFlag : Bool := false
  width : Int := 0
  precision : Int := noPrecision
  type : Char := noChar
  deriving DecidableEq, Repr

/-- `assume_value()` of a result: undefined behaviour if it is an error
(result.hpp:265-298). -/
def assumeValue {σ α : Type} (m : M σ α) : M σ α := fun s =>
  match m s with
  | .ok s' a => .ok s' a
  | .err _ _ => .bad .ub
  | .bad b => .bad b

/-- Tests `c == '<' || c == '^' || c == '>'` (detail/format/formatter.hpp:554,565). -/
def isAlignChar (c : Char) : Bool := c == '<' || c == '^' || c == '>'

/-- The alignment chosen by a character (detail/format/formatter.hpp:555-561,566-572). -/
def alignOf (c : Char) : Align :=
  if c == '<' then .left else if c == '^' then .center else .right

/-- Test `c == '+' || c == '-' || c == ' '` (detail/format/formatter.hpp:576). -/
def isSignChar (c : Char) : Bool := c == '+' || c == '-' || c == ' '

/-- `std::numeric_limits<int32_t>::max()` (detail/format/formatter.hpp:595, 607). -/
def int32Max : Int := 2147483647

/-- `static_cast<int32_t>` of a `uint32_t` (modular since C++20) (detail/format/formatter.hpp:598, 610, 672, 676). -/
def toInt32 (v : Int) : Int := (v + 2147483648) % 4294967296 - 2147483648

/-! ### `validate_format_specs` (detail/format/formatter.hpp:542-621), one definition per step -/

namespace Validate
open Reader

/-- Alignment (detail/format/formatter.hpp:551-575). -/
def align (s : Specs) (c : Char) : M Reader (Specs × Char) := do
  let c2 ← peek
  if isAlignChar c2 then
    M.modify (·.pop 1)
    let c' ← readChar
    return ({ s with align := alignOf c2, fill := c }, c')
  else if isAlignChar c then
    let c' ← readChar
    return ({ s with align := alignOf c }, c')
  else return (s, c)

/-- Sign (detail/format/formatter.hpp:576-579). -/
def sign (s : Specs) (c : Char) : M Reader (Specs × Char) := do
  if isSignChar c then
    let c' ← readChar
    return ({ s with sign := c }, c')
  else return (s, c)

/-- Alternate form (detail/format/formatter.hpp:580-583). -/
def alternate (s : Specs) (c : Char) : M Reader (Specs × Char) := do
  if c = '#' then
    let c' ← readChar
    return ({ s with alternateForm := true }, c')
  else return (s, c)

/-- Zero flag (detail/format/formatter.hpp:584-591). -/
def zero (s : Specs) (c : Char) : M Reader (Specs × Char) := do
  if c = '0' then
    let c' ← readChar
    return (if s.align = .none then { s with fill := '0', align := .right, zeroFlag := true } else s, c')
  else return (s, c)

/-- Width (detail/format/formatter.hpp:592-600). -/
def width (s : Specs) (c : Char) : M Reader (Specs × Char) := do
  if isDigit c then
    M.modify (·.unpop 1)
    let w ← parseInt u32 10
    if w > int32Max then M.throw .invalidFormat
    else
      let c' ← readChar
      return ({ s with width := w }, c')
  else return (s, c)

/-- Test of the character behind the dot (detail/format/formatter.hpp:602-605): there is one and it is no digit. -/
def noDigitNext (r : Reader) : Bool :=
  match peek r with
  | .ok _ c => !isDigit c
  | _ => false

/-- Precision (detail/format/formatter.hpp:601-612). -/
def precision (s : Specs) (c : Char) : M Reader (Specs × Char) := do
  if c = '.' then
    let r ← M.get
    if noDigitNext r then M.throw .invalidFormat
    else
      let p ← parseInt u32 10
      if p > int32Max then M.throw .invalidFormat
      else
        let c' ← readChar
        return ({ s with precision := p }, c')
  else return (s, c)

/-- Type (detail/format/formatter.hpp:613-616). -/
def type (s : Specs) (c : Char) : M Reader (Specs × Char) := do
  if isAlpha c || c == '?' then
    let c' ← readChar
    return ({ s with type := c }, c')
  else return (s, c)

/-- The steps behind the first character (detail/format/formatter.hpp:551-620). -/
def steps (s : Specs) (c : Char) : M Reader Specs := do
  let (s, c) ← align s c
  let (s, c) ← sign s c
  let (s, c) ← alternate s c
  let (s, c) ← zero s c
  let (s, c) ← width s c
  let (s, c) ← precision s c
  let (s, c) ← type s c
  if c = '}' then return s else M.throw .invalidFormat

end Validate

/-- `validate_format_specs` (detail/format/formatter.hpp:542-621). -/
def validateFormatSpecs (s : Specs) : M Reader Specs := do
  let c ← Reader.readChar
  if c = '}' then return s
  else if c = '{' then M.throw .invalidFormat
  else Validate.steps s c

/-! ### `parse_format_specs` (detail/format/formatter.hpp:623-684), one definition per step -/

namespace Parse
open Reader

/-- Alignment (detail/format/formatter.hpp:629-653). -/
def align (s : Specs) (c : Char) : M Reader (Specs × Char) := do
  let c2 ← assumeValue peek
  if isAlignChar c2 then
    M.modify (·.pop 1)
    let c' ← assumeValue readChar
    return ({ s with align := alignOf c2, fill := c }, c')
  else if isAlignChar c then
    let c' ← assumeValue readChar
    return ({ s with align := alignOf c }, c')
  else return (s, c)

/-- Sign (detail/format/formatter.hpp:654-657). -/
def sign (s : Specs) (c : Char) : M Reader (Specs × Char) := do
  if isSignChar c then
    let c' ← assumeValue readChar
    return ({ s with sign := c }, c')
  else return (s, c)

/-- Alternate form (detail/format/formatter.hpp:658-661). -/
def alternate (s : Specs) (c : Char) : M Reader (Specs × Char) := do
  if c = '#' then
    let c' ← assumeValue readChar
    return ({ s with alternateForm := true }, c')
  else return (s, c)

/-- Zero flag (detail/format/formatter.hpp:662-669). -/
def zero (s : Specs) (c : Char) : M Reader (Specs × Char) := do
  if c = '0' then
    let c' ← assumeValue readChar
    return (if s.align = .none then { s with fill := '0', align := .right, zeroFlag := true } else s, c')
  else return (s, c)

/-- Width (detail/format/formatter.hpp:670-674). -/
def width (s : Specs) (c : Char) : M Reader (Specs × Char) := do
  if isDigit c then
    M.modify (·.unpop 1)
    let w ← assumeValue (parseInt u32 10)
    let c' ← assumeValue readChar
    return ({ s with width := toInt32 w }, c')
  else return (s, c)

/-- Precision (detail/format/formatter.hpp:675-678). -/
def precision (s : Specs) (c : Char) : M Reader (Specs × Char) := do
  if c = '.' then
    let p ← assumeValue (parseInt u32 10)
    let c' ← assumeValue readChar
    return ({ s with precision := toInt32 p }, c')
  else return (s, c)

/-- Type (detail/format/formatter.hpp:679-683); the closing brace is skipped without being looked at. -/
def type (s : Specs) (c : Char) : M Reader Specs := do
  if isAlpha c || c == '?' then
    M.modify (·.pop 1)
    return { s with type := c }
  else return s

end Parse

/-- `parse_format_specs` (detail/format/formatter.hpp:623-684). -/
def parseFormatSpecs (s : Specs) : M Reader Specs := do
  let c ← assumeValue Reader.readChar
  if c = '}' then return s
  else
    let (s, c) ← Parse.align s c
    let (s, c) ← Parse.sign s c
    let (s, c) ← Parse.alternate s c
    let (s, c) ← Parse.zero s c
    let (s, c) ← Parse.width s c
    let (s, c) ← Parse.precision s c
    Parse.type s c

/-! ### Checks (detail/format/formatter.hpp:686-771) -/

/-- `check_integral_specs` (detail/format/formatter.hpp:686-704). -/
def checkIntegralSpecs (s : Specs) : Bool :=
  s.precision == noPrecision &&
    (s.type == noChar || s.type == 'd' || s.type == 'x' || s.type == 'X' || s.type == 'b' || s.type == 'B' ||
      s.type == 'c' || s.type == 'o' || s.type == 'O')

/-- `check_unsigned_specs` (detail/format/formatter.hpp:706-711). -/
def checkUnsignedSpecs (s : Specs) : Bool := s.sign == noChar

/-- `check_bool_specs` (detail/format/formatter.hpp:713-721). -/
def checkBoolSpecs (s : Specs) : Bool :=
  if s.type ≠ noChar ∧ s.type ≠ 's' then checkIntegralSpecs s else s.precision == noPrecision

/-- `check_char_specs` (detail/format/formatter.hpp:723-731). -/
def checkCharSpecs (s : Specs) : Bool :=
  if s.type ≠ noChar ∧ s.type ≠ 'c' ∧ s.type ≠ '?' then checkIntegralSpecs s
  else !(s.alternateForm || s.sign != noChar || s.zeroFlag || s.precision != noPrecision)

/-- `check_pointer_specs` (detail/format/formatter.hpp:733-741). -/
def checkPointerSpecs (s : Specs) : Bool :=
  if s.type ≠ noChar ∧ s.type ≠ 'p' then false
  else !(s.alternateForm || s.sign != noChar || s.zeroFlag || s.precision != noPrecision)

/-- `check_floating_point_specs` (detail/format/formatter.hpp:743-762). -/
def checkFloatingPointSpecs (s : Specs) : Bool :=
  !(s.precision > 1100) &&
    (s.type == noChar || s.type == 'f' || s.type == 'F' || s.type == 'e' || s.type == 'E' || s.type == 'g' ||
      s.type == 'G')

/-- `check_string_specs` (detail/format/formatter.hpp:764-771). -/
def checkStringSpecs (s : Specs) : Bool :=
  !(s.alternateForm || s.sign != noChar || s.zeroFlag ||
    (s.precision != noPrecision && s.type == '?') ||
    (s.type != noChar && s.type != 's' && s.type != '?'))

/-- The core types (`is_core_type_v`, detail/format/formatter.hpp:822-826), i.e. what other types are unified to. -/
inductive CoreTy
  | bool | char | int (t : IntTy) | double | pointer | string
  deriving DecidableEq, Repr

/-- The check `formatter<T>::validate` performs on the specification (include/emio/formatter.hpp:96-114). -/
def CoreTy.check : CoreTy → Specs → Bool
  | .bool, s => checkBoolSpecs s
  | .char, s => checkCharSpecs s
  | .pointer, s => checkPointerSpecs s
  | .int t, s => checkIntegralSpecs s && (t.signed || checkUnsignedSpecs s)
  | .double, s => checkFloatingPointSpecs s
  | .string, s => checkStringSpecs s

/-- `formatter<T>::validate` for a core type (include/emio/formatter.hpp:93-115). -/
def CoreTy.validate (t : CoreTy) : M Reader Unit := do
  let s ← validateFormatSpecs {}
  if t.check s then return () else M.throw .invalidFormat

end Emio
