import Verif.Model.FormatSpecs
import Verif.Model.Writer
import Verif.Model.Dragon
/-
Model of the functions of include/emio/detail/format/formatter.hpp that write arguments.

A formatter writes through a `writer` and returns the first error of the writer.  The functions here only depend on
the writer through that, so they are modelled as producing the list of calls they make; `Verif/Model/Writer.lean` performs
such a list on a buffer.  The state of the monad is the list of calls made so far.
-/
namespace Emio

/-- A function that writes (the functions with a parameter `writer& out`, detail/format/formatter.hpp:38-535). -/
abbrev Fmt := M (List WOp)

/-- Make a call (`out.write_…`, detail/format/formatter.hpp:38-535). -/
def emit (op : WOp) : Fmt Unit := M.modify (· ++ [op])

/-- Undefined behaviour and termination inside of a formatter (detail/format/formatter.hpp:415-534). -/
def liftPure {α : Type} (m : Pure' α) : Fmt α := fun ops =>
  match m () with
  | .ok _ a => .ok ops a
  | .err _ e => .err ops e
  | .bad b => .bad b

/-- `write_padding_left` (detail/format/formatter.hpp:38-53); result: the new `specs.width`.  `static_cast<int>(width)` is
modular, an
overflow of the subtraction is undefined. -/
def writePaddingLeft (s : Specs) (width : Nat) : Fmt Int :=
  let w := toInt32 width
  if s.width = 0 ∨ s.width < w then pure 0
  else
    let fill := s.width - w
    if fill > int32Max then M.bad .ub
    else if s.align = .left then pure fill
    else
      let fill := if s.align = .center then fill / 2 else fill
      do
        emit (.charN s.fill fill.toNat)
        return s.width - (fill + w)

/-- `write_padding_right` (detail/format/formatter.hpp:55-60). -/
def writePaddingRight (s : Specs) : Fmt Unit :=
  if s.width = 0 ∨ (s.align ≠ .left ∧ s.align ≠ .center) then pure ()
  else emit (.charN s.fill s.width.toNat)

/-- `write_padded` (detail/format/formatter.hpp:62-70). -/
def writePadded (dflt : Align) (s : Specs) (width : Nat) (func : Fmt Unit) : Fmt Unit := do
  let s := if s.align = .none then { s with align := dflt } else s
  let w ← writePaddingLeft s width
  func
  writePaddingRight { s with width := w }

/-- The options of `make_write_int_options` (detail/format/formatter.hpp:72-108): prefix, base, upper case. -/
def makeWriteIntOptions (type : Char) : Fmt (Str × Nat × Bool) :=
  if type = noChar ∨ type = 'd' then pure ([], 10, false)
  else if type = 'x' then pure (['0', 'x'], 16, false)
  else if type = 'X' then pure (['0', 'X'], 16, true)
  else if type = 'b' then pure (['0', 'b'], 2, false)
  else if type = 'B' then pure (['0', 'B'], 2, false)
  else if type = 'o' then pure (['0'], 8, false)
  else M.throw .invalidFormat

/-- `try_write_sign` (detail/format/formatter.hpp:110-122). -/
def tryWriteSign (s : Specs) (negative : Bool) : Fmt Char :=
  let sign := if negative then '-' else if s.sign = '+' ∨ s.sign = ' ' then s.sign else noChar
  if sign ≠ noChar ∧ s.zeroFlag = true then do
    emit (.char sign)
    return noChar
  else return sign

/-- `try_write_prefix` (detail/format/formatter.hpp:124-135). -/
def tryWritePrefix (s : Specs) (pfx : Str) : Fmt Str :=
  let write := s.alternateForm && decide (pfx ≠ [])
  if write && s.zeroFlag then do
    emit (.str pfx)
    return []
  else if write then return pfx
  else return []

/-- A sign as text (detail/format/formatter.hpp:110-122). -/
def signText (c : Char) : Str := if c ≠ noChar then [c] else []

/-- `write_arg` for integers (detail/format/formatter.hpp:137-179). -/
def writeArgInt (s : Specs) (t : IntTy) (arg : Int) : Fmt Unit :=
  if s.type = 'c' then writePadded .left s 1 (emit (.char (Char.ofNat (arg % 256).toNat)))
  else do
    let (pfx, base, upper) ← makeWriteIntOptions s.type
    let pfx := if s.type = 'o' ∧ arg = 0 then [] else pfx
    let abs := toAbsolute t arg
    let negative := t.signed && decide (arg < 0)
    let numDigits := getNumberOfDigits abs base
    let sign ← tryWriteSign s negative
    let pfx' ← tryWritePrefix s pfx
    let total := numDigits + (if s.alternateForm then pfx.length else 0) +
      (if negative || s.sign == ' ' || s.sign == '+' then 1 else 0)
    writePadded .right s total
      (emit (.area (numDigits + (if sign ≠ noChar then 1 else 0) + pfx'.length)
        (signText sign ++ pfx' ++ writeNumber abs base upper [])))

/-- `write_arg` for strings (detail/format/formatter.hpp:472-485).  `detail::write_str_escaped` with the size counted before is what
`writer::write_str_escaped` does. -/
def writeArgStr (s : Specs) (arg : Str) : Fmt Unit :=
  if s.type ≠ '?' then
    let arg := if s.precision ≥ 0 then arg.take s.precision.toNat else arg
    writePadded .left s arg.length (emit (.str arg))
  else writePadded .left s (countSizeWhenEscaped arg + 2) (emit (.strEscaped arg))

/-- `write_arg` for `char` (detail/format/formatter.hpp:487-502). -/
def writeArgChar (s : Specs) (arg : Char) : Fmt Unit :=
  if s.type ≠ noChar ∧ s.type ≠ 'c' ∧ s.type ≠ '?' then writeArgInt s u8 arg.toNat
  else if s.type ≠ '?' then writePadded .left s 1 (emit (.char arg))
  else writePadded .left s 3 (emit (.charEscaped arg))

/-- `write_arg` for pointers (detail/format/formatter.hpp:508-518); the null pointer is 0. -/
def writeArgPtr (s : Specs) (addr : Nat) : Fmt Unit :=
  writeArgInt { s with alternateForm := true, type := 'x' } u64 addr

/-- `write_arg` for `bool` (detail/format/formatter.hpp:520-535). -/
def writeArgBool (s : Specs) (arg : Bool) : Fmt Unit :=
  if s.type ≠ noChar ∧ s.type ≠ 's' then writeArgInt s u8 (if arg then 1 else 0)
  else if arg then writePadded .left s 4 (emit (.str ['t', 'r', 'u', 'e']))
  else writePadded .left s 5 (emit (.str ['f', 'a', 'l', 's', 'e']))

/-! ### Floating point -/

/-- `fp_format` (detail/format/formatter.hpp:191-196). -/
inductive FpFormat
  | general | exp | fixed | hex
  deriving DecidableEq, Repr

/-- `fp_format_specs` (detail/format/formatter.hpp:198-203). -/
structure FpSpecs where
  precision : Int
  format : FpFormat
  upper : Bool
  showpoint : Bool
  deriving DecidableEq, Repr

/-- `static_cast<int16_t>` (modular since C++20) (detail/format/formatter.hpp:211, detail/format/dragon.hpp:32). -/
def toInt16 (v : Int) : Int := (v + 32768) % 65536 - 32768

/-- `parse_fp_format_specs` (detail/format/formatter.hpp:205-231). -/
def parseFpSpecs (s : Specs) : FpSpecs :=
  let precision := if s.precision ≥ 0 ∨ s.type = noChar then toInt16 s.precision else 6
  let upper := s.type == 'E' || s.type == 'F' || s.type == 'G'
  let fp : FpSpecs :=
    if s.type = 'e' ∨ s.type = 'E' then
      { precision := toInt16 (precision + 1), format := .exp, upper := upper
        showpoint := s.alternateForm || decide (s.precision ≠ 0) }
    else if s.type = 'f' ∨ s.type = 'F' then
      { precision := precision, format := .fixed, upper := upper
        showpoint := s.alternateForm || decide (s.precision ≠ 0) }
    else if s.type = 'a' ∨ s.type = 'A' then
      { precision := precision, format := .hex, upper := upper, showpoint := s.alternateForm }
    else { precision := precision, format := .general, upper := upper, showpoint := s.alternateForm }
  if fp.format ≠ .fixed ∧ fp.precision = 0 then { fp with precision := 1 } else fp

/-- `copy_n(in + off, count, out)` (conversion.hpp:293-304): a negative count or reading beyond the end is undefined. -/
def copyN (input : Str) (off count : Int) : Pure' Str :=
  if count < 0 ∨ off < 0 ∨ off + count > input.length then M.bad .ub
  else pure ((input.drop off.toNat).take count.toNat)

/-- `fill_n(out, count, '0')` (conversion.hpp:280-291). -/
def fillZeros (count : Int) : Pure' Str :=
  if count < 0 then M.bad .ub else pure (List.replicate count.toNat '0')

/-- `write_significand` (detail/format/formatter.hpp:233-241). -/
def writeSignificand (sig : Str) (size integral : Int) (point : Bool) : Pure' Str := do
  let a ← copyN sig 0 integral
  if !point then return a
  else
    let b ← copyN sig integral (size - integral)
    return a ++ '.' :: b

/-- `write_exponent` (detail/format/formatter.hpp:243-260).  The exponent has at most three digits. -/
def writeExponent (exp : Int) : Str :=
  let sign := if exp < 0 then '-' else '+'
  let abs := exp.natAbs
  if abs ≥ 100 then sign :: writeDecimal abs []
  else if abs < 10 then sign :: '0' :: writeDecimal abs []
  else sign :: writeDecimal abs []

/-- Number of significant digits (detail/format/formatter.hpp:265,270-276): in general format trailing zeros are dropped. -/
def significandSize (fp : FpSpecs) (digits : Str) : Int :=
  if fp.format = .general ∧ (digits.length : Int) > 1 then
    digits.length - (digits.reverse.takeWhile (· == '0')).length
  else digits.length

/-- `use_exp_format` (detail/format/formatter.hpp:278-290). -/
def useExpFormat (fp : FpSpecs) (outputExp : Int) : Bool :=
  if fp.format = .exp then true
  else if fp.format ≠ .general then false
  else outputExp < -4 || outputExp ≥ (if fp.precision > 0 then fp.precision else 16)

/-- The branch of `write_decimal` for exponent notation (detail/format/formatter.hpp:299-329). -/
def writeDecimalExp (s : Specs) (fp : FpSpecs) (digits : Str) (outputExp : Int) (hasSign : Bool) (sign : Char) :
    Fmt Unit :=
  let size := significandSize fp digits
  let zeros := if fp.showpoint then (if fp.precision - size < 0 then 0 else fp.precision - size) else 0
  let point := !(!fp.showpoint && decide (size = 1))
  let expDigits := if outputExp.natAbs ≥ 100 then 3 else 2
  let numDigits := size.toNat + zeros.toNat + (if point then 1 else 0) + 2 + expDigits
  writePadded .right s ((if hasSign then 1 else 0) + numDigits) do
    let a ← liftPure (writeSignificand digits size 1 point)
    let z ← liftPure (fillZeros zeros)
    emit (.area (numDigits + (if sign ≠ noChar then 1 else 0))
      (signText sign ++ a ++ z ++ (if fp.upper then 'E' else 'e') :: writeExponent outputExp))

/-- Numbers of zeros and digits of `write_decimal` without exponent notation (detail/format/formatter.hpp:331-373). -/
structure FixedLayout where
  integral : Int := 0
  zeros : Int := 0
  zeros2 : Int := 0
  point : Bool := true
  numDigits : Int
  deriving DecidableEq, Repr

/-- The computation of the layout (detail/format/formatter.hpp:331-373). -/
def fixedLayout (s : Specs) (fp : FpSpecs) (size outputExp : Int) : FixedLayout :=
  let altGeneral := s.alternateForm && decide (fp.format = .general)
  let l : FixedLayout :=
    if outputExp < 0 then
      { zeros := outputExp.natAbs - 1
        zeros2 := if altGeneral then fp.precision - size else 0
        numDigits := size + 2 }
    else if outputExp + 1 ≥ size then
      let zeros := outputExp - size + 1
      if fp.showpoint then
        { integral := size, zeros := zeros
          zeros2 := if altGeneral then fp.precision - size - zeros else if zeros = 0 then fp.precision else 0
          numDigits := size + 1 }
      else { integral := size, zeros := zeros, point := false, numDigits := size }
    else
      let integral := outputExp + 1
      { integral := integral
        zeros :=
          if fp.format = .fixed ∧ size > integral ∧ size - integral < fp.precision then fp.precision - (size - integral)
          else if altGeneral then fp.precision - size else 0
        numDigits := size + 1 }
  let zeros := if l.zeros < 0 then 0 else l.zeros
  let zeros2 := if l.zeros2 < 0 then 0 else l.zeros2
  { l with zeros := zeros, zeros2 := zeros2, numDigits := l.numDigits + (zeros + zeros2) }

/-- The characters behind the sign (detail/format/formatter.hpp:383-407). -/
def fixedText (l : FixedLayout) (digits : Str) (size outputExp : Int) : Pure' Str := do
  if outputExp < 0 then
    if l.point then
      let z ← fillZeros l.zeros
      let d ← copyN digits 0 size
      let z2 ← fillZeros l.zeros2
      return '0' :: '.' :: (z ++ d ++ z2)
    else return ['0']
  else if outputExp + 1 ≥ size then
    let d ← copyN digits 0 l.integral
    let z ← fillZeros l.zeros
    if l.point then
      let z2 ← fillZeros l.zeros2
      return d ++ z ++ '.' :: z2
    else return d ++ z
  else
    let d ← writeSignificand digits size l.integral l.point
    let z ← fillZeros l.zeros
    return d ++ z

/-- The branch of `write_decimal` without exponent notation (detail/format/formatter.hpp:331-410). -/
def writeDecimalFixed (s : Specs) (fp : FpSpecs) (digits : Str) (outputExp : Int) (hasSign : Bool) (sign : Char) :
    Fmt Unit :=
  let size := significandSize fp digits
  let l := fixedLayout s fp size outputExp
  writePadded .right s ((if hasSign then 1 else 0) + l.numDigits.toNat) do
    let text ← liftPure (fixedText l digits size outputExp)
    emit (.area (l.numDigits.toNat + (if sign ≠ noChar then 1 else 0)) (signText sign ++ text))

/-- `write_decimal` (detail/format/formatter.hpp:262-411). -/
def writeDecimalFp (s : Specs) (fp : FpSpecs) (negative : Bool) (digits : Str) (exp : Int) : Fmt Unit := do
  let outputExp := exp - 1
  let hasSign := negative || s.sign == ' ' || s.sign == '+'
  let sign ← tryWriteSign s negative
  if useExpFormat fp outputExp then writeDecimalExp s fp digits outputExp hasSign sign
  else writeDecimalFixed s fp digits outputExp hasSign sign

/-- `format_decimal` (detail/format/formatter.hpp:415-439): digits and exponent. -/
def formatDecimal (fp : FpSpecs) (dec : Decoded) : Pure' (Str × Int) :=
  if dec.category = .zero then pure (['0'], 1)
  else
    match fp.format with
    | .general =>
      if fp.precision = noPrecision then formatShortest dec.finite
      else formatExact dec.finite .significandDigits fp.precision
    | .exp => formatExact dec.finite .significandDigits fp.precision
    | .fixed => do
      let (digits, exp) ← formatExact dec.finite .decimalPoint fp.precision
      if digits = [] then return (['0'], 1) else return (digits, exp)
    | .hex => M.bad .terminate

/-- `write_non_finite` (detail/format/formatter.hpp:181-188). -/
def writeNonFinite (upper isInf : Bool) : Fmt Unit :=
  if isInf then emit (.str (if upper then ['I', 'N', 'F'] else ['i', 'n', 'f']))
  else emit (.str (if upper then ['N', 'A', 'N'] else ['n', 'a', 'n']))

/-- `format_and_write_decimal` (detail/format/formatter.hpp:441-464). -/
def formatAndWriteDecimal (s : Specs) (dec : Decoded) : Fmt Unit :=
  let fp := parseFpSpecs s
  if dec.category = .infinity ∨ dec.category = .nan then
    let s := if s.zeroFlag then { s with fill := ' ', zeroFlag := false } else s
    do
      let sign ← tryWriteSign s dec.negative
      writePadded .left s (3 + (if sign ≠ noChar then 1 else 0)) do
        if sign ≠ noChar then emit (.char sign)
        writeNonFinite fp.upper (dec.category = .infinity)
  else do
    let (digits, exp) ← liftPure (formatDecimal fp dec)
    writeDecimalFp s fp dec.negative digits exp

/-- A value of a core type (detail/format/formatter.hpp:823-826). -/
inductive CoreArg
  | bool (b : Bool)
  | char (c : Char)
  | int (t : IntTy) (n : Int)
  /-- A double, given by its bits. -/
  | double (bits : Nat)
  | pointer (addr : Nat)
  | string (s : Str)
  deriving DecidableEq, Repr

/-- The type of a value (detail/format/formatter.hpp:823-826). -/
def CoreArg.ty : CoreArg → CoreTy
  | .bool _ => .bool
  | .char _ => .char
  | .int t _ => .int t
  | .double _ => .double
  | .pointer _ => .pointer
  | .string _ => .string

/-- `write_arg`, chosen by overload (detail/format/formatter.hpp:137-535; `formatter<T>::format`, emio/formatter.hpp:121-124). -/
def CoreArg.write (s : Specs) : CoreArg → Fmt Unit
  | .bool b => writeArgBool s b
  | .char c => writeArgChar s c
  | .int t n => writeArgInt s t n
  | .double bits => formatAndWriteDecimal s (decode bits)
  | .pointer addr => writeArgPtr s addr
  | .string str => writeArgStr s str

end Emio
