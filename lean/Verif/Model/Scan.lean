import Verif.Model.Parser
/-
Model of include/emio/scan.hpp, include/emio/scanner.hpp and include/emio/detail/scan/*.hpp.
-/
namespace Emio

/-! ### Specifications -/

/-- `no_width` (detail/scan/specs.hpp:16). -/
def noWidth : Int := -1

/-- `format_specs` (detail/scan/specs.hpp:18-22). -/
structure ScanSpecs where
  alternateForm : Bool := false
  type : Char := noChar
  width : Int := noWidth
  deriving DecidableEq, Repr

namespace ScanValidate
open Reader

/-- Alternate form (detail/scan/scanner.hpp:249-252). -/
def alternate (s : ScanSpecs) (c : Char) : M Reader (ScanSpecs × Char) := do
  if c = '#' then
    let c' ← readChar
    return ({ s with alternateForm := true }, c')
  else return (s, c)

/-- Width (detail/scan/scanner.hpp:253-261). -/
def width (s : ScanSpecs) (c : Char) : M Reader (ScanSpecs × Char) := do
  if isDigit c then
    M.modify (·.unpop 1)
    let w ← parseInt u32 10
    if w = 0 ∨ w > int32Max then M.throw .invalidFormat
    else
      let c' ← readChar
      return ({ s with width := w }, c')
  else return (s, c)

/-- Type (detail/scan/scanner.hpp:262-265). -/
def type (s : ScanSpecs) (c : Char) : M Reader (ScanSpecs × Char) := do
  if isAlpha c then
    let c' ← readChar
    return ({ s with type := c }, c')
  else return (s, c)

end ScanValidate

/-- `validate_format_specs` (detail/scan/scanner.hpp:243-270). -/
def validateScanSpecs (s : ScanSpecs) : M Reader ScanSpecs := do
  let c ← Reader.readChar
  if c = '}' then return s
  else
    let (s, c) ← ScanValidate.alternate s c
    let (s, c) ← ScanValidate.width s c
    let (s, c) ← ScanValidate.type s c
    if c = '}' then return s else M.throw .invalidFormat

namespace ScanParse
open Reader

/-- Alternate form (detail/scan/scanner.hpp:278-281). -/
def alternate (s : ScanSpecs) (c : Char) : M Reader (ScanSpecs × Char) := do
  if c = '#' then
    let c' ← assumeValue readChar
    return ({ s with alternateForm := true }, c')
  else return (s, c)

/-- Width (detail/scan/scanner.hpp:282-286). -/
def width (s : ScanSpecs) (c : Char) : M Reader (ScanSpecs × Char) := do
  if isDigit c then
    M.modify (·.unpop 1)
    let w ← assumeValue (parseInt u32 10)
    let c' ← assumeValue readChar
    return ({ s with width := toInt32 w }, c')
  else return (s, c)

/-- Type (detail/scan/scanner.hpp:287-290); the closing brace is skipped without being looked at. -/
def type (s : ScanSpecs) (c : Char) : M Reader ScanSpecs := do
  if isAlpha c then
    M.modify (·.pop 1)
    return { s with type := c }
  else return s

end ScanParse

/-- `parse_format_specs` (detail/scan/scanner.hpp:272-292). -/
def parseScanSpecs (s : ScanSpecs) : M Reader ScanSpecs := do
  let c ← assumeValue Reader.readChar
  if c = '}' then return s
  else
    let (s, c) ← ScanParse.alternate s c
    let (s, c) ← ScanParse.width s c
    ScanParse.type s c

/-- `check_char_specs` (detail/scan/scanner.hpp:294-299). -/
def checkScanChar (s : ScanSpecs) : Bool :=
  !((s.type != noChar && s.type != 'c') || s.alternateForm || s.width > 1)

/-- `check_integral_specs` (detail/scan/scanner.hpp:301-312). -/
def checkScanInt (s : ScanSpecs) : Bool :=
  s.type == noChar || s.type == 'b' || s.type == 'd' || s.type == 'o' || s.type == 'x'

/-- `check_string_specs` (detail/scan/scanner.hpp:314-319). -/
def checkScanString (s : ScanSpecs) : Bool :=
  !((s.type != noChar && s.type != 's') || s.alternateForm)

/-! ### Variables -/

/-- The types with a scanner (emio/scanner.hpp:76-162): `char`, the integers, `std::string_view` and `std::string`. -/
inductive ScanTy
  | char
  | int (t : IntTy)
  | string
  deriving DecidableEq, Repr

/-- The content of a variable (`T& arg`, scanner.hpp:93, 111, 141, 157). -/
inductive ScanVal
  | char (c : Char)
  | int (v : Int)
  | str (s : Str)
  deriving DecidableEq, Repr

/-- What a scanner works on: the input and the variable (`reader& in, T& arg`, scanner.hpp:93, 111, 141, 157). -/
structure Slot where
  inp : Reader
  var : ScanVal
  deriving DecidableEq, Repr

/-! ### Integers -/

/-- `static_cast<size_t>` of an `int32_t` (detail/scan/scanner.hpp:96, 99, 129, 214). -/
def toSize (v : Int) : Nat := (v % (2 ^ 64 : Int)).toNat

/-- `disallow_sign` (detail/scan/scanner.hpp:23-29). -/
def disallowSign : M Reader Unit := do
  let c ← Reader.peek
  if c = '+' ∨ c = '-' then M.throw .invalidData else return ()

/-- `determine_base` (detail/scan/scanner.hpp:31-50).  The reader is passed by value. -/
def determineBase (r : Reader) : Run Unit Nat :=
  match Reader.readChar r with
  | .bad b => .bad b
  | .err _ e => .err () e
  | .ok r c =>
    if c ≠ '0' then .ok () 10
    else
      match Reader.readChar r with
      | .bad b => .bad b
      | .err _ _ => .ok () 10
      | .ok _ c =>
        if c = 'b' ∨ c = 'B' then .ok () 2
        else if c = 'x' ∨ c = 'X' then .ok () 16
        else .ok () 8

/-- `get_base` (detail/scan/scanner.hpp:52-67); other types are not reachable. -/
def getBase (type : Char) : Option Nat :=
  if type = 'b' then some 2
  else if type = 'o' then some 8
  else if type = 'd' ∨ type = noChar then some 10
  else if type = 'x' then some 16
  else none

/-- `parse_alternate_form` (detail/scan/scanner.hpp:69-89). -/
def parseAlternateForm (base : Nat) : M Reader Unit := do
  let _ ← Reader.readIfMatchChar '0'
  if base = 8 then return ()
  else
    let c ← Reader.readChar
    if base = 2 then
      if c = 'b' ∨ c = 'B' then return () else M.throw .invalidData
    else if c = 'x' ∨ c = 'X' then return () else M.throw .invalidData

/-- The base of the number; what stands for it is skipped (detail/scan/scanner.hpp:104-123). -/
def scanBase (s : ScanSpecs) : M Reader Nat := do
  if s.type = noChar ∧ s.alternateForm = true then
    let r ← M.get
    match determineBase r with
    | .bad b => M.bad b
    | .err _ e => M.throw e
    | .ok _ base =>
      if base ≠ 10 then
        M.modify (·.pop (if base = 8 then 1 else 2))
        disallowSign
        return base
      else return base
  else
    match getBase s.type with
    | none => M.bad .ub
    | some base =>
      if s.alternateForm = true ∧ base ≠ 10 then
        parseAlternateForm base
        disallowSign
        return base
      else return base

/-- Sign, base and number (detail/scan/scanner.hpp:102-124). -/
def scanNumber (t : IntTy) (s : ScanSpecs) : M Reader Int := do
  let neg ← Reader.parseSign
  let base ← scanBase s
  Reader.parseIntRaw t base neg

/-- The characters the number must be in (detail/scan/scanner.hpp:94-100): `subreader(0, width)`.
Simplification: without pointer arithmetic; see `window_is_subreader`. -/
def scanWindow (s : ScanSpecs) (r : Reader) : Run Unit Reader :=
  if s.width ≠ noWidth then
    if r.cntRemaining < toSize s.width then .err () .eof
    else .ok () (.ofStr (r.rest.take (toSize s.width)))
  else .ok () r

/-- `read_arg` for `int32_t`, `uint32_t`, `int64_t` and `uint64_t` (detail/scan/scanner.hpp:91-134). -/
def readInt (t : IntTy) (s : ScanSpecs) : M Slot Unit := fun st =>
  match scanWindow s st.inp with
  | .bad b => .bad b
  | .err _ e => .err st e
  | .ok _ r =>
    match scanNumber t s r with
    | .bad b => .bad b
    | .err _ e => .err st e
    | .ok r v =>
      let st := { st with var := .int v }
      if s.width ≠ noWidth then
        if !r.eof then .err st .invalidData
        else .ok { st with inp := st.inp.pop (toSize s.width) } ()
      else .ok { st with inp := r } ()

/-- `scanner<T>::scan` for an integral type (emio/scanner.hpp:93-95 for core types, emio/scanner.hpp:104-120 for others). -/
def readInteger (t : IntTy) (s : ScanSpecs) : M Slot Unit := fun st =>
  if t.upcast = t then readInt t s st
  else
    match readInt t.upcast s { st with var := .int 0 } with
    | .bad b => .bad b
    | .err st' e => .err { st with inp := st'.inp } e
    | .ok st' _ =>
      match st'.var with
      | .int v =>
        if v < t.min ∨ v > t.max then .err { st with inp := st'.inp } .outOfRange
        else .ok { st' with var := .int v } ()
      | _ => .bad .ub

/-! ### Characters and strings -/

/-- `read_arg` for `char` (detail/scan/scanner.hpp:136-141). -/
def readCharArg : M Slot Unit := fun st =>
  match Reader.readChar st.inp with
  | .bad b => .bad b
  | .err _ e => .err st e
  | .ok r c => .ok { inp := r, var := .char c } ()

/-- The next literal character of the format string, which starts with `x` (detail/scan/scanner.hpp:174-187): nothing
for reading beyond the end, then nothing at a replacement field, otherwise the character and what follows. -/
def nextLiteral (x : Char) (f : Str) : Option (Option (Char × Str)) :=
  if x = '{' then
    match f with
    | [] => none
    | d :: f' => if d ≠ '{' then some none else some (some (d, f'))
  else if x = '}' then
    match f with
    | [] => none
    | d :: f' => some (some (d, f'))
  else some (some (x, f))

/-- The loop of `read_string_complex` (detail/scan/scanner.hpp:166-196): `k` characters of the input were compared, the
last `m` of them matched.  The result is the length of the string. -/
def complexLoop (fmt : Str) : (inp f : Str) → (k m : Nat) → Run Unit Nat
  | _, [], k, m => .ok () (k - m)
  | [], _ :: _, _, _ => .err () .invalidData
  | c :: cs, x :: f, k, m =>
    match nextLiteral x f with
    | none => .bad .ub
    | some none => .ok () (k - m)
    | some (some (d, f')) =>
      if c = d then complexLoop fmt cs f' (k + 1) (m + 1)
      else complexLoop fmt cs fmt (k + 1) 0

/-- `read_string_complex` (detail/scan/scanner.hpp:143-201). -/
def readStringComplex (fmt : Str) : M Reader Str := fun r =>
  match complexLoop fmt r.rest fmt 0 0 with
  | .bad b => .bad b
  | .err _ e => .err r e
  | .ok _ n => .ok (r.pop n) (r.rest.take n)

/-- `read_string` (detail/scan/scanner.hpp:203-236) with the reader over the format string behind the field. -/
def readString (s : ScanSpecs) (fmt : Reader) : M Reader Str := fun r =>
  if s.width ≠ noWidth then Reader.readNChars (toSize s.width) r
  else
    match Reader.readUntilAnyOf "{}".toList { keepDelimiter := true } fmt with
    | .bad b => .bad b
    | .err _ _ => Reader.readRemaining r
    | .ok fmt lit =>
      match Reader.readChar fmt with
      | .bad b => .bad b
      | .err _ _ => Reader.readUntilStr lit { keepDelimiter := true } r
      | .ok fmt next =>
        match Reader.readChar fmt with
        | .bad b => .bad b
        | .err _ _ => .bad .ub
        | .ok fmt overNext =>
          if next = '{' ∧ overNext ≠ '{' then Reader.readUntilStr lit { keepDelimiter := true } r
          else readStringComplex (fmt.unpop 2).rest r

/-- `scanner<std::string_view>::scan` and `scanner<std::string>::scan` (emio/scanner.hpp:141-143, 157-162). -/
def readStringArg (s : ScanSpecs) (fmt : Reader) : M Slot Unit := fun st =>
  match readString s fmt st.inp with
  | .bad b => .bad b
  | .err r e => .err { st with inp := r } e
  | .ok r a => .ok { inp := r, var := .str a } ()

/-! ### Scanners -/

namespace ScanTy

/-- The check of the specification (scanner.hpp:76-87, 128-133). -/
def check : ScanTy → ScanSpecs → Bool
  | .char => checkScanChar
  | .int _ => checkScanInt
  | .string => checkScanString

/-- `scanner<T>::validate` (emio/scanner.hpp:76-87, 128-133). -/
def validate (ty : ScanTy) : M Reader Unit := do
  let s ← validateScanSpecs {}
  if ty.check s then return () else M.throw .invalidFormat

/-- `scanner<T>::scan` with the specification and the reader over the format string (scanner.hpp:93-100, 111-119,
141-162). -/
def scan : ScanTy → ScanSpecs → Reader → M Slot Unit
  | .char, _, _ => readCharArg
  | .int t, s, _ => readInteger t s
  | .string, s, fmt => readStringArg s fmt

/-- `scanner<T>::parse` (emio/scanner.hpp:89-91, 135-139) and what `scan` does afterwards. -/
def parse (ty : ScanTy) : M Reader (M Slot Unit) := do
  let s ← parseScanSpecs {}
  let fmt ← M.get
  return ty.scan s fmt

/-- The variable as the validation sees it (detail/scan/args.hpp:18-33); scan strings are never formatted. -/
def farg (ty : ScanTy) : FArg := ⟨ty.validate, M.bad .ub⟩

end ScanTy

/-! ### Scanning -/

/-- State of a scan run: the parser, the input and the variables (detail/parser.hpp:250-253,
detail/scan/parser.hpp:14-50). -/
structure SSt where
  p : PSt
  inp : Reader
  vars : List ScanVal
  deriving DecidableEq, Repr

/-- `scan_parser::process` (detail/scan/parser.hpp:25-27) for one piece after the other. -/
def matchAll : List Str → M Reader Unit
  | [] => return ()
  | p :: ps => do
    let _ ← Reader.readIfMatchStr p
    matchAll ps

/-- `parse` (detail/parser.hpp:117-164) with `scan_parser::process`.
Simplification: undefined behaviour behind a piece that does not match is reported as undefined behaviour. -/
def scanParse : M SSt Nat := fun s =>
  match Unchecked.scan [] s.p.rdr.rest 0 with
  | none => .bad .ub
  | some (n, field, pieces) =>
    let p := { s.p with rdr := { s.p.rdr with pos := s.p.rdr.pos + n } }
    match matchAll pieces s.inp with
    | .bad b => .bad b
    | .err r e => .err ⟨p, r, s.vars⟩ e
    | .ok r _ =>
      if !field then .ok ⟨p, r, s.vars⟩ noMoreArgs
      else
        match Unchecked.replacementField p with
        | .ok p k => .ok ⟨p, r, s.vars⟩ k
        | .err p e => .err ⟨p, r, s.vars⟩ e
        | .bad b => .bad b

/-- `process_arg` (detail/scan/args.hpp:35-39) for variable `n`. -/
def scanArg (n : Nat) (ty : ScanTy) : M SSt Unit := fun s =>
  match ty.parse s.p.rdr with
  | .bad b => .bad b
  | .err r e => .err { s with p := { s.p with rdr := r } } e
  | .ok r act =>
    match s.vars[n]? with
    | none => .bad .ub
    | some v =>
      match act ⟨s.inp, v⟩ with
      | .ok sl _ => .ok ⟨{ s.p with rdr := r }, sl.inp, s.vars.set n sl.var⟩ ()
      | .err sl e => .err ⟨{ s.p with rdr := r }, sl.inp, s.vars.set n sl.var⟩ e
      | .bad b => .bad b

/-- The loop of `parse` (detail/parser.hpp:250-267).  See `validateLoop` for `fuel`. -/
def scanLoop (tys : List ScanTy) : Nat → M SSt Unit
  | 0 => M.bad .diverge
  | fuel + 1 => do
    let n ← scanParse
    if n = noMoreArgs then return ()
    else
      match tys[n]? with
      | none => M.bad .ub
      | some ty =>
        scanArg n ty
        scanLoop tys fuel

/-- The input and the variables (detail/scan/scan_from.hpp:35-50). -/
structure ScanIO where
  inp : Reader
  vars : List ScanVal
  deriving DecidableEq, Repr

/-- `vscan_from` (detail/scan/scan_from.hpp:35-41). -/
def vscanFrom (vs : VStr) (tys : List ScanTy) : M ScanIO Unit := fun io =>
  match vs.str with
  | none => .err io .invalidFormat
  | some str =>
    if vs.plain then
      match Reader.readIfMatchStr str io.inp with
      | .ok r _ => .ok { io with inp := r } ()
      | .err r e => .err { io with inp := r } e
      | .bad b => .bad b
    else
      match scanLoop tys (str.length + 1) ⟨⟨Reader.ofStr str, none, 0⟩, io.inp, io.vars⟩ with
      | .ok s _ => .ok ⟨s.inp, s.vars⟩ ()
      | .err s e => .err ⟨s.inp, s.vars⟩ e
      | .bad b => .bad b

/-- `emio::scan_from(reader&, runtime string, args&...)` (scan.hpp:75-84). -/
def scanFrom (str : Str) (tys : List ScanTy) : M ScanIO Unit := fun io =>
  match VStr.make str (tys.map ScanTy.farg) with
  | .ok _ vs => vscanFrom vs tys io
  | .err _ e => .err io e
  | .bad b => .bad b

/-- `emio::scan(input, runtime string, args&...)` (scan.hpp:93-101): the variables. -/
def scanStr (input str : Str) (tys : List ScanTy) : M (List ScanVal) Unit := fun vars =>
  match scanFrom str tys ⟨Reader.ofStr input, vars⟩ with
  | .ok io _ => if io.inp.eof then .ok io.vars () else .err io.vars .invalidFormat
  | .err io e => .err io.vars e
  | .bad b => .bad b

/-! Examples. -/

example : scanStr "x=-42, y=abc;".toList "x={}, y={};".toList [.int i32, .string] [.int 0, .str []] =
    .ok [.int (-42), .str "abc".toList] () := by decide +kernel
example : scanStr "0x1f12zq".toList "{1:#}z{0}".toList [.char, .int i64] [.char 'a', .int 0] =
    .ok [.char 'q', .int 0x1f12] () := by decide +kernel
example : scanStr "1234".toList "{:2}{}".toList [.int u8, .int u16] [.int 0, .int 0] =
    .ok [.int 12, .int 34] () := by decide +kernel
/-- Defects: a literal with an escaped brace that does not come first; a restart that skips a character; a field behind
an escaped brace at the end of the input. -/
example : scanStr "xab{".toList "{}ab{{".toList [.string] [.str []] = .err [.str "xab".toList] .eof ∧
    scanStr "{{x".toList "{}{{x".toList [.string] [.str []] = .err [.str []] .invalidData ∧
    scanStr "a{".toList "{}{{{}".toList [.string, .string] [.str [], .str []] = .err [.str [], .str []] .invalidData ∧
    scanStr "ax".toList "{}x{}".toList [.string, .string] [.str [], .str []] = .ok [.str ['a'], .str []] () := by
  decide +kernel
example : scanStr "0,".toList "{:#},".toList [.int i32] [.int 7] = .err [.int 7] .invalidData ∧
    scanStr "0".toList "{:#o}".toList [.int i32] [.int 7] = .err [.int 7] .eof ∧
    scanStr "1x3".toList "{:3}".toList [.int i32] [.int 7] = .err [.int 1] .invalidData := by decide +kernel

end Emio
