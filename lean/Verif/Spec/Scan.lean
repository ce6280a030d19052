import Verif.Model.Scan
import Verif.Spec.FormatString
import Verif.Spec.Reader
/-
Specification of scan strings: `["#"][width][type]` behind the colon of a replacement field, the texts of numbers, and
what the fields of a scan string read.
-/
namespace Emio.Spec

/-! ### Specifications -/

/-- The parts of a specification. -/
structure ScanSpec where
  alt : Bool := false
  /-- Decimal digits, possibly none. -/
  width : Str := []
  type : Option Char := none

namespace ScanSpec

/-- The specification as written. -/
def text (t : ScanSpec) : Str := (if t.alt then ['#'] else []) ++ t.width ++ t.type.toList

/-- The grammar. -/
structure WellFormed (t : ScanSpec) : Prop where
  width : ∀ c ∈ t.width, c.isDigit
  type : ∀ c ∈ t.type, c.isAlpha

/-- The number of characters to be read, if it is given. -/
def size (t : ScanSpec) : Option Nat := if t.width = [] then none else some (numeralValue 10 t.width)

/-- At least one character, and an `int32_t` value. -/
def Fits (t : ScanSpec) : Prop := ∀ w ∈ t.size, 1 ≤ w ∧ w < 2 ^ 31

/-- What the specification asks for. -/
def meaning (t : ScanSpec) : ScanSpecs where
  alternateForm := t.alt
  type := t.type.getD (Char.ofNat 0)
  width := match t.size with | some w => w | none => -1

end ScanSpec

/-- The specifications a type allows. -/
def ScanTy.Allows : ScanTy → ScanSpec → Prop
  | .char, t => t.alt = false ∧ (∀ w ∈ t.size, w = 1) ∧ ∀ c ∈ t.type, c = 'c'
  | .int _, t => ∀ c ∈ t.type, c ∈ ['b', 'd', 'o', 'x']
  | .string, t => t.alt = false ∧ ∀ c ∈ t.type, c = 's'

/-! ### Numbers -/

/-- The text of a number: sign, a mark of the base (`0x`, `0b`, `0` or nothing) and digits. -/
structure Number where
  sign : Sign
  mark : Str
  base : Nat
  digits : Str

/-- The number as written. -/
def Number.text (n : Number) : Str := n.sign.text ++ n.mark ++ n.digits

/-- The number. -/
def Number.value (n : Number) : Int := n.sign.apply (numeralValue n.base n.digits)

/-- The marks of the bases. -/
def marks (b : Nat) : List Str :=
  if b = 2 then [['0', 'b'], ['0', 'B']] else if b = 8 then [['0']] else if b = 16 then [['0', 'x'], ['0', 'X']] else [[]]

/-- The base of a presentation type. -/
def typeBase : Option Char → Nat
  | some 'b' => 2
  | some 'o' => 8
  | some 'x' => 16
  | _ => 10

/-- The base and its mark are those the specification asks for: `#` without a type stands for any base; with `#` the
mark of the base is required. -/
def ScanSpec.Base (t : ScanSpec) (b : Nat) (mark : Str) : Prop :=
  if t.type = none ∧ t.alt = true then b ∈ [2, 8, 10, 16] ∧ mark ∈ marks b
  else b = typeBase t.type ∧ if t.alt then mark ∈ marks b else mark = []

/-- No more than `k` characters in a row that could be digits of a base up to `B`. -/
def ShortRuns (B k : Nat) (s : Str) : Prop := ∀ run : Str, run <:+: s → (∀ c ∈ run, digitLike B c = true) → run.length ≤ k

/-! ### Scan strings -/

/-- A replacement field: an argument number or nothing, and a specification or nothing. -/
structure ScanHole where
  idx : Str := []
  spec : Option ScanSpec := none

/-- A replacement field `{idx}` or `{idx:spec}`. -/
def ScanHole.field (h : ScanHole) : Field where
  idx := h.idx
  colon := h.spec.isSome
  body := (match h.spec with | some t => t.text | none => []) ++ ['}']

/-- The specification of a field. -/
def ScanHole.sp (h : ScanHole) : ScanSpec := h.spec.getD {}

/-- Literal text before each replacement field, and literal text at the end. -/
structure ScanTemplate where
  segs : List (Str × ScanHole)
  last : Str

namespace ScanTemplate

/-- The template in terms of fields. -/
def format (t : ScanTemplate) : FormatText := ⟨t.segs.map fun s => (s.1, s.2.field), t.last⟩

/-- The template as written. -/
def text (t : ScanTemplate) : Str := t.format.text

/-- The template can be used with variables of these types. -/
structure Suits (t : ScanTemplate) (tys : List ScanTy) : Prop where
  number : tys.length ≤ 128
  digits : ∀ s ∈ t.segs, ∀ c ∈ s.2.idx, c.isDigit
  grammar : ∀ s ∈ t.segs, s.2.sp.WellFormed ∧ s.2.sp.Fits
  /-- Numbers are given always or never. -/
  mode : t.format.Automatic ∨ t.format.Explicit
  /-- Exactly the variables there are. -/
  arguments : ∀ k, k ∈ t.format.arguments ↔ k < tys.length
  /-- Every field refers to a variable whose type allows the specification. -/
  allowed : ∀ x ∈ t.format.arguments.zip t.segs, ∃ ty, tys[x.1]? = some ty ∧ ScanTy.Allows ty x.2.2.sp

/-- The input that is read, given the piece of each field. -/
def input (t : ScanTemplate) (pieces : List Str) : Str := t.format.output pieces

end ScanTemplate

/-- What a field reads: the type of the variable, the specification, the piece of the input, the value the variable
gets, and the rest of the input.  Integers: the digits may contain `:` to `@` in base 16, and numbers outside of the range
of the (at least 32 bit wide) type are not read as themselves, see C01 and C03. -/
def Accepts (ty : ScanTy) (sp : ScanSpec) (piece : Str) (v : ScanVal) (rest : Str) : Prop :=
  match ty with
  | .char => ∃ c, piece = [c] ∧ v = .char c
  | .string => v = .str piece ∧ ∀ w ∈ sp.size, piece.length = w
  | .int t => ∃ (n : Number) (x : Int), piece = n.text ∧ sp.Base n.base n.mark ∧ n.digits ≠ [] ∧
      (∀ c ∈ n.digits, digitLike n.base c = true) ∧ (∀ w ∈ sp.size, piece.length = w) ∧
      (sp.size = none → ∀ c ∈ rest.head?, digitLike n.base c = false) ∧ v = .int x ∧ t.Holds x ∧
      (IsNumeral n.base n.digits → t.upcast.Holds n.value → x = n.value)

/-- The literal text behind a field. -/
def following (last : Str) : List (Str × ScanHole) → Str
  | [] => last
  | (lit, _) :: _ => lit

/-- The first occurrence of `lit` in `piece ++ lit` is the last one. -/
def EndsBefore (piece lit : Str) : Prop := ∀ j < piece.length, ¬ lit <+: (piece ++ lit).drop j

/-- `Scans tys last tail i segs input fields rest`: literal text and fields, one after the other, make up the input, up to
`rest`.  `fields` are the piece of each field, the number of its variable, and the value of the variable.  `tail` is text at
the end of the scan string that is ignored.  A field for a string without width takes everything if nothing follows in the
scan string, and otherwise ends at the first occurrence of the literal text behind the field, provided that there is no
brace in it. -/
inductive Scans (tys : List ScanTy) (last tail : Str) :
    Nat → List (Str × ScanHole) → Str → List (Str × Nat × ScanVal) → Str → Prop
  | done (i : Nat) (rest : Str) : Scans tys last tail i [] (last ++ rest) [] rest
  | field {i : Nat} {lit : Str} {h : ScanHole} {segs : List (Str × ScanHole)} {ty : ScanTy} {piece : Str} {v : ScanVal}
      {input : Str} {fields : List (Str × Nat × ScanVal)} {rest : Str} (type : tys[h.field.argument i]? = some ty)
      (accepts : Accepts ty h.sp piece v input)
      (all : ty = .string → h.sp.size = none → segs = [] → last = [] → tail = [] → input = [])
      (ends : ty = .string → h.sp.size = none → (segs ≠ [] ∨ last ≠ [] ∨ tail ≠ []) → '{' ∉ following last segs →
        '}' ∉ following last segs → EndsBefore piece (following last segs))
      (more : Scans tys last tail (i + 1) segs input fields rest) :
      Scans tys last tail i ((lit, h) :: segs) (lit ++ (piece ++ input)) ((piece, h.field.argument i, v) :: fields) rest

/-- A text for a value of the type that can be read back: the text, the value, the literal text behind the field, whether
anything follows in the scan string, and the rest of the input. -/
def Readable (ty : ScanTy) (sp : ScanSpec) (piece : Str) (v : ScanVal) (lit : Str) (atEnd : Prop) (rest : Str) : Prop :=
  match ty with
  | .char => ∃ c, piece = [c] ∧ v = .char c
  | .string => v = .str piece ∧ (∀ w ∈ sp.size, piece.length = w) ∧
      (sp.size = none → (atEnd → rest = []) ∧ (¬ atEnd → '{' ∉ lit ∧ '}' ∉ lit ∧ EndsBefore piece lit ∧ piece ++ rest ≠ []))
  | .int t => ∃ n : Number, piece = n.text ∧ v = .int n.value ∧ t.Std ∧ sp.Base n.base n.mark ∧ IsNumeral n.base n.digits ∧
      (∀ w ∈ sp.size, piece.length = w) ∧ (sp.size = none → ∀ c ∈ rest.head?, digitLike n.base c = false) ∧
      t.Holds n.value ∧ (t.signed = true ∨ n.sign ≠ .minus) ∧
      (sp.type = none → sp.alt = true → n.base = 10 →
        n.digits.head? ≠ some '0' ∨ (n.digits = ['0'] ∧ (sp.size = none → rest = [])))

/-- An input that can be read: as `Scans`, with texts that can be read back. -/
inductive Written (tys : List ScanTy) (last tail : Str) :
    Nat → List (Str × ScanHole) → Str → List (Str × Nat × ScanVal) → Str → Prop
  | done (i : Nat) (rest : Str) : Written tys last tail i [] (last ++ rest) [] rest
  | field {i : Nat} {lit : Str} {h : ScanHole} {segs : List (Str × ScanHole)} {ty : ScanTy} {piece : Str} {v : ScanVal}
      {input : Str} {fields : List (Str × Nat × ScanVal)} {rest : Str} (type : tys[h.field.argument i]? = some ty)
      (readable : Readable ty h.sp piece v (following last segs) (segs = [] ∧ last = [] ∧ tail = []) input)
      (more : Written tys last tail (i + 1) segs input fields rest) :
      Written tys last tail i ((lit, h) :: segs) (lit ++ (piece ++ input)) ((piece, h.field.argument i, v) :: fields) rest

/-- Store values one after the other: variable numbers and values. -/
def store (vars : List ScanVal) (new : List (Nat × ScanVal)) : List ScanVal :=
  new.foldl (fun vs x => vs.set x.1 x.2) vars

/-- `"x={:#4x};"` reads "x=0x1f;". -/
example : ScanTemplate.text ⟨[("x=".toList, ⟨[], some { alt := true, width := ['4'], type := 'x' }⟩)], [';']⟩ =
      "x={:#4x};".toList ∧
    ScanTemplate.input ⟨[("x=".toList, ⟨[], some { alt := true, width := ['4'], type := 'x' }⟩)], [';']⟩ ["0x1f".toList] =
      "x=0x1f;".toList ∧
    (Number.mk .none "0x".toList 16 "1f".toList).value = 31 := by decide +kernel

end Emio.Spec
