import Verif.Spec.FormatString
import Verif.Spec.Argument
/-
Specification: format strings with format specifications, and what they are replaced by.
-/
namespace Emio.Spec

/-! ### Which specifications a type allows -/

/-- Presentation types of integers. -/
def integerTypes : List Char := ['d', 'x', 'X', 'b', 'B', 'c', 'o', 'O']

/-- No precision and an integer type. -/
def SpecText.ForInteger (t : SpecText) : Prop := t.prec = none ∧ ∀ c ∈ t.type, c ∈ integerTypes

/-- Nothing that makes sense for numbers only: no sign, no `#`, and no `0` (unless it is overridden by an alignment). -/
def SpecText.TextOnly (t : SpecText) : Prop := t.sign = none ∧ t.alt = false ∧ (t.zero = false ∨ t.align.isSome)

/-- The specifications a type allows. -/
def CoreTy.Allows : CoreTy → SpecText → Prop
  | .int ty, t => t.ForInteger ∧ (ty.signed = true ∨ t.sign = none)
  | .bool, t => t.prec = none ∧ ∀ c ∈ t.type, c = 's' ∨ c ∈ integerTypes
  | .char, t => t.prec = none ∧ ((t.TextOnly ∧ ∀ c ∈ t.type, c = 'c' ∨ c = '?') ∨
      ∃ c ∈ t.type, c ≠ 'c' ∧ c ∈ integerTypes)
  | .pointer, t => t.prec = none ∧ t.TextOnly ∧ ∀ c ∈ t.type, c = 'p'
  | .double, t => t.precValue ≤ 1100 ∧ ∀ c ∈ t.type, c ∈ ['f', 'F', 'e', 'E', 'g', 'G']
  | .string, t => t.TextOnly ∧ (∀ c ∈ t.type, c = 's' ∨ c = '?') ∧ (t.type = some '?' → t.prec = none)

/-! ### Templates -/

/-- A replacement field: an argument number or nothing, and a specification or nothing. -/
structure Hole where
  idx : Str := []
  spec : Option SpecText := none

/-- A replacement field `{idx}` or `{idx:spec}`. -/
def Hole.field (h : Hole) : Field where
  idx := h.idx
  colon := h.spec.isSome
  body := (match h.spec with | some t => t.text | none => []) ++ ['}']

/-- What the field asks for. -/
def Hole.specs (h : Hole) : Specs := (h.spec.getD {}).meaning

/-- Literal text before each replacement field, and literal text at the end. -/
structure Template where
  segs : List (Str × Hole)
  last : Str

namespace Template

/-- The template in terms of fields. -/
def format (t : Template) : FormatText := ⟨t.segs.map fun s => (s.1, s.2.field), t.last⟩

/-- The template as written. -/
def text (t : Template) : Str := t.format.text

/-- The template can be used with these arguments. -/
structure Suits (t : Template) (args : List CoreArg) : Prop where
  /-- At most 128 arguments. -/
  number : args.length ≤ 128
  digits : ∀ s ∈ t.segs, ∀ c ∈ s.2.idx, c.isDigit
  grammar : ∀ s ∈ t.segs, ∀ sp ∈ s.2.spec, sp.WellFormed ∧ sp.Fits
  /-- Numbers are given always or never. -/
  mode : t.format.Automatic ∨ t.format.Explicit
  /-- Exactly the arguments there are. -/
  arguments : ∀ k, k ∈ t.format.arguments ↔ k < args.length
  /-- Every field refers to an argument whose type allows the specification. -/
  allowed : ∀ x ∈ t.format.arguments.zip t.segs, ∃ a, args[x.1]? = some a ∧
    CoreTy.Allows a.ty (x.2.2.spec.getD {})

/-- The text each field is replaced by: argument number and field in, text out. -/
def Texts (t : Template) (args : List CoreArg) (texts : List Str) : Prop :=
  texts.length = t.segs.length ∧
  ∀ x ∈ (t.format.arguments.zip t.segs).zip texts, ∃ a, args[x.1.1]? = some a ∧
    argText a x.1.2.2.specs = x.2

/-- The result: literal text, the text of the first field, literal text, ... -/
def output (t : Template) (texts : List Str) : Str := t.format.output texts

/-- Just one field. -/
def single (spec : Option SpecText) : Template := ⟨[([], ⟨[], spec⟩)], []⟩

end Template

/-- `"a{:x}b"`. -/
example : Template.text ⟨[(['a'], ⟨[], some { type := 'x' }⟩)], ['b']⟩ = "a{:x}b".toList := by decide +kernel

end Emio.Spec
