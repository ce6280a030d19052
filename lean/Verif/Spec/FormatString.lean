import Verif.Spec.FormatSpec
/-
Specification of format strings: literal text, in which braces are doubled, and replacement fields.
-/
namespace Emio.Spec

/-- Literal text as written in a format string: braces are doubled. -/
def escBraces (s : Str) : Str := s.flatMap fun c => if c = '{' then ['{', '{'] else if c = '}' then ['}', '}'] else [c]

/-- A replacement field: an argument number or nothing, a colon or not, and the rest up to and including the closing
brace. -/
structure Field where
  idx : Str
  colon : Bool
  body : Str

/-- A replacement field as written. -/
def Field.text (f : Field) : Str := '{' :: (f.idx ++ ((if f.colon then [':'] else []) ++ f.body))

/-- A field is written properly: the number is decimal; without a colon the brace follows. -/
structure Field.WellFormed (f : Field) : Prop where
  idx : ∀ c ∈ f.idx, c.isDigit
  body : f.colon = false → f.body.head? = some '}'

/-- A format string: literal text before each field, and literal text at the end. -/
structure FormatText where
  segs : List (Str × Field)
  last : Str

/-- The format string as written. -/
def FormatText.text (t : FormatText) : Str := (t.segs.flatMap fun s => escBraces s.1 ++ s.2.text) ++ escBraces t.last

/-- The fields. -/
def FormatText.fields (t : FormatText) : List Field := t.segs.map (·.2)

/-- Automatic numbering: no field has a number. -/
def FormatText.Automatic (t : FormatText) : Prop := ∀ f ∈ t.fields, f.idx = []

/-- Explicit numbering: every field has a number. -/
def FormatText.Explicit (t : FormatText) : Prop := ∀ f ∈ t.fields, f.idx ≠ []

/-- The number of the argument the `i`-th field refers to. -/
def Field.argument (i : Nat) (f : Field) : Nat := if f.idx = [] then i else numeralValue 10 f.idx

/-- The numbers of the arguments the fields refer to. -/
def FormatText.arguments (t : FormatText) : List Nat := t.fields.mapIdx Field.argument

/-- The output, given the text each field is replaced by. -/
def FormatText.output (t : FormatText) (texts : List Str) : Str :=
  ((t.segs.zip texts).flatMap fun s => s.1.1 ++ s.2) ++ t.last

/-- No number in the string is 2^32 or more. -/
def SmallNumbers (str : Str) : Prop :=
  ∀ a ds b, str = a ++ ds ++ b → (∀ c ∈ ds, c.isDigit) → numeralValue 10 ds < 2 ^ 32

/-- The text begins with a field for argument number 255, of which only the opening brace, the number and the colon or
closing brace behind it need to be proper. -/
def Begins255 (tail : Str) : Prop :=
  ∃ (ds : Str) (c : Char) (rest : Str), tail = '{' :: (ds ++ c :: rest) ∧ ds ≠ [] ∧ (∀ c ∈ ds, c.isDigit) ∧
    numeralValue 10 ds = 255 ∧ (c = '}' ∨ c = ':')

/-- `"a{{{}b{:x}"`. -/
example : FormatText.text ⟨[(['a', '{'], ⟨[], false, ['}']⟩), (['b'], ⟨[], true, ['x', '}']⟩)], []⟩ =
    "a{{{}b{:x}".toList := by decide +kernel

end Emio.Spec
