import Verif.Spec.RoundTrip
/-
Specification: values that are written into columns and read back with the same string.
-/
namespace Emio.Spec

/-- The width begins with a zero: in a format string, this is the zero flag. -/
def ScanSpec.zeros (sp : ScanSpec) : Bool := sp.width.head? == some '0'

/-- The text of a number without the width. -/
def bareText (sp : ScanSpec) (n : Int) : Str := intText { alternateForm := sp.alt, type := sp.type.getD noChar } n

/-- What is written with the string can be read with it, also in columns.  A field without width is as in `CanBeReadBack`.
With a width, an integer must not have more characters, and fewer only if the width begins with `0`; a string must have
that many characters; the width of a string or a character does not begin with `0`.  With `#` there must be a type, and a zero must be more than
`0` if the type is `o`. -/
structure CanBeReadInColumns (t : ScanTemplate) (vals : List Plain) : Prop where
  integer : ∀ a s b ty n, t.segs = a ++ s :: b → vals[s.2.field.argument a.length]? = some (.int ty n) → s.2.sp.width = [] →
    (b ≠ [] → following t.last b ≠ []) ∧ (∀ c ∈ (following t.last b).head?, digitLike 16 c = false) ∧
    (n = 0 → s.2.sp.alt = true → s.2.sp.type ≠ some 'o' ∧ (s.2.sp.type = none → b = [] ∧ t.last = []))
  string : ∀ a s b x, t.segs = a ++ s :: b → vals[s.2.field.argument a.length]? = some (.str x) → s.2.sp.width = [] →
    (b ≠ [] ∨ t.last ≠ []) → following t.last b ≠ [] ∧ '{' ∉ following t.last b ∧ '}' ∉ following t.last b ∧
      EndsBefore x (following t.last b)
  integerColumn : ∀ a s b ty n, t.segs = a ++ s :: b → vals[s.2.field.argument a.length]? = some (.int ty n) →
    ∀ w ∈ s.2.sp.size, (bareText s.2.sp n).length ≤ w ∧ (s.2.sp.zeros = false → (bareText s.2.sp n).length = w) ∧
      (s.2.sp.alt = true → s.2.sp.type ≠ none ∧ (s.2.sp.type = some 'o' → n = 0 → 2 ≤ w))
  stringColumn : ∀ a s b x, t.segs = a ++ s :: b → vals[s.2.field.argument a.length]? = some (.str x) →
    ∀ w ∈ s.2.sp.size, x.length = w ∧ s.2.sp.zeros = false
  charColumn : ∀ a s b x, t.segs = a ++ s :: b → vals[s.2.field.argument a.length]? = some (.char x) → s.2.sp.zeros = false

end Emio.Spec
