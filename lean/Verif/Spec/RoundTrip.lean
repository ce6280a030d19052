import Verif.Spec.Scan
import Verif.Spec.Argument
/-
Specification: values that are written with a string and read back with the same string.
-/
namespace Emio.Spec

/-- A value that can be written and read: an integer, a character or a string. -/
inductive Plain
  | int (ty : IntTy) (n : Int)
  | char (c : Char)
  | str (s : Str)

namespace Plain

/-- As an argument of `format`. -/
def arg : Plain → CoreArg
  | int ty n => .int ty n
  | char c => .char c
  | str s => .string s

/-- The type of a variable for it. -/
def ty : Plain → ScanTy
  | int ty _ => .int ty
  | char _ => .char
  | str _ => .string

/-- What the variable then contains. -/
def val : Plain → ScanVal
  | int _ n => .int n
  | char c => .char c
  | str s => .str s

end Plain

/-- What is written with the string can be read with it.  No field has a width.  What follows an integer does not look like a
digit; a zero is not written by `{:#o}`, or by `{:#}` unless it is at the end.  What follows a string is literal text without
braces, which the string does not contain and does not begin to contain at its end; or it is nothing. -/
structure CanBeReadBack (t : ScanTemplate) (vals : List Plain) : Prop where
  noWidth : ∀ s ∈ t.segs, s.2.sp.width = []
  integer : ∀ a s b ty n, t.segs = a ++ s :: b → vals[s.2.field.argument a.length]? = some (.int ty n) →
    (b ≠ [] → following t.last b ≠ []) ∧ (∀ c ∈ (following t.last b).head?, digitLike 16 c = false) ∧
    (n = 0 → s.2.sp.alt = true → s.2.sp.type ≠ some 'o' ∧ (s.2.sp.type = none → b = [] ∧ t.last = []))
  string : ∀ a s b x, t.segs = a ++ s :: b → vals[s.2.field.argument a.length]? = some (.str x) →
    (b ≠ [] ∨ t.last ≠ []) → following t.last b ≠ [] ∧ '{' ∉ following t.last b ∧ '}' ∉ following t.last b ∧
      EndsBefore x (following t.last b)

end Emio.Spec
