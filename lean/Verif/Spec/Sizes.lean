import Verif.Spec.Argument
import Verif.Spec.Template
/-
Specification: how long the text of an argument can be, as known from its type and its specification alone.
-/
namespace Emio.Spec

/-- Digits of the longest number of an integer type, written in a base. -/
def mostDigits (t : IntTy) (base : ℕ) : ℕ :=
  (numeral false base (if t.signed then 2 ^ (t.bits - 1) else 2 ^ t.bits - 1)).length

/-- Characters of the prefix of the alternate form. -/
def prefixSize (s : Specs) : ℕ :=
  if s.alternateForm = false then 0
  else if s.type = 'x' ∨ s.type = 'X' ∨ s.type = 'b' ∨ s.type = 'B' then 2
  else if s.type = 'o' then 1 else 0

/-- Characters of the sign of a number that is not negative. -/
def plusSize (s : Specs) : ℕ := if s.sign = '+' ∨ s.sign = ' ' then 1 else 0

/-- Characters of the longest text of a type, without padding.  Strings have at most `n` characters. -/
def contentSize (n : ℕ) : CoreTy → Specs → ℕ
  | .int t, s => if s.type = 'c' then 1 else (if t.signed then 1 else 0) + prefixSize s + mostDigits t (baseOf s.type)
  | .bool, s => if s.type = noChar ∨ s.type = 's' then 5 else if s.type = 'c' then 1 else plusSize s + prefixSize s + 1
  | .char, s =>
    if s.type = noChar ∨ s.type = 'c' then 1 else if s.type = '?' then 6
    else plusSize s + prefixSize s + mostDigits u8 (baseOf s.type)
  | .pointer, _ => 18
  | .double, s =>
    if s.type = 'f' ∨ s.type = 'F' then precisionOf s + 311
    else if s.type = 'e' ∨ s.type = 'E' then precisionOf s + 8
    else if s.type = noChar ∧ s.precision < 0 then 24
    else max (precisionOf s) 1 + 7
  | .string, s => if s.type = '?' then 4 * n + 2 else if 0 ≤ s.precision then min n s.precision.toNat else n

/-- Characters of the longest text of a type.  (The debug form of a character may be wider than asked for.) -/
def longest (n : ℕ) (ty : CoreTy) (s : Specs) : ℕ :=
  if ty = .char ∧ s.type = '?' then max 3 s.width.toNat + 3 else max s.width.toNat (contentSize n ty s)

/-- Characters of the longest text of a format string, for arguments of the types. -/
def Template.longest (n : ℕ) (t : Template) (tys : List CoreTy) : ℕ :=
  ((t.format.arguments.zip t.segs).map fun x =>
    x.2.1.length + ((tys[x.1]?.map fun ty => Spec.longest n ty x.2.2.specs).getD 0)).sum + t.last.length

/-- The sizes of `{}` for integers and the other types, and of some other specifications. -/
example : [i8, u8, i16, u16, i32, u32, i64, u64].map (fun t => longest 0 (.int t) {}) = [4, 3, 6, 5, 11, 10, 20, 20] ∧
    [CoreTy.bool, .char, .pointer, .double].map (fun t => longest 0 t {}) = [5, 1, 18, 24] ∧
    longest 0 (.int i32) { alternateForm := true, type := 'b' } = 35 ∧ longest 0 .double { type := 'e', precision := 3 } = 11 ∧
    longest 7 .string { width := 9 } = 9 ∧ longest 7 .string { width := 2 } = 7 := by decide +kernel

end Emio.Spec
