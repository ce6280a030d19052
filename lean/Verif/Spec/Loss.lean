import Verif.Spec.Values
/-
Specification: how much of the text behind a field with tuples is lost (property C54).
-/
namespace Emio.Spec

/-- How many characters of the specification of a range or a tuple stand in front of the specification of the elements:
`n` and `:`. -/
def headLength (s : Str) : Nat :=
  let n := if s.head? = some 'n' then 1 else 0
  n + if (s.drop n).head? = some ':' then 1 else 0

mutual
/-- How many characters behind the field are lost when formatting, for a type with the specification `s` that begins at
position `p` of the format string.  A tuple loses as many characters as stand in front of the specification of its
elements, and what its last element loses.  Nothing else loses characters itself. -/
def lost : FTy → Str → Nat → Nat
  | .range _ t, s, p => lost t (s.drop (headLength s)) (p + headLength s)
  | .tuple _ ts, s, p => lostLast ts (s.drop (headLength s)) (p + headLength s)
  | .optional t, s, p => lost t s p
  | .core _, _, _ => 0
  | .monostate, _, _ => 0
  | .variant _, _, _ => 0

/-- The same for the elements of a tuple, where `p` is the position of their specification. -/
def lostLast : List FTy → Str → Nat → Nat
  | [], _, _ => 0
  | [t], s, p => p + lost t s p
  | _ :: t :: ts, s, p => lostLast (t :: ts) s p
end

/-- `ab{}` with a pair loses three characters, `ab{:n:x}` six, and a map loses the same. -/
example : lost (.tuple false [.int, .int]) [] 3 = 3 ∧ lost (.tuple false [.int, .int]) "n:x".toList 4 = 6 ∧
    lost (.range true (.tuple true [.int, .int])) [] 3 = 3 ∧ lost (.range false .int) [] 3 = 0 ∧
    lost (.tuple false [.int, .tuple false [.int]]) [] 3 = 6 := by decide

/-- The position where the specification of field `i` begins. -/
def FormatText.specAt (t : FormatText) (i : Nat) (f : Field) : Nat :=
  (FormatText.mk (t.segs.take (i + 1)) []).text.length - f.body.length

/-- The text behind each field without its first characters: `losses` tells how many are missing behind which field. -/
def FormatText.losing (t : FormatText) (losses : List Nat) : FormatText :=
  ⟨t.segs.zipWith (fun s n => (s.1.drop n, s.2)) (0 :: losses), t.last.drop (losses.getLastD 0)⟩

/-- The text behind field `i`, up to the next field. -/
def FormatText.textBehind (t : FormatText) (i : Nat) : Str := (t.segs[i + 1]?.map (·.1)).getD t.last

/-- `losses` tells how many characters are lost behind which field; they are in the text up to the next field, which has
no braces. -/
structure FormatText.Losses (t : FormatText) (args : List (FTy × FVal)) (losses : List Nat) : Prop where
  number : losses.length = t.fields.length
  lost : ∀ (i : Nat) (f : Field) (a : FTy × FVal) (s : Str) (n : Nat), t.fields[i]? = some f →
    args[f.argument i]? = some a → f.body = s ++ ['}'] → losses[i]? = some n → n = Spec.lost a.1 s (t.specAt i f)
  room : ∀ (i n : Nat), losses[i]? = some n → n ≠ 0 → '{' ∉ t.textBehind i ∧ '}' ∉ t.textBehind i ∧
    (i + 1 < t.fields.length → n ≤ (t.textBehind i).length)

end Emio.Spec
