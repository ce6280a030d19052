import Verif.Spec.AnyTypes
import Verif.Spec.Compose
/-
Specification: format strings put together, for arguments of any types but tuples.
-/
namespace Emio.Spec

/-- What a format string shows: before each field the literal text, the specification of the field (with the closing brace),
and the argument it refers to. -/
def FormatText.shows (t : FormatText) (args : List (FTy × FVal)) : List (Str × Str × Option (FTy × FVal)) :=
  t.segs.mapIdx fun i s => (s.1, s.2.body, args[s.2.argument i]?)

/-- One format string behind the other. -/
def FormatText.append (a b : FormatText) : FormatText :=
  match b.segs with
  | [] => ⟨a.segs, a.last ++ b.last⟩
  | (lit, h) :: segs => ⟨a.segs ++ (a.last ++ lit, h) :: segs, b.last⟩

/-- The numbers of the arguments replaced. -/
def FormatText.renumber (t : FormatText) (f : Nat → Nat) : FormatText :=
  { t with segs := t.segs.map fun s => (s.1, { s.2 with idx := numeral false 10 (f (numeralValue 10 s.2.idx)) }) }

end Emio.Spec
