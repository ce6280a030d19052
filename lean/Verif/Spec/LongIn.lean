import Verif.Spec.AnyTypes
import Verif.Spec.OnePiece
/-
Specification: values that hold a floating-point number of which more than 128 characters are written in one piece.
-/
namespace Emio.Spec

/-- Under the specification, a number in the value has more than 128 characters in one piece.  (Numbers without a
specification are always short, and what is in a variant or in a range without a specification for its elements has
none.) -/
inductive LongIn : FVal → Str → Prop
  | number {bits : Nat} {sp : SpecText} (wf : sp.WellFormed) (pass : sp.NumbersPass) (finite : IsFinite bits)
      (long : 128 < onePiece sp.taken bits) : LongIn (.core (.double bits)) sp.text
  | element {vs : List FVal} {v : FVal} {n : Bool} {e : Str} (mem : v ∈ vs) (h : LongIn v e) :
      LongIn (.range vs) (rangeSpec n (some e))
  | content {v : FVal} {s : Str} (h : LongIn v s) : LongIn (.some v) s

/-- The `i`-th field asks for such a number. -/
def FormatText.AsksLong (t : FormatText) (args : List (FTy × FVal)) (i : Nat) : Prop :=
  ∃ f a s, t.fields[i]? = some f ∧ args[f.argument i]? = some a ∧ f.body = s ++ ['}'] ∧ LongIn a.2 s

end Emio.Spec
