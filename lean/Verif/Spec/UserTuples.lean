import Verif.Spec.UserContainers
import Verif.Spec.Values
/-
Specification: tuples of values with a formatter of the user, at the end of the format string.
-/
namespace Emio.Spec
variable {α : Type}

/-- `Makes` for a field that is the end of the format string. -/
structure MakesLast (f : UserFormatter α) (v : α) (spec text : Str) (k : Nat) : Prop where
  validates : ∀ validate ∈ f.validate, ∀ r : Reader, r.At (spec ++ ['}']) → validate r = .ok (r.adv (spec.length + 1)) ()
  parses : ∀ r : Reader, r.At (spec ++ ['}']) →
    ∃ s, f.parse r = .ok (r.adv (spec.length + 1)) s ∧ Emits (f.format s v) text k

/-- `Reports` for a field that is the end of the format string. -/
structure ReportsLast (f : UserFormatter α) (v : α) (spec text : Str) (e : Err) : Prop where
  validates : ∀ validate ∈ f.validate, ∀ r : Reader, r.At (spec ++ ['}']) → validate r = .ok (r.adv (spec.length + 1)) ()
  parses : ∀ r : Reader, r.At (spec ++ ['}']) →
    ∃ s, f.parse r = .ok (r.adv (spec.length + 1)) s ∧ Stops (f.format s v) text e

/-- `ReadsSpec` for a field that is the end of the format string. -/
structure ReadsLast (f : UserFormatter α) (spec : Str) : Prop where
  validates : ∀ validate ∈ f.validate, ∀ r : Reader, r.At (spec ++ ['}']) → validate r = .ok (r.adv (spec.length + 1)) ()
  parses : ∀ r : Reader, r.At (spec ++ ['}']) → ∃ s, f.parse r = .ok (r.adv (spec.length + 1)) s

/-- The formatter of an element as it is used by the formatter of a tuple: `set_debug_format` is called if there is such a
function, with `true` if there is no specification for the elements and `false` otherwise. -/
def tupleElement (f : ElemFormatter α) (elem : Option Str) : UserFormatter α :=
  { f.toUserFormatter with parse := f.parseWith (some elem.isNone) }

/-- The texts of the elements. -/
def EachMakes (elem : Option Str) (k : Nat) : (fs : TupleTypes) → TupleVal fs → List Str → Prop
  | [], _, texts => texts = []
  | f :: fs, (v, vs), texts => ∃ t ts, texts = t :: ts ∧ MakesLast (tupleElement f.2 elem) v (elem.getD []) t k ∧
      EachMakes elem k fs vs ts

/-- The first elements have the texts, the next one writes `wrote` and reports the error, and the others would read the
specification. -/
def SomeReports (elem : Option Str) (k : Nat) (wrote : Str) (e : Err) : (fs : TupleTypes) → TupleVal fs → List Str → Prop
  | [], _, _ => False
  | f :: fs, (v, _), [] => ReportsLast (tupleElement f.2 elem) v (elem.getD []) wrote e ∧
      ∀ g ∈ fs, ReadsLast (tupleElement g.2 elem) (elem.getD [])
  | f :: fs, (v, vs), t :: ts => MakesLast (tupleElement f.2 elem) v (elem.getD []) t k ∧ SomeReports elem k wrote e fs vs ts

/-- The text of a tuple: the elements in parentheses, or, for the entry of a map, key and value. -/
def tupleText (entry n : Bool) (texts : List Str) : Str :=
  if entry then [':', ' '].intercalate texts else bracketed n ['('] [')'] ([',', ' '].intercalate texts)

end Emio.Spec
