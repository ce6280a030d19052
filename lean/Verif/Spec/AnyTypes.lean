import Verif.Spec.Values
import Verif.Spec.WideNumbers
/-
Which specifications the types other than tuples take when numbers may have any size, and which values contain a number.
-/
namespace Emio.Spec

/-- The type takes the specification (the text between `{:` and `}`), whatever size its numbers have.  Elements for which no
specification is given are not looked at. -/
inductive TypeAccepts : FTy → Str → Prop
  | core {t : CoreTy} {sp : SpecText} (wf : sp.WellFormed) (pass : sp.NumbersPass) (allows : CoreTy.Allows t sp.reduced) :
      TypeAccepts (.core t) sp.text
  | range {curly : Bool} {t : FTy} {n : Bool} : TypeAccepts (.range curly t) (rangeSpec n none)
  | elements {curly : Bool} {t : FTy} {n : Bool} {e : Str} (each : TypeAccepts t e) :
      TypeAccepts (.range curly t) (rangeSpec n (some e))
  | optional {t : FTy} {s : Str} (content : TypeAccepts t s) : TypeAccepts (.optional t) s
  | monostate : TypeAccepts .monostate []
  | variant {ts : List FTy} : TypeAccepts (.variant ts) []

/-- There is a number, a boolean or a character in the value (not counting variants). -/
inductive HoldsNumber : FVal → Prop
  | int {t : IntTy} {n : Int} : HoldsNumber (.core (.int t n))
  | bool {b : Bool} : HoldsNumber (.core (.bool b))
  | char {c : Char} : HoldsNumber (.core (.char c))
  | element {vs : List FVal} {v : FVal} (mem : v ∈ vs) (h : HoldsNumber v) : HoldsNumber (.range vs)
  | content {v : FVal} (h : HoldsNumber v) : HoldsNumber (.some v)

/-- The specification ends with the type `O`, and there is something to be formatted with it. -/
def OctalIn (v : FVal) (s : Str) : Prop := s.getLast? = some 'O' ∧ HoldsNumber v

/-- The format string can be used with arguments of these types. -/
structure FormatText.SuitsTypes (t : FormatText) (types : List FTy) : Prop where
  /-- At most 128 arguments. -/
  number : types.length ≤ 128
  digits : ∀ f ∈ t.fields, ∀ c ∈ f.idx, c.isDigit
  /-- Numbers are given always or never. -/
  mode : t.Automatic ∨ t.Explicit
  /-- Exactly the arguments there are. -/
  arguments : ∀ k, k ∈ t.arguments ↔ k < types.length
  /-- Every field refers to an argument whose type takes the specification. -/
  taken : ∀ (i : Nat) (f : Field), t.fields[i]? = some f → ∃ ty, types[f.argument i]? = some ty ∧
    ∃ s, f.body = s ++ ['}'] ∧ (f.colon = false → s = []) ∧ TypeAccepts ty s

/-- The `i`-th field asks for the type `O` of something. -/
def FormatText.AsksOctal (t : FormatText) (args : List (FTy × FVal)) (i : Nat) : Prop :=
  ∃ f a s, t.fields[i]? = some f ∧ args[f.argument i]? = some a ∧ f.body = s ++ ['}'] ∧ OctalIn a.2 s

/-- The beginning of the format string, up to its `i`-th field. -/
def FormatText.upTo (t : FormatText) (i : Nat) : FormatText := ⟨t.segs.take i, (t.segs[i]?.map (·.1)).getD t.last⟩

/-- The texts of the first fields (as many as there are texts): what `{:spec}` makes of the arguments. -/
def FormatText.FirstAlone (t : FormatText) (args : List (FTy × FVal)) (texts : List Str) : Prop :=
  ∀ (i : Nat) (f : Field) (text : Str), t.fields[i]? = some f → texts[i]? = some text →
    ∃ a, args[f.argument i]? = some a ∧ formatStr ('{' :: ':' :: f.body) [a.2.farg a.1] = .ok () text

end Emio.Spec
