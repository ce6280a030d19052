import Verif.Spec.Values
/-
Specification: widths and precisions that are given at run time, and arguments that are format strings with arguments
themselves.
-/
namespace Emio.Spec

/-- The specification with another width and precision.  Negative numbers count as zero; a width of zero is no width. -/
def SpecText.withNumbers (sp : SpecText) (width precision : Option Int) : SpecText :=
  { sp with
    width := match width with
      | none => sp.width
      | some w => if w ≤ 0 then [] else numeral false 10 w.toNat
    prec := match precision with
      | none => sp.prec
      | some p => some (numeral false 10 p.toNat) }

/-- `Overwritten ty width precision q s s'`: the specification `s`, with the width and the precision written into it, is
`s'`.  In a range they belong to the elements.  If the range comes without a specification for its elements, characters
and strings are quoted (`q`), which has to be written as `?`. -/
inductive Overwritten (width precision : Option Int) : FTy → Bool → Str → Str → Prop
  | core {t : CoreTy} {sp : SpecText} (wf : sp.WellFormed) (fits : sp.Fits) (allows : CoreTy.Allows t sp)
      (fits' : (sp.withNumbers width precision).Fits) (allows' : CoreTy.Allows t (sp.withNumbers width precision)) :
      Overwritten width precision (.core t) false sp.text (sp.withNumbers width precision).text
  | quoted {t : CoreTy} (fits : ((quotedSpec t).withNumbers width precision).Fits)
      (allows : CoreTy.Allows t ((quotedSpec t).withNumbers width precision)) :
      Overwritten width precision (.core t) true [] ((quotedSpec t).withNumbers width precision).text
  | range {curly q n : Bool} {t : FTy} {elem : Option Str} {e : Str}
      (each : Overwritten width precision t elem.isNone (elem.getD []) e) :
      Overwritten width precision (.range curly t) q (rangeSpec n elem) (rangeSpec n (some e))

/-- Widths and precisions that can be given: all numbers of 32 bits but the one that says that none is given. -/
def Given (n : Option Int) : Prop := ∀ k ∈ n, k ≠ -2147483647 ∧ -2147483648 ≤ k ∧ k < 2147483648

/-- An argument: a value, a value with a width and a precision given at run time, or a format string with values. -/
inductive AnyArg
  | value (ty : FTy) (v : FVal)
  | dynamic (ty : FTy) (v : FVal) (width precision : Option Int)
  | nested (str : Str) (args : List (FTy × FVal))

/-- The argument as it is passed. -/
def AnyArg.farg : AnyArg → FArg
  | .value ty v => v.farg ty
  | .dynamic ty v width precision => v.dynamic ty (width.getD notDefined) (precision.getD notDefined)
  | .nested str args => formatArgs str (args.map fun a => a.2.farg a.1)

/-- Values are of their types. -/
def AnyArg.Typed : AnyArg → Prop
  | .value ty v => HasType v ty
  | .dynamic ty v width precision => HasType v ty ∧ Given width ∧ Given precision
  | .nested _ args => (∀ a ∈ args, HasType a.2 a.1) ∧ ∀ a ∈ args, NoTuple a.1

/-- The specifications an argument takes. -/
def AnyArg.Takes (s : Str) : AnyArg → Prop
  | .value ty _ => Spec.Takes ty s
  | .dynamic ty _ width precision => ∃ s', Overwritten width precision ty false s s'
  | .nested _ _ => s = []

/-- There are tuples among the values. -/
def AnyArg.HasTuple : AnyArg → Prop
  | .value ty _ => ¬ NoTuple ty
  | _ => False

/-- The format string can be used with these arguments. -/
structure FormatText.Suits (t : FormatText) (args : List AnyArg) : Prop where
  /-- At most 128 arguments. -/
  number : args.length ≤ 128
  typed : ∀ a ∈ args, a.Typed
  digits : ∀ f ∈ t.fields, ∀ c ∈ f.idx, c.isDigit
  /-- Numbers are given always or never. -/
  mode : t.Automatic ∨ t.Explicit
  /-- Exactly the arguments there are. -/
  arguments : ∀ k, k ∈ t.arguments ↔ k < args.length
  /-- Every field refers to an argument that takes the specification. -/
  taken : ∀ (i : Nat) (f : Field), t.fields[i]? = some f → ∃ a, args[f.argument i]? = some a ∧
    ∃ s, f.body = s ++ ['}'] ∧ (f.colon = false → s = []) ∧ a.Takes s

/-- The texts the fields are replaced by: what `{:spec}` makes of the arguments. -/
def FormatText.Alone (t : FormatText) (args : List AnyArg) (texts : List Str) : Prop :=
  texts.length = t.fields.length ∧
  ∀ (i : Nat) (f : Field) (text : Str), t.fields[i]? = some f → texts[i]? = some text →
    ∃ a, args[f.argument i]? = some a ∧ formatStr ('{' :: ':' :: f.body) [a.farg] = .ok () text

/-- Arguments with tuples are used at the very end only. -/
def FormatText.TupleArgsLast (t : FormatText) (args : List AnyArg) : Prop :=
  ∀ (i : Nat) (f : Field) (a : AnyArg), t.fields[i]? = some f → args[f.argument i]? = some a →
    a.HasTuple → i + 1 = t.fields.length ∧ t.last = []

end Emio.Spec
