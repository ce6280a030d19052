import Verif.Spec.Values
/-
Specification: types whose values can be told apart by their text.
-/
namespace Emio.Spec

/-- No NaN is contained in the value. -/
inductive NoNaN : FVal → Prop
  | core {a : CoreArg} (h : ∀ bits, a = .double bits → ¬ IsNaN bits) : NoNaN (.core a)
  | range {vs : List FVal} (each : ∀ v ∈ vs, NoNaN v) : NoNaN (.range vs)
  | tuple {vs : List FVal} (each : ∀ v ∈ vs, NoNaN v) : NoNaN (.tuple vs)
  | none : NoNaN .none
  | some {v : FVal} (content : NoNaN v) : NoNaN (.some v)
  | monostate : NoNaN .monostate
  | variant {t : FTy} {v : FVal} (content : NoNaN v) : NoNaN (.variant t v)
  | valueless : NoNaN .valueless

/-- The type is made of core types, ranges, tuples, pairs of maps, optionals and monostates: no variants. -/
inductive NoVariant : FTy → Prop
  | core {t : CoreTy} : NoVariant (.core t)
  | range {curly : Bool} {t : FTy} (each : NoVariant t) : NoVariant (.range curly t)
  | tuple {entry : Bool} {ts : List FTy} (each : ∀ t ∈ ts, NoVariant t) (nonempty : ts ≠ []) : NoVariant (.tuple entry ts)
  | optional {t : FTy} (content : NoVariant t) : NoVariant (.optional t)
  | monostate : NoVariant .monostate

/-- Kinds of types that look different. -/
inductive Kind
  | truth | character | number | pointer | text | sequence | set | tuple | optional | monostate | variant
deriving DecidableEq, Repr

/-- The kind of a type.  All integers and doubles are of the same kind. -/
def kindOf : FTy → Kind
  | .core .bool => .truth
  | .core .char => .character
  | .core (.int _) => .number
  | .core .double => .number
  | .core .pointer => .pointer
  | .core .string => .text
  | .range false _ => .sequence
  | .range true _ => .set
  | .tuple _ _ => .tuple
  | .optional _ => .optional
  | .monostate => .monostate
  | .variant _ => .variant

/-- The type is made of core types, ranges, tuples, pairs of maps, optionals, monostates and variants; it has no optional
strings inside of a range, tuple or variant; and the alternatives of each variant are of different kinds.  `whole`: the
value is not inside of a range, tuple or variant; `quotes`: strings are quoted. -/
inductive Telling : (whole quotes : Bool) → FTy → Prop
  | core {whole quotes : Bool} {t : CoreTy} (h : t = .string → whole = true ∨ quotes = true) : Telling whole quotes (.core t)
  | range {whole quotes curly : Bool} {t : FTy} (each : Telling false true t) : Telling whole quotes (.range curly t)
  | tuple {whole quotes entry : Bool} {ts : List FTy} (each : ∀ t ∈ ts, Telling false true t) (nonempty : ts ≠ []) :
      Telling whole quotes (.tuple entry ts)
  | optional {whole quotes : Bool} {t : FTy} (content : Telling whole false t) : Telling whole quotes (.optional t)
  | monostate {whole quotes : Bool} : Telling whole quotes .monostate
  | variant {whole quotes : Bool} {ts : List FTy} (each : ∀ t ∈ ts, Telling false true t) (different : (ts.map kindOf).Nodup)
      (noEntry : ∀ t ∈ ts, ∀ us, t ≠ .tuple true us) : Telling whole quotes (.variant ts)

end Emio.Spec
