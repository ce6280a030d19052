import Verif.Spec.UserFormatter
/-
Specification: arguments of every kind, format strings in format strings included, to any depth.
-/
namespace Emio.Spec

/-- An argument: a value, a value with a width and a precision given at run time, a value with a formatter of the user, or
a format string with arguments of any of these kinds. -/
inductive Deep : Type 1
  | value (ty : FTy) (v : FVal)
  | dynamic (ty : FTy) (v : FVal) (width precision : Option Int)
  | custom {α : Type} (f : UserFormatter α) (v : α)
  | nested (str : Str) (args : List Deep)

mutual
/-- The argument as it is passed. -/
def Deep.farg : Deep → FArg
  | .value ty v => v.farg ty
  | .dynamic ty v width precision => v.dynamic ty (width.getD notDefined) (precision.getD notDefined)
  | .custom f v => f.farg v
  | .nested str args => formatArgs str (Deep.fargs args)

/-- The arguments as they are passed. -/
def Deep.fargs : List Deep → List FArg
  | [] => []
  | a :: l => a.farg :: Deep.fargs l
end

/-- The width and the precision of a value of the type are those of a floating-point number. -/
def OfDoubles : FTy → Prop
  | .core .double => True
  | .range _ t => OfDoubles t
  | _ => False

/-- What is asked of an argument: values of their types, which are not tuples; widths and precisions that are numbers, and
precisions of floating-point numbers that could be written in a format string; formatters of the user that are decent, with
no errors but `errs`; in format strings, at most 128 such arguments.  Format strings may be any. -/
inductive Deep.Decent (errs : Err → Prop) : Deep → Prop
  | value {ty : FTy} {v : FVal} (typed : HasType v ty) (free : NoTuple ty) (refuse : errs .invalidFormat) :
      Deep.Decent errs (.value ty v)
  | dynamic {ty : FTy} {v : FVal} {width precision : Option Int} (typed : HasType v ty) (free : NoTuple ty)
      (given : Given width) (given' : Given precision) (moderate : OfDoubles ty → ∀ p ∈ precision, p ≤ 1100)
      (refuse : errs .invalidFormat) : Deep.Decent errs (.dynamic ty v width precision)
  | custom {α : Type} {f : UserFormatter α} {v : α} (decent : Spec.Decent f v errs) : Deep.Decent errs (.custom f v)
  | nested {str : Str} {args : List Deep} (number : args.length ≤ 128) (each : ∀ a ∈ args, Deep.Decent errs a)
      (refuse : errs .invalidFormat) : Deep.Decent errs (.nested str args)

end Emio.Spec
