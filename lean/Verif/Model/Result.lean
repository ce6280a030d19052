import Verif.Base
/-
Model of include/emio/result.hpp and of the macros EMIO_TRY and EMIO_TRYV (include/emio/detail/predef.hpp:23-35).

Elsewhere in the model a function that returns a `result` is modelled by `Run` and `M` (Verif/Base.lean); here the class
itself is modelled.  `C66_try` (Verif/Props/Result.lean) connects the two.
-/
namespace Emio

/-- What an access gives: a value, an exception (with its message; the program terminates if exceptions are disabled), or
undefined behaviour (result.hpp:124-132). -/
inductive Access (α : Type)
  | returns (a : α)
  | throws (what : String)
  | ub
  deriving DecidableEq, Repr

/-- `to_string` (result.hpp:55-74); `none` is `err{}`, the value 0. -/
def Err.name : Option Err → String
  | none => "no error"
  | some .eof => "eof"
  | some .invalidArgument => "invalid argument"
  | some .invalidData => "invalid data"
  | some .outOfRange => "out of range"
  | some .invalidFormat => "invalid format"

/-- `result<Value>` for no reference (result.hpp:150-391): `value_` and `error_`. -/
structure Res (α : Type) where
  value_ : Option α
  error_ : Option Err
  deriving DecidableEq, Repr

namespace Res
variable {α β : Type}

/-- The constructor from a value (result.hpp:163-166). -/
def ofValue (a : α) : Res α := ⟨some a, none⟩

/-- The constructor from an error (result.hpp:172-174); the assertion does nothing in a normal build. -/
def ofError (e : Option Err) : Res α := ⟨none, e⟩

/-- `has_value` (result.hpp:188-190). -/
def hasValue (r : Res α) : Bool := r.value_.isSome

/-- `has_error` (result.hpp:196-198). -/
def hasError (r : Res α) : Bool := !r.hasValue

/-- `assume_value`, `operator*`, `operator->` (result.hpp:205-298). -/
def assumeValue (r : Res α) : Access α :=
  match r.value_ with
  | some a => .returns a
  | none => .ub

/-- `value` (result.hpp:304-343). -/
def value (r : Res α) : Access α :=
  match r.value_ with
  | some a => .returns a
  | none => .throws (Err.name r.error_)

/-- `assume_error` (result.hpp:350-353). -/
def assumeError (r : Res α) : Option Err := r.error_

/-- `error` (result.hpp:360-366). -/
def error (r : Res α) : Access (Option Err) :=
  if r.hasError then .returns r.error_ else .throws (Err.name r.error_)

/-- `value_or` (result.hpp:373-386). -/
def valueOr (r : Res α) (d : α) : α := r.value_.getD d

/-- `operator==` of two results (result.hpp:525-539), for types whose comparison is `eq`. -/
def eqRes (eq : α → β → Bool) (l : Res α) (r : Res β) : Access Bool :=
  if l.hasValue ≠ r.hasValue then .returns false
  else if l.hasValue then
    match l.assumeValue, r.assumeValue with
    | .returns a, .returns b => .returns (eq a b)
    | _, _ => .ub
  else .returns (l.assumeError = r.assumeError)

/-- `operator==` with a value (result.hpp:550-557). -/
def eqValue (eq : α → β → Bool) (l : Res α) (b : β) : Access Bool :=
  if l.hasValue then
    match l.value with
    | .returns a => .returns (eq a b)
    | .throws w => .throws w
    | .ub => .ub
  else .returns false

/-- `operator==` with an error (result.hpp:568-571). -/
def eqErr (l : Res α) (e : Option Err) : Access Bool :=
  if l.hasError then
    match l.error with
    | .returns x => .returns (x = e)
    | .throws w => .throws w
    | .ub => .ub
  else .returns false

end Res

/-- `result<void>` (result.hpp:398-500): `error_`. -/
structure ResVoid where
  error_ : Option Err
  deriving DecidableEq, Repr

namespace ResVoid

/-- The constructor from `success` (result.hpp:410). -/
def success : ResVoid := ⟨none⟩

/-- The constructor from an error (result.hpp:416-418). -/
def ofError (e : Option Err) : ResVoid := ⟨e⟩

/-- The constructor from another result (result.hpp:424-430). -/
def ofRes {α : Type} (r : Res α) : ResVoid := if r.hasError then ⟨r.assumeError⟩ else ⟨none⟩

/-- `has_value` (result.hpp:444-446). -/
def hasValue (r : ResVoid) : Bool := r.error_ = none

/-- `has_error` (result.hpp:452-454). -/
def hasError (r : ResVoid) : Bool := !r.hasValue

/-- `value` (result.hpp:469-473). -/
def value (r : ResVoid) : Access Unit := if !r.hasValue then .throws (Err.name r.error_) else .returns ()

/-- `assume_error` (result.hpp:480-483). -/
def assumeError (r : ResVoid) : Option Err := r.error_

/-- `error` (result.hpp:490-496). -/
def error (r : ResVoid) : Access (Option Err) :=
  if r.hasError then .returns r.error_ else .throws (Err.name r.error_)

/-- `operator==` (result.hpp:525-539) for `void`. -/
def eqRes (l r : ResVoid) : Bool :=
  if l.hasValue ≠ r.hasValue then false else if l.hasValue then true else l.assumeError = r.assumeError

/-- `operator==` with an error (result.hpp:568-571) for `void`. -/
def eqErr (l : ResVoid) (e : Option Err) : Access Bool :=
  if l.hasError then
    match l.error with
    | .returns x => .returns (x = e)
    | .throws w => .throws w
    | .ub => .ub
  else .returns false

end ResVoid

/-- `EMIO_TRY(auto x, first(state)); return next(x)(state);` (predef.hpp:30-35) in a function that returns
`result<β>`. -/
def tryDo {σ α β : Type} (first : σ → σ × Res α) (next : α → σ → σ × Res β) (s : σ) : Access (σ × Res β) :=
  let (s', name) := first s
  if name.hasError then .returns (s', Res.ofError name.assumeError)
  else
    match name.assumeValue with
    | .returns a => .returns (next a s')
    | .throws w => .throws w
    | .ub => .ub

/-- `EMIO_TRYV(step1); EMIO_TRYV(step2); ...; return success;` (predef.hpp:23-28). -/
def tryAll {σ α : Type} : List (σ → σ × Res α) → σ → σ × ResVoid
  | [], s => (s, ResVoid.success)
  | step :: steps, s =>
    let (s', name) := step s
    if name.hasError then (s', ResVoid.ofError name.assumeError) else tryAll steps s'

end Emio
