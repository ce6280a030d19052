import Verif.Model.Result

/-!
# The unit tests of the library, evaluated in the model: test_result.cpp

The checks of /repo/test/unit_test/test_result.cpp with the results the tests expect.  These are no proofs of properties:
they show that the model computes what the authors of the library expect of the code.
-/

namespace Emio.Conformance.Results
open Res

/-- test_result.cpp:15-26. -/
example : (ofValue 1 : Res Int).hasValue = true ∧ (ofValue 1 : Res Int).assumeValue = .returns 1 ∧
    (ofValue 1 : Res Int).value = .returns 1 ∧ (ofValue 1 : Res Int).hasError = false ∧
    (ofValue 1 : Res Int).error = .throws "no error" := by
  decide +kernel

/-- test_result.cpp:28-39. -/
example : (ofError (some .eof) : Res Int).hasValue = false ∧ (ofError (some .eof) : Res Int).value = .throws "eof" ∧
    (ofError (some .eof) : Res Int).hasError = true ∧ (ofError (some .eof) : Res Int).assumeError = some .eof ∧
    (ofError (some .eof) : Res Int).error = .returns (some .eof) := by
  decide +kernel

/-- Comparison of numbers. -/
def eq (a b : Int) : Bool := a == b

/-- The results of the test. -/
def one : Res Int := ofValue 1
/-- The results of the test. -/
def two : Res Int := ofValue 2
/-- The results of the test. -/
def error1 : Res Int := ofError (some .eof)
/-- The results of the test. -/
def error2 : Res Int := ofError (some .invalidArgument)

/-- test_result.cpp:41-78. -/
example : eqRes eq one one = .returns true ∧ eqRes eq error1 error1 = .returns true ∧
    eqRes eq error1 error2 = .returns false ∧ eqRes eq one error1 = .returns false ∧
    eqRes eq error1 one = .returns false ∧ eqRes eq one two = .returns false ∧
    eqValue eq one 1 = .returns true ∧ eqValue eq two 1 = .returns false ∧
    eqErr one (some .eof) = .returns false ∧ eqValue eq error1 1 = .returns false := by
  decide +kernel

/-- test_result.cpp:138-151. -/
example : (ofValue "abc" : Res String).valueOr "def" = "abc" ∧
    (ofError (some .invalidData) : Res String).valueOr "def" = "def" := by
  decide +kernel

/-- test_result.cpp:154-164. -/
example : Err.name (some .eof) = "eof" ∧ Err.name (some .invalidArgument) = "invalid argument" ∧
    Err.name (some .invalidData) = "invalid data" ∧ Err.name (some .invalidFormat) = "invalid format" ∧
    Err.name (some .outOfRange) = "out of range" := by
  decide +kernel

/-- `func_return_float` (the number does not matter). -/
def returnFloat (succeeds : Bool) : Res Int := if succeeds then ofValue 11 else ofError (some .eof)

/-- `func_return_int`. -/
def returnInt (succeeds : Bool) : Access (Unit × Res Int) :=
  tryDo (fun s => (s, returnFloat succeeds)) (fun _ s => (s, ofValue 1)) ()

/-- `func_return_char`. -/
def returnChar (succeeds : Bool) : Access (Unit × Res Char) :=
  match returnInt succeeds with
  | .returns r => tryDo (fun _ => r) (fun _ s => (s, ofValue '1')) ()
  | .throws w => .throws w
  | .ub => .ub

/-- `func_return_void`. -/
def returnVoid (succeeds : Bool) : Access (Unit × Res Unit) :=
  match returnChar succeeds with
  | .returns r =>
    tryDo (fun _ => r) (fun g s => (s, if g = '1' then ofValue () else ofError (some .invalidData))) ()
  | .throws w => .throws w
  | .ub => .ub

/-- test_result.cpp:166-221. -/
example : returnInt true = .returns ((), ofValue 1) ∧ returnInt false = .returns ((), ofError (some .eof)) ∧
    returnChar true = .returns ((), ofValue '1') ∧ returnChar false = .returns ((), ofError (some .eof)) ∧
    returnVoid true = .returns ((), ofValue ()) ∧ returnVoid false = .returns ((), ofError (some .eof)) := by
  decide +kernel

end Emio.Conformance.Results
