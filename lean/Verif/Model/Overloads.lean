import Verif.Model.ValidString
import Verif.Model.UserFormatter
import Verif.Model.Values
/-
Which overload of `format`, `formatted_size`, `print` and `println` a call means (include/emio/format.hpp).
-/
namespace Emio

/-- An argument of a call: how it is formatted, and `format_can_fail_v` of its type
(detail/format/formatter.hpp:781-786). -/
structure CallArg where
  farg : FArg
  canFail : Bool

/-- `format_can_fail_v` of a type with a formatter of the user (detail/format/formatter.hpp:781-786): the flag of the
formatter, `false` if there is none. -/
def UserFormatter.callArg {α : Type} (f : UserFormatter α) (v : α) : CallArg := ⟨f.farg v, f.formatCanFail.getD false⟩

/-- Values of the types the library knows: their formatters do not have the flag (emio/formatter.hpp:89-161, 252-296, ranges.hpp,
std.hpp). -/
def builtinArg (a : FArg) : CallArg := ⟨a, false⟩

/-- `format_args` as an argument: its formatter has the flag (detail/format/format_to.hpp:62-81, line 80). -/
def formatArgsArg (str : Str) (args : List FArg) : CallArg := ⟨formatArgs str args, true⟩

/-- What a function returns: a plain value or a `result` (format.hpp:66-109, 226-257). -/
inductive Returns
  | value | result
  deriving DecidableEq, Repr

/-- The overload that is called, by the constraints of the three overloads (format.hpp:66-67, 85-86, 102-103 for
`formatted_size`; 226-227, 239-240, 252-253 for `format`; 377-378, 390-391, 402-404 for `print`; 445-446, 459-460, 472-473
for `println`).  `valid` tells whether the string is a `valid_format_string` (a literal is), and not a `runtime_string` or a
`format_string`.  Without an overload the program does not compile. -/
def overload (valid : Bool) (canFail : List Bool) : Option Returns :=
  if valid then
    if canFail.all (! ·) then some .value
    else if 0 < canFail.length && canFail.all id then some .result
    else none
  else some .result

/-- What a call gives (format.hpp:66-109, 226-257). -/
inductive Call (σ α : Type)
  | value (a : Access α)
  | result (r : Run σ α)
  | noOverload
  deriving DecidableEq

/-- The overload that returns a plain value takes `value()` of the result (or throws), the other two return the result
(format.hpp:66-109, 226-257). -/
def Call.of {σ α : Type} (valid : Bool) (args : List CallArg) (plain : Access α) (res : Run σ α) : Call σ α :=
  match overload valid (args.map CallArg.canFail) with
  | some .value => .value plain
  | some .result => .result res
  | none => .noOverload

/-- `vformat` (format.hpp:206-217). -/
def vformatRun (v : VStr) (args : List FArg) : Run Unit Str :=
  match MemBuf.new defaultCacheSize 0 with
  | .ok s _ =>
    match vformatTo v args s with
    | .ok s' _ => .ok () s'.view
    | .err _ e => .err () e
    | .bad b => .bad b
  | .err _ e => .err () e
  | .bad b => .bad b

/-- `format` (format.hpp:226-231, 239-244, 252-257). -/
def formatCall (valid : Bool) (v : VStr) (args : List CallArg) : Call Unit Str :=
  .of valid args (formatValid v (args.map CallArg.farg)) (vformatRun v (args.map CallArg.farg))

/-- `formatted_size` with a `result` (format.hpp:85-93, 102-109). -/
def sizeRun (cache : Str) (v : VStr) (args : List FArg) : Run Unit Nat :=
  match vformatTo v args (CountBuf.new cache) with
  | .ok s _ => .ok () s.count
  | .err _ e => .err () e
  | .bad b => .bad b

/-- `formatted_size` (format.hpp:66-77, 85-93, 102-109). -/
def formattedSizeCall (cache : Str) (valid : Bool) (v : VStr) (args : List CallArg) : Call Unit Nat :=
  .of valid args (formattedSizeValid cache v (args.map CallArg.farg)) (sizeRun cache v (args.map CallArg.farg))

/-- `print` to the standard output (format.hpp:377-382, 390-394, 402-406). -/
def printCall (cache : Str) (io : List Nat) (valid : Bool) (v : VStr) (args : List CallArg) : Call Str Unit :=
  .of valid args (printValid cache io v (args.map CallArg.farg)) (printRun cache io v (args.map CallArg.farg))

/-- `println` to the standard output (format.hpp:445-450, 459-463, 472-476). -/
def printlnCall (cache : Str) (io : List Nat) (valid : Bool) (v : VStr) (args : List CallArg) : Call Str Unit :=
  .of valid args (printlnValid cache io v (args.map CallArg.farg)) (printlnRun cache io v (args.map CallArg.farg))

end Emio
