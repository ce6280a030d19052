import Verif.Model.Format
import Verif.Model.Result
/-
Model of include/emio/detail/validated_string.hpp and of the functions of include/emio/format.hpp that take a valid
format string and return no `result`.
-/
namespace Emio

/-- `get` (validated_string_storage.hpp:62-64). -/
def VStr.get (v : VStr) : Res Str :=
  match v.str with
  | some s => Res.ofValue s
  | none => Res.ofError (some .invalidFormat)

/-- `empty` (validated_string_storage.hpp:54-56); `operator->` of an error would be undefined behaviour. -/
def VStr.empty (v : VStr) : Access Bool :=
  if v.plain then
    match v.get.assumeValue with
    | .returns s => .returns s.isEmpty
    | .throws w => .throws w
    | .ub => .ub
  else .returns false

/-- `as_valid` (validated_string.hpp:95-100). -/
def VStr.asValid (v : VStr) : Res VStr := if v.get.hasValue then Res.ofValue v else Res.ofError (some .invalidFormat)

/-- `valid_string::from` (validated_string.hpp:118-126). -/
def VStr.validFrom (s : Str) (args : List FArg) : Run Unit VStr :=
  match VStr.make s args with
  | .ok _ v => if v.get.hasValue then .ok () v else .err () .invalidFormat
  | .err _ e => .err () e
  | .bad b => .bad b

/-- The constructor from a string literal (validated_string.hpp:72-80, 132-134): with an invalid string the program does
not compile (`std::terminate` in a constant expression). -/
def VStr.literal (s : Str) (args : List FArg) : Run Unit VStr :=
  match VStr.make s args with
  | .ok _ v => if v.get.hasError then .bad .terminate else .ok () v
  | .err _ e => .err () e
  | .bad b => .bad b

/-- `value()` of the result of a function (result.hpp:304-343). -/
def Run.access {σ α : Type} : Run σ α → Access α
  | .ok _ a => (Res.ofValue a).value
  | .err _ e => (Res.ofError (some e)).value
  | .bad _ => .ub

/-- `format` with a valid format string (format.hpp:226-231, with 211-217): `vformat(...).value()`. -/
def formatValid (v : VStr) (args : List FArg) : Access Str :=
  match MemBuf.new defaultCacheSize 0 with
  | .ok s _ =>
    match vformatTo v args s with
    | .ok s' _ => (Run.ok () s'.view : Run Unit Str).access
    | .err _ e => (Run.err () e : Run Unit Str).access
    | .bad b => (Run.bad b : Run Unit Str).access
  | .err _ e => (Run.err () e : Run Unit Str).access
  | .bad b => (Run.bad b : Run Unit Str).access

/-- `formatted_size` with a valid format string (format.hpp:66-77). -/
def formattedSizeValid (cache : Str) (v : VStr) (args : List FArg) : Access Nat :=
  match vformatTo v args (CountBuf.new cache) with
  | .ok s _ => (Run.ok () s.count : Run Unit Nat).access
  | .err _ e => (Run.err () e : Run Unit Nat).access
  | .bad b => (Run.bad b : Run Unit Nat).access

/-- What `print` with a valid format string does to the standard output (format.hpp:361-369, 377-382); `io` as in
`FileBuf`. -/
def printRun (cache : Str) (io : List Nat) (v : VStr) (args : List FArg) : Run Str Unit :=
  match vformatTo v args (FileBuf.new cache io) with
  | .ok s _ =>
    match FileBuf.flush s with
    | .ok s' _ => .ok s'.file ()
    | .err s' e => .err s'.file e
    | .bad b => .bad b
  | .err s e => .err s.file e
  | .bad b => .bad b

/-- What `println` with a valid format string does to the standard output (format.hpp:427-437, 445-450). -/
def printlnRun (cache : Str) (io : List Nat) (v : VStr) (args : List FArg) : Run Str Unit :=
  match (do vformatTo v args; writeArea 1 ['\n']; FileBuf.flush : M FileBuf Unit) (FileBuf.new cache io) with
  | .ok s _ => .ok s.file ()
  | .err s e => .err s.file e
  | .bad b => .bad b

/-- `print` with a valid format string (format.hpp:377-382): `.value()` of what it did. -/
def printValid (cache : Str) (io : List Nat) (v : VStr) (args : List FArg) : Access Unit :=
  (printRun cache io v args).access

/-- `println` with a valid format string (format.hpp:445-450). -/
def printlnValid (cache : Str) (io : List Nat) (v : VStr) (args : List FArg) : Access Unit :=
  (printlnRun cache io v args).access

end Emio
