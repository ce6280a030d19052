import Verif.Model.Parser
/-
Formatters written by the user of the library (include/emio/formatter.hpp:30-77; docs/API.md "Formatter").
-/
namespace Emio

/-- A specialisation `formatter<T>` (include/emio/formatter.hpp:30-77): `State` is what the formatter remembers of a
specification, `validate` the optional static function, `parse` yields the state, `format` does something with the writer
and returns a result.  Simplification: what `format` does is a program over the writer (`Fmt`), i.e. it only sees the
buffer through the writer and passes errors of it on (`EMIO_TRYV`).  `formatCanFail` is the optional flag
`format_can_fail`, which selects overloads (`Model/Overloads.lean`). -/
structure UserFormatter (α : Type) where
  State : Type
  validate : Option (M Reader Unit)
  parse : M Reader State
  format : State → α → Fmt Unit
  formatCanFail : Option Bool := none

namespace UserFormatter
variable {α β : Type}

/-- `validate_trait` (include/emio/detail/format/formatter.hpp:805-820): `validate` if there is one, otherwise `parse` of a
formatter that is thrown away. -/
def check (f : UserFormatter α) : M Reader Unit :=
  match f.validate with
  | some v => v
  | none => do
    let _ ← f.parse
    return ()

/-- `format_arg_trait` (include/emio/detail/format/args.hpp:14-27): `process_arg` parses with a fresh formatter and then
formats. -/
def farg (f : UserFormatter α) (v : α) : FArg where
  validate := f.check
  parse := do
    let s ← f.parse
    return f.format s v

/-- A formatter that inherits `validate` and `parse` from another one, and whose `format` formats a part of the value with
it (docs/API.md:713-735). -/
def inherit (f : UserFormatter α) (part : β → α) : UserFormatter β where
  State := f.State
  validate := f.validate
  parse := f.parse
  format s v := f.format s (part v)
  formatCanFail := f.formatCanFail

end UserFormatter

/-- `formatter<T>` for core types as a formatter to inherit from (include/emio/formatter.hpp:89-161).  `ty` is the type,
`arg` makes an argument of a value of it. -/
def coreFormatter {α : Type} (ty : CoreTy) (arg : α → CoreArg) : UserFormatter α where
  State := Specs
  validate := some ty.validate
  parse := parseFormatSpecs {}
  format s v := (arg v).write s

end Emio
