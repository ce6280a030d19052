import Verif.Model.Values
import Verif.Model.UserFormatter
/-
Ranges, tuples, optionals and variants of values with a formatter of the user (include/emio/ranges.hpp,
include/emio/std.hpp): the formatters of containers are built on any formatter of the elements.
-/
namespace Emio

/-- A formatter as the formatters of containers use it.  `parseDebug` is for formatters with the optional function
`set_debug_format`: it calls that function with the argument and then `parse`
(include/emio/detail/format/ranges.hpp:70-77).  `isConst` tells whether `format` is a `const` function. -/
structure ElemFormatter (α : Type) extends UserFormatter α where
  parseDebug : Option (Bool → M Reader State) := none
  isConst : Bool := true

namespace ElemFormatter
variable {α β : Type}

/-- `maybe_set_debug_format`, if there is an argument for it, and `parse` (include/emio/detail/format/ranges.hpp:70-77). -/
def parseWith (f : ElemFormatter α) (debug : Option Bool) : M Reader f.State :=
  match debug, f.parseDebug with
  | some enabled, some p => p enabled
  | _, _ => f.parse

/-- A formatter that inherits everything but `format` from another one, and whose `format` calls the inherited one
(docs/API.md:713-735; include/emio/formatter.hpp:186-195 for types with `format_as`). -/
def inherit (f : ElemFormatter α) (part : β → α) (isConst : Bool := true) : ElemFormatter β where
  toUserFormatter := f.toUserFormatter.inherit part
  parseDebug := f.parseDebug
  isConst := isConst

/-- The loop over the elements of a range (include/emio/ranges.hpp:84-90). -/
def formatEach (format : α → Fmt Unit) (sep : Str) (first : Bool) : List α → Fmt Unit
  | [] => return ()
  | v :: vs => do
    if !first then emit (.str sep)
    format v
    formatEach format sep false vs

/-- `formatter<T>` for ranges (include/emio/ranges.hpp:20-102, 108-110), `curly` for sets.  The state tells whether the
brackets are left out.  `validate` of the formatter of the elements is called (line 33), and `format` on a formatter that is
`const` (line 90): otherwise the program does not compile.  There is no flag `format_can_fail` and no `set_debug_format`. -/
def range (curly : Bool) (f : ElemFormatter α) : Option (ElemFormatter (List α)) :=
  match f.validate, f.isConst with
  | some validate, true => some {
      State := Bool × f.State
      validate := some do if ← validateRangeHead then validate else return ()
      parse := do
        let (n, more) ← parseRangeHead
        let s ← f.parseWith (if more then none else some true)
        return (n, s)
      format := fun (n, s) vs => do
        emit (.str (if n then [] else if curly then ['{'] else ['[']))
        formatEach (f.format s) [',', ' '] true vs
        emit (.str (if n then [] else if curly then ['}'] else [']'])) }
  | _, _ => none

/-- `formatter<std::optional<T>>` (include/emio/std.hpp:24-48): `validate` uses `validate_trait`, and `format` is called on a
formatter that is `const` (line 41). -/
def optional (f : ElemFormatter α) : Option (ElemFormatter (Option α)) :=
  if f.isConst then some {
      State := f.State
      validate := some f.check
      parse := f.parse
      format := fun s v =>
        match v with
        | none => emit (.str ['n', 'o', 'n', 'e'])
        | some v => do
          emit (.str ['o', 'p', 't', 'i', 'o', 'n', 'a', 'l', '('])
          f.format s v
          emit (.char ')') }
  else none

end ElemFormatter

/-- An alternative of a variant, by what the formatter makes of it (include/emio/std.hpp:117-134): `char`, a type from which a
`string_view` can be made, or another type with a formatter. -/
inductive Alternative
  | char
  | text
  | other {α : Type} (f : ElemFormatter α)

/-- The values of an alternative (std.hpp:117-134). -/
def Alternative.Val : Alternative → Type
  | .char => Char
  | .text => Str
  | .other (α := α) _ => α

/-- What is written for the value (include/emio/std.hpp:117-134). -/
def Alternative.write : (a : Alternative) → a.Val → Fmt Unit
  | .char, c => emit (.charEscaped c)
  | .text, s => emit (.strEscaped s)
  | .other f, v => fun ops =>
    match f.parse (Reader.ofStr ['}']) with
    | .ok _ s => f.format s v ops
    | .err _ e => .err ops e
    | .bad b => .bad b

/-- A value of a variant: the alternative and its value, or none if it is valueless by exception (std.hpp:111-141). -/
def VariantVal (as : List Alternative) : Type := Option (Σ i : Fin as.length, (as.get i).Val)

/-- `formatter<std::variant<Ts...>>` (include/emio/std.hpp:99-144): `format` is not `const` (line 111), and the formatters it
calls are not `const` either (128-131). -/
def variantFormatter (as : List Alternative) : ElemFormatter (VariantVal as) where
  State := Unit
  validate := some do let _ ← Reader.readIfMatchChar '}'
  parse := do let _ ← Reader.readIfMatchChar '}'
  format _ v := do
    emit (.str ['v', 'a', 'r', 'i', 'a', 'n', 't', '('])
    (match v with
      | some ⟨i, v⟩ => (as.get i).write v
      | none => emit (.str ['v', 'a', 'l', 'u', 'e', 'l', 'e', 's', 's', ' ', 'b', 'y', ' ',
          'e', 'x', 'c', 'e', 'p', 't', 'i', 'o', 'n']))
    emit (.char ')')
  isConst := false

/-- The formatters of the library for core types, as the elements of containers use them (include/emio/formatter.hpp:89-161):
those of `char` and strings have `set_debug_format` (131-139). -/
def coreElem {α : Type} (ty : CoreTy) (arg : α → CoreArg) : ElemFormatter α where
  toUserFormatter := coreFormatter ty arg
  parseDebug :=
    if ty = .char ∨ ty = .string then some fun enabled => parseFormatSpecs { type := if enabled then '?' else noChar }
    else none

/-- `formatter<std::monostate>` (include/emio/std.hpp:78-93). -/
def monostateElem : ElemFormatter Unit where
  State := Unit
  validate := some do let _ ← Reader.readIfMatchChar '}'
  parse := do let _ ← Reader.readIfMatchChar '}'
  format _ _ := emit (.str ['m', 'o', 'n', 'o', 's', 't', 'a', 't', 'e'])

/-! ### Tuples -/

/-- The types of the elements of a tuple, with their formatters (detail/format/ranges.hpp:110-115). -/
abbrev TupleTypes := List (Σ α : Type, ElemFormatter α)

/-- A tuple (detail/format/ranges.hpp:110-115). -/
def TupleVal : TupleTypes → Type
  | [] => Unit
  | f :: fs => f.1 × TupleVal fs

/-- `formatters_` after parsing (include/emio/ranges.hpp:257). -/
def TupleState : TupleTypes → Type
  | [] => Unit
  | f :: fs => f.2.State × TupleState fs

namespace Tuple

/-- `validate` of all formatters.  Without one of them, or if a `format` is not `const`, the program does not compile
(include/emio/ranges.hpp:175, 230-249). -/
def validators : TupleTypes → Option (List (M Reader Unit))
  | [] => some []
  | f :: fs =>
    match f.2.validate, f.2.isConst, validators fs with
    | some v, true, some vs => some (v :: vs)
    | _, _, _ => none

/-- The calls of `validate` with a copy of the reader (include/emio/ranges.hpp:170-198): the new `reader_pos`. -/
def validateEach (r : Reader) : List (M Reader Unit) → Nat → Run Unit Nat
  | [], pos => .ok () pos
  | v :: vs, pos =>
    match v r with
    | .bad b => .bad b
    | .err _ e => .err () e
    | .ok r' _ =>
      if pos = 0 then validateEach r vs r'.pos
      else if pos ≠ r'.pos then .err () .invalidFormat
      else validateEach r vs pos

/-- The calls of `parse` with a copy of the reader (include/emio/ranges.hpp:200-228). -/
def parseEach (debug : Bool) (r : Reader) : (fs : TupleTypes) → Nat → Run Unit (TupleState fs × Nat)
  | [], pos => .ok () ((), pos)
  | f :: fs, _ =>
    match f.2.parseWith (some debug) r with
    | .bad b => .bad b
    | .err _ e => .err () e
    | .ok r' s =>
      match parseEach debug r fs r'.pos with
      | .ok _ (ss, pos) => .ok () ((s, ss), pos)
      | .err _ e => .err () e
      | .bad b => .bad b

/-- `format_for_each` (include/emio/ranges.hpp:230-255). -/
def formatEach (sep : Str) (first : Bool) : (fs : TupleTypes) → TupleState fs → TupleVal fs → Fmt Unit
  | [], _, _ => return ()
  | f :: fs, (s, ss), (v, vs) => do
    if !first then emit (.str sep)
    f.2.format s v
    formatEach sep false fs ss vs

end Tuple

/-- `formatter<T>` for tuples (include/emio/ranges.hpp:116-259), `entry` for the pairs of maps, the brackets and the separator
of which are replaced (43-48).  The state tells whether the brackets are left out. -/
def tupleFormatter (entry : Bool) (fs : TupleTypes) : Option (ElemFormatter (TupleVal fs)) :=
  match Tuple.validators fs with
  | none => none
  | some validators => some {
      State := Bool × TupleState fs
      validate := some do
        if ← validateRangeHead then
          if fs.isEmpty then M.throw .invalidFormat
          else
            let pos ← onCopies (fun r => Tuple.validateEach r validators 0)
            M.modify (fun r => if pos ≠ 0 then r.pop pos else r)
        else return ()
      parse := do
        let (n, more) ← parseRangeHead
        if fs.isEmpty then
          if more then M.throw .invalidFormat
          else
            let (ss, _) ← onCopies (fun r => Tuple.parseEach (!more) r fs 0)
            M.modify (·.pop 1)
            return (n, ss)
        else
          let (ss, pos) ← onCopies (fun r => Tuple.parseEach (!more) r fs 0)
          M.modify (·.pop pos)
          return (n, ss)
      format := fun (n, ss) vs => do
        emit (.str (if n || entry then [] else ['(']))
        Tuple.formatEach (if entry then [':', ' '] else [',', ' ']) true fs ss vs
        emit (.str (if n || entry then [] else [')'])) }

end Emio
