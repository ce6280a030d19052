import Verif.Model.Values
import Verif.Model.Unified
/-
Which formatter a type has: the constraints of the specialisations of `formatter` (include/emio/formatter.hpp,
include/emio/ranges.hpp, include/emio/std.hpp) and the concepts and type traits they use
(include/emio/detail/format/formatter.hpp:773-874, include/emio/detail/format/ranges.hpp).
-/
namespace Emio

mutual

/-- Types of C++ as far as the concepts tell them apart.  Fundamental types, types of the standard library, and classes
described by what can be done with them.  Not included: classes with a formatter of their own (Model/UserFormatter)
(detail/format/formatter.hpp:822-874). -/
inductive CppTy
  | bool
  | char
  /-- The other integral types (`signed char`, `wchar_t` and `char8_t` as well), by sign and size. -/
  | integer (signed : Bool) (bits : Nat)
  /-- By size: `float`, `double`, `long double`. -/
  | floating (bytes : Nat)
  | nullptr
  /-- `void*` and `const void*`. -/
  | voidPointer
  | charPointer
  /-- Pointers to something else. -/
  | pointer
  | stringView
  | array (elem : CppTy)
  | enumeration (isScoped : Bool) (underlying : CppTy) (formatAs : FormatAs)
  | optional (content : CppTy)
  | variant (alternatives : List CppTy)
  | path
  | monostate
  /-- A class: whether a `string_view` can be made from it (as from `std::string`), whether it is derived from
  `std::exception`, its `format_as` function, what one can iterate over, and what one can `get`. -/
  | cls (text exception : Bool) (formatAs : FormatAs) (elems : Elems) (members : Members)

/-- Whether there is a function `format_as` for a type, and what it returns: a value or a reference
(detail/format/formatter.hpp:828-832). -/
inductive FormatAs
  | no
  | value (t : CppTy)
  | ref (t : CppTy)

/-- What one can iterate over: sets have a `key_type`, maps a `mapped_type`; their elements are pairs of a key and a
value (detail/format/ranges.hpp:29-49). -/
inductive Elems
  | no
  | seq (elem : CppTy)
  | set (elem : CppTy)
  | map (key value : CppTy)

/-- The elements of classes like tuples (detail/format/ranges.hpp:83-108). -/
inductive Members
  | no
  | of (types : List CppTy)

end

/-- What the compiler finds: no formatter that can be constructed (`has_formatter_v`, detail/format/formatter.hpp:777-779),
a formatter, or more than one specialisation that fits, which is an error of the program. -/
inductive Sel (α : Type)
  | none
  | found (a : α)
  | illFormed

namespace Sel

/-- The formatter of a type made of another one, e.g. `formatter<std::optional<T>>` of `formatter<T>` (std.hpp:100,
detail/format/ranges.hpp:101-104). -/
def map {α β : Type} (f : α → β) : Sel α → Sel β
  | .none => .none
  | .found a => .found (f a)
  | .illFormed => .illFormed

/-- `is_formattable_v<T> && ...`: all of them are instantiated (std.hpp:100,
detail/format/ranges.hpp:101-104). -/
def cons {α : Type} : Sel α → Sel (List α) → Sel (List α)
  | .illFormed, _ => .illFormed
  | _, .illFormed => .illFormed
  | .found a, .found l => .found (a :: l)
  | _, _ => .none

/-- The choice among the specialisations whose constraints are met: there may be one only (formatter.hpp:167-195,
ranges.hpp:20-22, 116-118, std.hpp:24-100). -/
def choose {α : Type} : List (Sel α) → Sel α
  | [] => .none
  | [s] => s
  | _ => .illFormed

/-- A specialisation whose constraint includes that the formatter `s` exists (detail/format/ranges.hpp:49, 106-108). -/
def constrained {α : Type} (s : Sel α) (others : List (Sel α)) : Sel α :=
  match s with
  | .illFormed => .illFormed
  | .none => choose others
  | .found a => choose (.found a :: others)

end Sel

/-- The formatter of strings (detail/format/formatter.hpp:843-847). -/
def stringFormatter : Sel FTy := .found (.core .string)

/-- Is it `char`? (detail/format/formatter.hpp:855-864). -/
def CppTy.isChar : CppTy → Bool
  | .char => true
  | _ => false

mutual

/-- `formatter<T>` for a type without reference.

* core types and what is unified to a core type: emio/formatter.hpp:89-91, 167-169; detail/format/formatter.hpp:822-874.  An
  array of characters is one of those from which a `string_view` can be made.
* enumerations: emio/formatter.hpp:175-177; `format_as`: emio/formatter.hpp:188-190.
* ranges: emio/ranges.hpp:20-22, 39-52, 108-110; detail/format/ranges.hpp:29-63.  Those from which a `string_view` can be made
  are none.  The formatter of the elements must exist.
* tuples: emio/ranges.hpp:116-118; detail/format/ranges.hpp:83-117: unless they are ranges.
* `std::optional`, `std::variant`: std.hpp:24-26, 99-101; exceptions: std.hpp:54-56; `std::filesystem::path` and
  `std::monostate`: std.hpp:67-68, 79-80. -/
def formatterOf : CppTy → Sel FTy
  | .bool => .found (.core .bool)
  | .char => .found (.core .char)
  | .integer s b => .found (.core (.int (unifyInt ⟨s, b⟩)))
  | .floating n => if n ≤ 8 then .found (.core .double) else .none
  | .nullptr => .found (.core .pointer)
  | .voidPointer => .found (.core .pointer)
  | .charPointer => stringFormatter
  | .pointer => .none
  | .stringView => stringFormatter
  | .array t => if t.isChar then stringFormatter else (formatterOf t).map (.range false)
  | .enumeration isScoped u fa => Sel.choose ((if isScoped then [] else [formatterOf u]) ++ formatAsOf fa)
  | .optional t => (formatterOf t).map .optional
  | .variant ts => (formattersOf ts).map .variant
  | .path => stringFormatter
  | .monostate => .found .monostate
  | .cls text exception fa elems members =>
    let others := (if text then [stringFormatter] else []) ++ (if exception then [stringFormatter] else []) ++ formatAsOf fa
    let range := if text then .none else rangeOf elems
    match range with
    | .none => Sel.constrained ((membersOf members).map (.tuple false)) others
    | s => Sel.constrained s others

/-- The specialisation for types with `format_as` (emio/formatter.hpp:188-195), if there is one: it inherits from the formatter
of what the function returns, references included (detail/format/formatter.hpp:828-832). -/
def formatAsOf : FormatAs → List (Sel FTy)
  | .no => []
  | .value t => [formatterOf t]
  | .ref t => [formatterOfRef t]

/-- `formatter<const T&>`: the traits that compare types, like `is_integral`, `is_enum`, `is_base_of` and
`!is_reference`, do not hold for references, and they have no member types (`key_type`, `mapped_type`).  That leaves what a
`string_view` can be made from, `format_as`, and ranges (detail/format/formatter.hpp:828-832, 843-874,
detail/format/ranges.hpp:39-43, 96). -/
def formatterOfRef : CppTy → Sel FTy
  | .charPointer => stringFormatter
  | .stringView => stringFormatter
  | .array t => if t.isChar then stringFormatter else (formatterOf t).map (.range false)
  | .enumeration _ _ fa => Sel.choose (formatAsOf fa)
  | .path => .found (.range false (.core .string))
  | .cls text _ fa elems _ =>
    let others := (if text then [stringFormatter] else []) ++ formatAsOf fa
    let range := if text then .none else rangeOfRef elems
    Sel.constrained range others
  | _ => .none

/-- Ranges by their elements (emio/ranges.hpp:20-22, 39-52).  The elements of a map are pairs, in the formatter of which the
brackets and the separator are replaced (43-48). -/
def rangeOf : Elems → Sel FTy
  | .no => .none
  | .seq t => (formatterOf t).map (.range false)
  | .set t => (formatterOf t).map (.range true)
  | .map k v => (Sel.cons (formatterOf k) (Sel.cons (formatterOf v) (.found []))).map fun l => .range true (.tuple true l)

/-- Of a reference to a range: neither a set nor a map (detail/format/ranges.hpp:39-43). -/
def rangeOfRef : Elems → Sel FTy
  | .no => .none
  | .seq t => (formatterOf t).map (.range false)
  | .set t => (formatterOf t).map (.range false)
  | .map k v => (Sel.cons (formatterOf k) (Sel.cons (formatterOf v) (.found []))).map fun l => .range false (.tuple false l)

/-- The formatters of the elements (detail/format/ranges.hpp:101-114). -/
def membersOf : Members → Sel (List FTy)
  | .no => .none
  | .of ts => formattersOf ts

/-- `formatter<Ts>…` of a list of types (detail/format/ranges.hpp:101-115, std.hpp:100). -/
def formattersOf : List CppTy → Sel (List FTy)
  | [] => .found []
  | t :: ts => Sel.cons (formatterOf t) (formattersOf ts)

end

end Emio
