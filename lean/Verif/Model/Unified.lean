import Verif.Model.Format
/-
Model of how arguments of other types are turned into arguments of core types: `unified_type`
(include/emio/detail/format/formatter.hpp:834-874) and the formatters that forward to those of core types
(include/emio/formatter.hpp:163-195, include/emio/std.hpp:50-74).
-/
namespace Emio

/-- `unified_type` of an integer type (detail/format/formatter.hpp:849-853, 867-871). -/
def unifyInt (t : IntTy) : IntTy :=
  if t.signed then (if t.bits ≤ 32 then i32 else i64) else (if t.bits ≤ 32 then u32 else u64)

/-- The conversion of a float to a double (detail/format/formatter.hpp:855-859, as C++ and IEEE 754 prescribe it), on bit patterns. -/
def widenFloat (b : Nat) : Nat :=
  let sign := b / 2 ^ 31 % 2
  let e := b / 2 ^ 23 % 2 ^ 8
  let f := b % 2 ^ 23
  sign * 2 ^ 63 +
    (if e = 255 then 2047 * 2 ^ 52 + f * 2 ^ 29
     else if e ≠ 0 then (e + 896) * 2 ^ 52 + f * 2 ^ 29
     else if f = 0 then 0
     else (f.log2 + 874) * 2 ^ 52 + (f - 2 ^ f.log2) * 2 ^ (52 - f.log2))

/-- An argument of a type that can be formatted as a core type (formatter.hpp:167-195,
detail/format/formatter.hpp:834-874, std.hpp:54-73). -/
inductive UserArg
  | core (a : CoreArg)
  /-- An integer of any type. -/
  | integer (t : IntTy) (n : Int)
  /-- A float, given by its bits. -/
  | float (bits : Nat)
  /-- A `std::string`, the native string of a path, or another string with a length. -/
  | text (s : Str)
  /-- A pointer to characters: those in memory from there on.  Also an array of characters (which is taken as a pointer),
  or the description `what()` of an exception. -/
  | chars (mem : Str)
  /-- An unscoped enumerator with a value of its underlying type. -/
  | enumerator (underlying : UserArg)
  /-- A value for which `format_as` returns another. -/
  | formatAs (other : UserArg)
  /-- `ptr(p)` of a pointer or smart pointer with this address (emio/formatter.hpp:298-323). -/
  | ptr (addr : Nat)
  | nullptr

/-- The argument of a core type it is formatted as (detail/format/formatter.hpp:834-874). -/
def UserArg.unified : UserArg → CoreArg
  | .core a => a
  | .integer t n => .int (unifyInt t) n
  | .float b => .double (widenFloat b)
  | .text s => .string s
  | .chars mem => .string (mem.takeWhile (· ≠ '\x00'))
  | .enumerator a => a.unified
  | .formatAs a => a.unified
  | .ptr addr => .pointer addr
  | .nullptr => .pointer 0

/-- The argument as the parser sees it (detail/format/args.hpp:14-27). -/
def UserArg.farg (a : UserArg) : FArg := a.unified.farg

end Emio
