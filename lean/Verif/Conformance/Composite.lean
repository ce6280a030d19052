import Verif.Model.Values
import Verif.Model.UserFormatter

/-!
# The unit tests of the library, evaluated in the model: test_ranges.cpp, test_std.cpp, test_dynamic_format_spec.cpp,
test_format_as.cpp, test_formatter.cpp, test_formatted_size.cpp

The checks of these files in /repo/test/unit_test with the results the tests expect.  These are no proofs of properties:
they show that the model computes what the authors of the library expect of the code.
-/

namespace Emio.Conformance.Composite

/-- The text, or the error (`emio::format(str, arg)`). -/
def format (str : String) (arg : FArg) : Run Unit String :=
  match formatStr str.toList [arg] with
  | .ok _ s => .ok () (String.ofList s)
  | .err _ e => .err () e
  | .bad b => .bad b

/-- The types of the tests. -/
abbrev char : FTy := .core .char
@[inherit_doc char] abbrev float : FTy := .core .double
/-- A float of the tests, given by the bits of the double it is converted to. -/
abbrev dbl (bits : Nat) : FVal := .core (.double bits)
/-- The bits of 1.5. -/
abbrev oneAndAHalf : Nat := 0x3ff8000000000000

/-- Numbers in a sequence (`std::vector<int>`, `int[]`). -/
def ints (ns : List Int) : FArg := (FVal.range (ns.map FVal.int)).farg (.seq .int)
/-- Rows of numbers (`std::vector<std::vector<int>>`, `int[][2]`). -/
def rows (ns : List (List Int)) : FArg := (FVal.range (ns.map fun r => .range (r.map FVal.int))).farg (.seq (.seq .int))
/-- Strings (`std::vector<std::string>`, `const char*[]`). -/
def strs (ss : List String) : FArg := (FVal.range (ss.map FVal.string)).farg (.seq .string)

/-- test_ranges.cpp:29-72: arrays and vectors. -/
example : format "{}" (ints [1, 2, 3, 5, 7, 11]) = .ok () "[1, 2, 3, 5, 7, 11]" ∧
    format "{}" (ints [1, 2]) = .ok () "[1, 2]" ∧ format "{:x" (ints [1, 2]) = .err () .invalidFormat ∧
    format "{:n" (ints [1, 2]) = .err () .invalidFormat ∧ format "{::i}" (ints [1, 2]) = .err () .invalidFormat ∧
    format "{}" (rows [[1, 2], [3, 5], [7, 11]]) = .ok () "[[1, 2], [3, 5], [7, 11]]" ∧
    format "{}" (strs ["1234", "abcd"]) = .ok () "[\"1234\", \"abcd\"]" ∧
    format "{:n}" (strs ["1234", "abcd"]) = .ok () "\"1234\", \"abcd\"" ∧
    format "{:n:}" (strs ["1234", "abcd"]) = .ok () "1234, abcd" ∧
    format "{::#x}" (ints [1, 2, 3, 5, 7, 11]) = .ok () "[0x1, 0x2, 0x3, 0x5, 0x7, 0xb]" ∧
    format "{:n:#x}" (ints [1, 2, 3, 5, 7, 11]) = .ok () "0x1, 0x2, 0x3, 0x5, 0x7, 0xb" ∧
    format "{:::#x}" (rows [[1, 2], [3, 5], [7, 11]]) = .ok () "[[0x1, 0x2], [0x3, 0x5], [0x7, 0xb]]" ∧
    format "{:n:n:#x}" (rows [[1, 2], [3, 5], [7, 11]]) = .ok () "0x1, 0x2, 0x3, 0x5, 0x7, 0xb" := by
  decide +kernel

/-- `std::map<std::string, int>{{"one", 1}, {"two", 2}}` (test_ranges.cpp:75). -/
def oneTwo : FArg :=
  (FVal.range [.tuple [.string "one", .int 1], .tuple [.string "two", .int 2]]).farg (.map .string .int)

/-- test_ranges.cpp:74-100: maps and sets. -/
example : format "{}" oneTwo = .ok () "{\"one\": 1, \"two\": 2}" ∧ format "{:n}" oneTwo = .ok () "\"one\": 1, \"two\": 2" ∧
    format "{:::}" oneTwo = .ok () "{one: 1, two: 2}" ∧
    format "{:::^7}" oneTwo = .ok () "{  one  :    1   ,   two  :    2   }" ∧
    format "{}" ((FVal.range [.string "one", .string "two"]).farg (.set .string)) = .ok () "{\"one\", \"two\"}" := by
  decide +kernel

/-- `std::pair<int, float>(42, 1.5f)` (test_ranges.cpp:106). -/
def pair : FArg := (FVal.tuple [.int 42, dbl oneAndAHalf]).farg (.tuple false [.int, float])
/-- `std::tuple<>()` (test_ranges.cpp:121, 137, 138). -/
def noTuple : FArg := (FVal.tuple []).farg (.tuple false [])

/-- test_ranges.cpp:105-138: tuples. -/
example : format "{}" pair = .ok () "(42, 1.5)" ∧ format "{:n}" pair = .ok () "42, 1.5" ∧
    format "{::<5}" pair = .ok () "(42   , 1.5  )" ∧ format "{:x" pair = .err () .invalidFormat ∧
    format "{:n" pair = .err () .invalidFormat ∧ format "{::i}" pair = .err () .invalidFormat ∧
    format "{::}" noTuple = .err () .invalidFormat ∧
    format "{}" ((FVal.tuple [.int 42, dbl oneAndAHalf, .string "this is tuple", .core (.char 'i')]).farg
      (.tuple false [.int, float, .string, char])) = .ok () "(42, 1.5, \"this is tuple\", 'i')" ∧
    format "{}" noTuple = .ok () "()" ∧ format "{:n}" noTuple = .ok () "" ∧
    format "{}" ((FVal.tuple [.int 42, .string "foo"]).farg (.tuple false [.int, .string])) = .ok () "(42, \"foo\")" := by
  decide +kernel

/-- test_ranges.cpp:400-405, "escape_string". -/
example : format "{}" (strs ["\n\r\t\"\\"]) = .ok () "[\"\\n\\r\\t\\\"\\\\\"]" ∧
    format "{}" (strs ["\x07"]) = .ok () "[\"\\x07\"]" ∧ format "{}" (strs ["\x7f"]) = .ok () "[\"\\x7f\"]" ∧
    format "{}" (strs ["n\xcc\x83"]) = .ok () "[\"n\\xcc\\x83\"]" := by
  decide +kernel

/-- `std::vector{'h', 'e', 'l', 'l', 'o'}` in an optional (test_std.cpp:17). -/
def hello : FArg := (FVal.some (.range ("hello".toList.map fun c => .core (.char c)))).farg (.optional (.seq char))
/-- `std::variant<std::monostate, int, double, char, std::nullptr_t, std::string>` (test_std.cpp:62). -/
def variant (v : FVal) : FArg := v.farg (.variant [.monostate, .int, float, char, .core .pointer, .string])

/-- test_std.cpp:12-81. -/
example : format "{}" (FVal.none.farg (.optional .int)) = .ok () "none" ∧
    format "{:x}" ((FVal.some (.int 42)).farg (.optional .int)) = .ok () "optional(2a)" ∧
    format "{}" hello = .ok () "optional(['h', 'e', 'l', 'l', 'o'])" ∧
    format "{::d}" hello = .ok () "optional([104, 101, 108, 108, 111])" ∧
    format "{}" ((FVal.string "std::exception").farg .string) = .ok () "std::exception" ∧
    format "{}" ((FVal.string "").farg .string) = .ok () "" ∧
    format "{:x>11}" ((FVal.string "/abc/dev").farg .string) = .ok () "xxx/abc/dev" ∧
    format "{:x<11?}" ((FVal.string "/abc/dev").farg .string) = .ok () "\"/abc/dev\"x" ∧
    format "{}" (variant (.variant .monostate .monostate)) = .ok () "variant(monostate)" ∧
    format "{}" (variant (.variant .int (.int 42))) = .ok () "variant(42)" ∧
    format "{}" (variant (.variant float (dbl 0x4010cccccccccccd))) = .ok () "variant(4.2)" ∧
    format "{}" (variant (.variant char (.core (.char 'x')))) = .ok () "variant('x')" ∧
    format "{}" (variant (.variant (.core .pointer) (.core (.pointer 0)))) = .ok () "variant(0x0)" ∧
    format "{}" (variant (.variant .string (.string "abc"))) = .ok () "variant(\"abc\")" ∧
    format "{}" (variant .valueless) = .ok () "variant(valueless by exception)" := by
  decide +kernel

/-- `spec.with(5)` (test_dynamic_format_spec.cpp:34). -/
def five (width precision : Int) : FArg := (FVal.int 5).dynamic .int width precision
/-- `spec.with(5.1)` (test_dynamic_format_spec.cpp:36). -/
def fiveOne (width precision : Int) : FArg := (dbl 0x4014666666666666).dynamic float width precision

/-- test_dynamic_format_spec.cpp:30-82. -/
example : format "{}" (five notDefined notDefined) = .ok () "5" ∧ format "{:4}" (five notDefined notDefined) = .ok () "   5" ∧
    format "{:f}" (fiveOne notDefined notDefined) = .ok () "5.100000" ∧
    format "{:.2f}" (fiveOne notDefined notDefined) = .ok () "5.10" ∧
    format "{}" (five 3 3) = .ok () "  5" ∧ format "{:4}" (five 3 3) = .ok () "  5" ∧
    format "{:f}" (fiveOne 3 3) = .ok () "5.100" ∧ format "{:.0f}" (fiveOne 3 3) = .ok () "5.100" ∧
    format "{:^}" ((FVal.int 42).dynamic .int 4 notDefined) = .ok () " 42 " ∧
    format "{::f}" ((FVal.range [dbl 0x4000cac083126e98, dbl 0x4009f5c28f5c28f6, dbl 0x4012000000000000]).dynamic (.seq float)
      notDefined 2) = .ok () "[2.10, 3.25, 4.50]" ∧
    format "{:f}" ((dbl 0x40091eb851eb851f).dynamic float notDefined 1) = .ok () "3.1" := by
  decide +kernel

/-- `emio::formatter<foo>` (test_formatter.cpp:62-94). -/
def foo : UserFormatter Int where
  State := Int
  validate := some do
    let c ← Reader.readChar
    if c = '}' then return ()
    else if c = '-' then do let _ ← Reader.readIfMatchChar '}'
    else M.throw .invalidFormat
  parse := do
    let c ← Reader.readChar
    if c = '}' then return 1
    else
      M.modify (·.pop 1)
      return if c = '-' then -1 else 1
  format := fun sign n ops =>
    match formatRun "foo: {}".toList [(FVal.int (sign * n)).farg .int] with
    | .ok f _ => .ok (ops ++ f.ops) ()
    | .err f e => .err (ops ++ f.ops) e
    | .bad b => .bad b

/-- `emio::formatter<foobar>`, which has no function to validate (test_formatter.cpp:187-209). -/
def foobar : UserFormatter Int where
  State := Int
  validate := none
  parse := do
    let c ← Reader.readChar
    if c = '}' then return 1
    else if c = '-' then do
      let _ ← Reader.readIfMatchChar '}'
      return -1
    else M.throw .invalidFormat
  format := fun sign n ops =>
    match formatRun "foobar: {}".toList [(FVal.int (sign * n)).farg .int] with
    | .ok f _ => .ok (ops ++ f.ops) ()
    | .err f e => .err (ops ++ f.ops) e
    | .bad b => .bad b

/-- `emio::formatter<wrap>`, which inherits the one for `int` (test_formatter.cpp:15-21). -/
def wrap : UserFormatter Int := (coreFormatter (.int i32) (.int i32)).inherit id

/-- test_formatter.cpp:23-130, 211-246. -/
example : format "{}" (wrap.farg 42) = .ok () "42" ∧ format "{:x<4x}" (wrap.farg 42) = .ok () "2axx" ∧
    format "{}" (foo.farg 42) = .ok () "foo: 42" ∧ format "{:-}" (foo.farg 42) = .ok () "foo: -42" ∧
    format "{:+}" (foo.farg 42) = .err () .invalidFormat ∧
    format "{}" (foobar.farg 42) = .ok () "foobar: 42" ∧ format "{:-}" (foobar.farg 42) = .ok () "foobar: -42" ∧
    format "{:+}" (foobar.farg 42) = .err () .invalidFormat := by
  decide +kernel

/-- `emio::formatted_size(str, args...)` with a fresh cache. -/
def size (str : String) (args : List FArg) : Run Unit Nat := formattedSize (uninit 128) str.toList args

/-- test_formatted_size.cpp:9-35. -/
example : size "{}" [(FVal.int 1).farg .int] = .ok () 1 ∧
    size "{} {}" [(FVal.int 1).farg .int, (FVal.int 45).farg .int] = .ok () 4 ∧
    size "{}" [(FVal.int 1).farg .int, (FVal.int 45).farg .int] = .err () .invalidFormat := by
  decide +kernel

end Emio.Conformance.Composite
