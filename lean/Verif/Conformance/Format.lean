import Verif.Model.Unified
import Verif.Model.Format

/-!
# The unit tests of the library, evaluated in the model: test_format.cpp

Every check of /repo/test/unit_test/test_format.cpp that formats arguments of the kinds the model knows, with the result
the test expects.  These are no proofs of properties: they show that the model computes what the authors of the library
expect of the code.  The kernel evaluates the model for each of them.  Left out are two checks the kernel needs too much
memory for (`{:.494}` and `{:.1074f}` of the smallest double, which `#eval` confirms), the arguments of types of the test
itself that convert implicitly (test_format.cpp:826, 843) and test_format.cpp:854.
-/

namespace Emio.Conformance

/-- A check of a test: a format string, the arguments, and what is expected. -/
inductive Check
  /-- `CHECK(emio::format(str, args...) == text)`. -/
  | gives (str : String) (args : List UserArg) (text : String)
  /-- `CHECK(emio::format(emio::runtime(str), args...) == error)`. -/
  | fails (str : String) (args : List UserArg) (error : Err)
  /-- `CHECK(validate_format_string<Args...>(str) == valid)`, with some arguments of these types. -/
  | isValid (str : String) (args : List UserArg) (valid : Bool)

/-- Whether the model does as expected. -/
def Check.passes : Check → Bool
  | .gives str args text => formatStr str.toList (args.map UserArg.farg) == .ok () text.toList
  | .fails str args error => formatStr str.toList (args.map UserArg.farg) == .err () error
  | .isValid str args valid => validateStr str.toList (args.map UserArg.farg) == .ok () valid

/-- test_format.cpp:22-34, "escape". -/
def escape : List Check := [
    .gives "{{" [] "{",
    .gives "before {{" [] "before {",
    .gives "{{ after" [] "{ after",
    .gives "before {{ after" [] "before { after",
    .gives "}}" [] "}",
    .gives "before }}" [] "before }",
    .gives "}} after" [] "} after",
    .gives "before }} after" [] "before } after",
    .gives "{{}}" [] "{}",
    .gives "{{{0}}}" [.integer ⟨true,32⟩ (42)] "{42}"]

/-- test_format.cpp:37-40, "unmatched_braces". -/
def unmatchedBraces : List Check := [
    .fails "{" [] .invalidFormat,
    .fails "}" [] .invalidFormat,
    .fails "{0{}" [] .invalidFormat]

/-- test_format.cpp:43-44, "no_args". -/
def noArgs : List Check := [
    .gives "test" [] "test"]

/-- test_format.cpp:47-54, "args_in_different_positions". -/
def argsInDifferentPositions : List Check := [
    .gives "{0}" [.integer ⟨true,32⟩ (42)] "42",
    .gives "before {0}" [.integer ⟨true,32⟩ (42)] "before 42",
    .gives "{0} after" [.integer ⟨true,32⟩ (42)] "42 after",
    .gives "before {0} after" [.integer ⟨true,32⟩ (42)] "before 42 after",
    .gives "{0} = {1}" [.chars ("answer\x00".toList), .integer ⟨true,32⟩ (42)] "answer = 42",
    .gives "{1} is the {0}" [.chars ("answer\x00".toList), .integer ⟨true,32⟩ (42)] "42 is the answer",
    .gives "{0}{1}{0}" [.chars ("abra\x00".toList), .chars ("cad\x00".toList)] "abracadabra"]

/-- test_format.cpp:57-64, "auto_arg_index". -/
def autoArgIndex : List Check := [
    .gives "{}{}{}" [.core (.char (Char.ofNat 97)), .core (.char (Char.ofNat 98)), .core (.char (Char.ofNat 99))] "abc",
    .fails "{0}{}" [.core (.char (Char.ofNat 97)), .core (.char (Char.ofNat 98))] .invalidFormat,
    .fails "{}{0}" [.core (.char (Char.ofNat 97)), .core (.char (Char.ofNat 98))] .invalidFormat,
    .gives "{:.2}" [.core (.double 4608238512912635789)] "1.2",
    .fails "{0}:.{}" [.core (.double 4608238512912635789), .integer ⟨true,32⟩ (2)] .invalidFormat,
    .fails "{:.{0}}" [.core (.double 4608238512912635789), .integer ⟨true,32⟩ (2)] .invalidFormat,
    .fails "{}" [] .invalidFormat]

/-- test_format.cpp:67-68, "empty_specs". -/
def emptySpecs : List Check := [
    .gives "{0:}" [.integer ⟨true,32⟩ (42)] "42"]

/-- test_format.cpp:71-85, "left align". -/
def leftAlign : List Check := [
    .gives "{0:<}" [.integer ⟨true,32⟩ (42)] "42",
    .gives "{0:<4}" [.integer ⟨true,32⟩ (42)] "42  ",
    .gives "{0:<4o}" [.integer ⟨true,32⟩ (34)] "42  ",
    .gives "{0:<4x}" [.integer ⟨true,32⟩ (66)] "42  ",
    .gives "{0:<5}" [.integer ⟨true,32⟩ (-42)] "-42  ",
    .gives "{0:<5}" [.integer ⟨false,32⟩ (42)] "42   ",
    .gives "{0:<5}" [.integer ⟨true,64⟩ (-42)] "-42  ",
    .gives "{0:<5}" [.integer ⟨false,64⟩ (42)] "42   ",
    .gives "{0:<5}" [.integer ⟨true,64⟩ (-42)] "-42  ",
    .gives "{0:<5}" [.integer ⟨false,64⟩ (42)] "42   ",
    .gives "{0:<5}" [.core (.double 13854479828675198976)] "-42  ",
    .gives "{0:<5}" [.core (.char (Char.ofNat 99))] "c    ",
    .gives "{0:<5}" [.chars ("abc\x00".toList)] "abc  ",
    .gives "{0:<8}" [.core (.pointer 64206)] "0xface  "]

/-- test_format.cpp:88-102, "right align". -/
def rightAlign : List Check := [
    .gives "{0:>}" [.integer ⟨true,32⟩ (42)] "42",
    .gives "{0:>4}" [.integer ⟨true,32⟩ (42)] "  42",
    .gives "{0:>4o}" [.integer ⟨true,32⟩ (34)] "  42",
    .gives "{0:>4x}" [.integer ⟨true,32⟩ (66)] "  42",
    .gives "{0:>5}" [.integer ⟨true,32⟩ (-42)] "  -42",
    .gives "{0:>5}" [.integer ⟨false,32⟩ (42)] "   42",
    .gives "{0:>5}" [.integer ⟨true,64⟩ (-42)] "  -42",
    .gives "{0:>5}" [.integer ⟨false,64⟩ (42)] "   42",
    .gives "{0:>5}" [.integer ⟨true,64⟩ (-42)] "  -42",
    .gives "{0:>5}" [.integer ⟨false,64⟩ (42)] "   42",
    .gives "{0:>5}" [.core (.double 13854479828675198976)] "  -42",
    .gives "{0:>5}" [.core (.char (Char.ofNat 99))] "    c",
    .gives "{0:>5}" [.chars ("abc\x00".toList)] "  abc",
    .gives "{0:>8}" [.core (.pointer 64206)] "  0xface"]

/-- test_format.cpp:105-119, "center align". -/
def centerAlign : List Check := [
    .gives "{0:^}" [.integer ⟨true,32⟩ (42)] "42",
    .gives "{0:^5}" [.integer ⟨true,32⟩ (42)] " 42  ",
    .gives "{0:^5o}" [.integer ⟨true,32⟩ (34)] " 42  ",
    .gives "{0:^5x}" [.integer ⟨true,32⟩ (66)] " 42  ",
    .gives "{0:^5}" [.integer ⟨true,32⟩ (-42)] " -42 ",
    .gives "{0:^5}" [.integer ⟨false,32⟩ (42)] " 42  ",
    .gives "{0:^5}" [.integer ⟨true,64⟩ (-42)] " -42 ",
    .gives "{0:^5}" [.integer ⟨false,64⟩ (42)] " 42  ",
    .gives "{0:^5}" [.integer ⟨true,64⟩ (-42)] " -42 ",
    .gives "{0:^5}" [.integer ⟨false,64⟩ (42)] " 42  ",
    .gives "{0:^5}" [.core (.double 13854479828675198976)] " -42 ",
    .gives "{0:^5}" [.core (.char (Char.ofNat 99))] "  c  ",
    .gives "{0:^6}" [.chars ("abc\x00".toList)] " abc  ",
    .gives "{0:^8}" [.core (.pointer 64206)] " 0xface "]

/-- test_format.cpp:122-135, "fill". -/
def fill : List Check := [
    .gives "{0:*>4}" [.integer ⟨true,32⟩ (42)] "**42",
    .gives "{0:*>5}" [.integer ⟨true,32⟩ (-42)] "**-42",
    .gives "{0:*>5}" [.integer ⟨false,32⟩ (42)] "***42",
    .gives "{0:*>5}" [.integer ⟨true,64⟩ (-42)] "**-42",
    .gives "{0:*>5}" [.integer ⟨false,64⟩ (42)] "***42",
    .gives "{0:*>5}" [.integer ⟨true,64⟩ (-42)] "**-42",
    .gives "{0:*>5}" [.integer ⟨false,64⟩ (42)] "***42",
    .gives "{0:*>5}" [.core (.double 13854479828675198976)] "**-42",
    .gives "{0:*<5}" [.core (.char (Char.ofNat 99))] "c****",
    .gives "{0:*<5}" [.chars ("abc\x00".toList)] "abc**",
    .gives "{0:*>8}" [.core (.pointer 64206)] "**0xface",
    .gives "{:}=" [.chars ("foo\x00".toList)] "foo=",
    .gives "{:\x00>4}" [.core (.char (Char.ofNat 42))] "\x00\x00\x00*"]

/-- test_format.cpp:139-155, "plus sign". -/
def plusSign : List Check := [
    .gives "{0:+}" [.integer ⟨true,32⟩ (42)] "+42",
    .gives "{0:+}" [.integer ⟨true,32⟩ (-42)] "-42",
    .gives "{0:+}" [.integer ⟨true,32⟩ (42)] "+42",
    .fails "{0:+}" [.integer ⟨false,32⟩ (42)] .invalidFormat,
    .gives "{0:+}" [.integer ⟨true,64⟩ (42)] "+42",
    .fails "{0:+}" [.integer ⟨false,64⟩ (42)] .invalidFormat,
    .gives "{0:+}" [.integer ⟨true,64⟩ (42)] "+42",
    .fails "{0:+}" [.integer ⟨false,64⟩ (42)] .invalidFormat,
    .gives "{0:+}" [.core (.double 4631107791820423168)] "+42",
    .fails "{0:+" [.core (.char (Char.ofNat 99))] .invalidFormat,
    .fails "{0:+}" [.core (.char (Char.ofNat 99))] .invalidFormat,
    .fails "{0:+}" [.chars ("abc\x00".toList)] .invalidFormat,
    .fails "{0:+}" [.core (.pointer 66)] .invalidFormat]

/-- test_format.cpp:158-168, "minus sign". -/
def minusSign : List Check := [
    .gives "{0:-}" [.integer ⟨true,32⟩ (42)] "42",
    .gives "{0:-}" [.integer ⟨true,32⟩ (-42)] "-42",
    .gives "{0:-}" [.integer ⟨true,32⟩ (42)] "42",
    .fails "{0:-}" [.integer ⟨false,32⟩ (42)] .invalidFormat,
    .gives "{0:-}" [.integer ⟨true,64⟩ (42)] "42",
    .gives "{0:-}" [.integer ⟨true,64⟩ (42)] "42",
    .gives "{0:-}" [.core (.double 4631107791820423168)] "42",
    .fails "{0:-}" [.core (.char (Char.ofNat 99))] .invalidFormat,
    .fails "{0:-}" [.chars ("abc\x00".toList)] .invalidFormat,
    .fails "{0:-}" [.core (.pointer 66)] .invalidFormat]

/-- test_format.cpp:171-184, "space sign". -/
def spaceSign : List Check := [
    .gives "{0: }" [.integer ⟨true,32⟩ (42)] " 42",
    .gives "{0: }" [.integer ⟨true,32⟩ (-42)] "-42",
    .gives "{0: }" [.integer ⟨true,32⟩ (42)] " 42",
    .fails "{0: }" [.integer ⟨false,32⟩ (42)] .invalidFormat,
    .gives "{0: }" [.integer ⟨true,64⟩ (42)] " 42",
    .fails "{0: }" [.integer ⟨false,64⟩ (42)] .invalidFormat,
    .gives "{0: }" [.integer ⟨true,64⟩ (42)] " 42",
    .fails "{0: }" [.integer ⟨false,64⟩ (42)] .invalidFormat,
    .gives "{0: }" [.core (.double 4631107791820423168)] " 42",
    .fails "{0: " [.core (.char (Char.ofNat 99))] .invalidFormat,
    .fails "{0: }" [.core (.char (Char.ofNat 99))] .invalidFormat,
    .fails "{0: }" [.chars ("abc\x00".toList)] .invalidFormat,
    .fails "{0: }" [.core (.pointer 66)] .invalidFormat]

/-- test_format.cpp:187-229, "hash flag". -/
def hashFlag : List Check := [
    .gives "{0:#}" [.integer ⟨true,32⟩ (42)] "42",
    .gives "{0:#}" [.integer ⟨true,32⟩ (-42)] "-42",
    .gives "{0:#b}" [.integer ⟨true,32⟩ (42)] "0b101010",
    .gives "{0:#B}" [.integer ⟨true,32⟩ (42)] "0B101010",
    .gives "{0:#b}" [.integer ⟨true,32⟩ (-42)] "-0b101010",
    .gives "{0:#x}" [.integer ⟨true,32⟩ (66)] "0x42",
    .gives "{0:#X}" [.integer ⟨true,32⟩ (66)] "0X42",
    .gives "{0:#x}" [.integer ⟨true,32⟩ (-66)] "-0x42",
    .gives "{0:#o}" [.integer ⟨true,32⟩ (0)] "0",
    .gives "{0:#o}" [.integer ⟨true,32⟩ (34)] "042",
    .gives "{0:#o}" [.integer ⟨true,32⟩ (-34)] "-042",
    .gives "{0:#}" [.integer ⟨false,32⟩ (42)] "42",
    .gives "{0:#x}" [.integer ⟨false,32⟩ (66)] "0x42",
    .gives "{0:#o}" [.integer ⟨false,32⟩ (34)] "042",
    .gives "{0:#}" [.integer ⟨true,64⟩ (-42)] "-42",
    .gives "{0:#x}" [.integer ⟨true,64⟩ (66)] "0x42",
    .gives "{0:#x}" [.integer ⟨true,64⟩ (-66)] "-0x42",
    .gives "{0:#o}" [.integer ⟨true,64⟩ (34)] "042",
    .gives "{0:#o}" [.integer ⟨true,64⟩ (-34)] "-042",
    .gives "{0:#}" [.integer ⟨false,64⟩ (42)] "42",
    .gives "{0:#x}" [.integer ⟨false,64⟩ (66)] "0x42",
    .gives "{0:#o}" [.integer ⟨false,64⟩ (34)] "042",
    .gives "{0:#}" [.integer ⟨true,64⟩ (-42)] "-42",
    .gives "{0:#x}" [.integer ⟨true,64⟩ (66)] "0x42",
    .gives "{0:#x}" [.integer ⟨true,64⟩ (-66)] "-0x42",
    .gives "{0:#o}" [.integer ⟨true,64⟩ (34)] "042",
    .gives "{0:#o}" [.integer ⟨true,64⟩ (-34)] "-042",
    .gives "{0:#}" [.integer ⟨false,64⟩ (42)] "42",
    .gives "{0:#x}" [.integer ⟨false,64⟩ (66)] "0x42",
    .gives "{0:#o}" [.integer ⟨false,64⟩ (34)] "042",
    .gives "{0:#}" [.core (.double 13854479828675198976)] "-42.",
    .gives "{:#.0e}" [.core (.double 4631107791820423168)] "4.e+01",
    .gives "{:#.0f}" [.core (.double 4576918229304087675)] "0.",
    .gives "{:#.2g}" [.core (.double 4602678819172646912)] "0.50",
    .gives "{:#.0f}" [.core (.double 4602678819172646912)] "0.",
    .fails "{0:#" [.core (.char (Char.ofNat 99))] .invalidFormat,
    .fails "{0:#}" [.core (.char (Char.ofNat 99))] .invalidFormat,
    .fails "{0:#}" [.chars ("abc\x00".toList)] .invalidFormat,
    .fails "{0:#}" [.core (.pointer 66)] .invalidFormat]

/-- test_format.cpp:232-244, "zero flag". -/
def zeroFlag : List Check := [
    .fails "{0:0}" [] .invalidFormat,
    .gives "{0:05}" [.integer ⟨true,32⟩ (-42)] "-0042",
    .gives "{0:05}" [.integer ⟨false,32⟩ (42)] "00042",
    .gives "{0:05}" [.integer ⟨true,64⟩ (-42)] "-0042",
    .gives "{0:05}" [.integer ⟨false,64⟩ (42)] "00042",
    .gives "{0:05}" [.integer ⟨true,64⟩ (-42)] "-0042",
    .gives "{0:05}" [.integer ⟨false,64⟩ (42)] "00042",
    .gives "{0:07}" [.core (.double 13854479828675198976)] "-000042",
    .fails "{0:0" [.core (.char (Char.ofNat 99))] .invalidFormat,
    .fails "{0:05}" [.core (.char (Char.ofNat 99))] .invalidFormat,
    .fails "{0:05}" [.chars ("abc\x00".toList)] .invalidFormat,
    .fails "{0:05}" [.core (.pointer 66)] .invalidFormat]

/-- test_format.cpp:247-255, "zero_flag_and_align". -/
def zeroFlagAndAlign : List Check := [
    .gives "{0:<05}" [.integer ⟨true,32⟩ (42)] "42   ",
    .gives "{0:<05}" [.integer ⟨true,32⟩ (-42)] "-42  ",
    .gives "{0:^05}" [.integer ⟨true,32⟩ (42)] " 42  ",
    .gives "{0:^05}" [.integer ⟨true,32⟩ (-42)] " -42 ",
    .gives "{0:>05}" [.integer ⟨true,32⟩ (42)] "   42",
    .gives "{0:>05}" [.integer ⟨true,32⟩ (-42)] "  -42",
    .gives "{0:>05}" [.integer ⟨true,32⟩ (-42)] "  -42"]

/-- test_format.cpp:258-264, "zero_flag_sign_and_prefix". -/
def zeroFlagSignAndPrefix : List Check := [
    .gives "{0:#8x}" [.integer ⟨true,32⟩ (42)] "    0x2a",
    .gives "{0:+#8x}" [.integer ⟨true,32⟩ (42)] "   +0x2a",
    .gives "{0:#08x}" [.integer ⟨true,32⟩ (42)] "0x00002a",
    .gives "{0:+#08x}" [.integer ⟨true,32⟩ (42)] "+0x0002a",
    .gives "{0:#8x}" [.integer ⟨true,32⟩ (-42)] "   -0x2a",
    .gives "{0:#08x}" [.integer ⟨true,32⟩ (-42)] "-0x0002a"]

/-- test_format.cpp:267-301, "width". -/
def width : List Check := [
    .gives "{0:4}" [.integer ⟨true,32⟩ (-42)] " -42",
    .gives "{0:5}" [.integer ⟨false,32⟩ (42)] "   42",
    .gives "{0:6}" [.integer ⟨true,64⟩ (-42)] "   -42",
    .gives "{0:7}" [.integer ⟨false,64⟩ (42)] "     42",
    .gives "{0:6}" [.integer ⟨true,64⟩ (-42)] "   -42",
    .gives "{0:7}" [.integer ⟨false,64⟩ (42)] "     42",
    .gives "{0:8}" [.core (.double 13831590283569088430)] "   -1.23",
    .gives "{0:10}" [.core (.pointer 51966)] "    0xcafe",
    .gives "{0:11}" [.core (.char (Char.ofNat 120))] "x          ",
    .gives "{0:12}" [.chars ("str\x00".toList)] "str         ",
    .gives "{:#6}" [.core (.double 4631107791820423168)] "   42.",
    .gives "{:6c}" [.integer ⟨true,32⟩ 120] "x     ",
    .gives "{:06.0f}" [.core (.double 4576251327624355367)] "000000",
    .gives "{:>06.0f}" [.core (.double 4576251327624355367)] "     0",
    .gives "{:5?}" [.chars ("\x0a\x00".toList)] "\"\\n\" "]

/-- test_format.cpp:304-417, "precision". -/
def precision : List Check := [
    .fails "{0:." [.core (.double 0)] .invalidFormat,
    .fails "{0:.}" [.core (.double 0)] .invalidFormat,
    .fails "{0:.2" [.integer ⟨true,32⟩ (0)] .invalidFormat,
    .fails "{0:.2}" [.integer ⟨true,32⟩ (42)] .invalidFormat,
    .fails "{0:.2f}" [.integer ⟨true,32⟩ (42)] .invalidFormat,
    .fails "{0:.2}" [.integer ⟨false,32⟩ (42)] .invalidFormat,
    .fails "{0:.2f}" [.integer ⟨false,32⟩ (42)] .invalidFormat,
    .fails "{0:.2}" [.integer ⟨true,64⟩ (42)] .invalidFormat,
    .fails "{0:.2f}" [.integer ⟨true,64⟩ (42)] .invalidFormat,
    .fails "{0:.2}" [.integer ⟨false,64⟩ (42)] .invalidFormat,
    .fails "{0:.2f}" [.integer ⟨false,64⟩ (42)] .invalidFormat,
    .fails "{0:.2}" [.integer ⟨true,64⟩ (42)] .invalidFormat,
    .fails "{0:.2f}" [.integer ⟨true,64⟩ (42)] .invalidFormat,
    .fails "{0:.2}" [.integer ⟨false,64⟩ (42)] .invalidFormat,
    .fails "{0:.2f}" [.integer ⟨false,64⟩ (42)] .invalidFormat,
    .fails "{0:3.0}" [.core (.char (Char.ofNat 120))] .invalidFormat,
    .gives "{0:.2}" [.core (.double 4608238512912635789)] "1.2",
    .gives "{:.2}" [.core (.double 5446014599976507226)] "1.2e+56",
    .gives "{0:.3}" [.core (.double 4607632778762754458)] "1.1",
    .gives "{:.0e}" [.core (.double 4607182418800017408)] "1e+00",
    .gives "{:9.1e}" [.core (.double 0)] "  0.0e+00",
    .gives "{:#.0f}" [.core (.double 4638355772470722560)] "123.",
    .gives "{:.02f}" [.core (.double 4608236261112822104)] "1.23",
    .gives "{:.1g}" [.core (.double 4562254508917369340)] "0.001",
    .gives "{}" [.float 1316166528] "1019666432",
    .gives "{:.0e}" [.core (.double 4621537642612260864)] "1e+01",
    .gives "{:.1e}" [.core (.double 4098448866519239753)] "1.0e-34",
    .fails "{0:.2}" [.core (.pointer 51966)] .invalidFormat,
    .fails "{0:.2f}" [.core (.pointer 51966)] .invalidFormat,
    .fails "{0:.2e}" [.core (.pointer 51966)] .invalidFormat,
    .fails "{0:.-1e}" [.core (.double 4631107791820423168)] .invalidFormat,
    .fails "{0:.-1e}" [.core (.double 4631107791820423168)] .invalidFormat]

/-- test_format.cpp:423-430, "format bool". -/
def formatBool : List Check := [
    .gives "{}" [.core (.bool true)] "true",
    .gives "{}" [.core (.bool false)] "false",
    .gives "{:d}" [.core (.bool true)] "1",
    .gives "{:5}" [.core (.bool true)] "true ",
    .gives "{:s}" [.core (.bool true)] "true",
    .gives "{:s}" [.core (.bool false)] "false",
    .gives "{:6s}" [.core (.bool false)] "false "]

/-- test_format.cpp:433-437, "format short". -/
def formatShort : List Check := [
    .gives "{0:d}" [.integer ⟨true,16⟩ 42] "42",
    .gives "{0:d}" [.integer ⟨false,16⟩ 42] "42"]

/-- test_format.cpp:440-443, "format int". -/
def formatInt : List Check := [
    .fails "{0:v" [.integer ⟨true,32⟩ (42)] .invalidFormat,
    .gives "{:c}" [.integer ⟨true,32⟩ 120] "x"]

/-- test_format.cpp:446-454, "format bin". -/
def formatBin : List Check := [
    .gives "{0:b}" [.integer ⟨true,32⟩ (0)] "0",
    .gives "{0:b}" [.integer ⟨true,32⟩ (42)] "101010",
    .gives "{0:b}" [.integer ⟨false,32⟩ (42)] "101010",
    .gives "{0:b}" [.integer ⟨true,32⟩ (-42)] "-101010",
    .gives "{0:b}" [.integer ⟨true,32⟩ (12345)] "11000000111001",
    .gives "{0:b}" [.integer ⟨true,32⟩ (305419896)] "10010001101000101011001111000",
    .gives "{0:b}" [.integer ⟨false,32⟩ (2427178479)] "10010000101010111100110111101111",
    .gives "{0:b}" [.integer ⟨false,32⟩ 4294967295] "11111111111111111111111111111111"]

/-- test_format.cpp:457-465, "format dec". -/
def formatDec : List Check := [
    .gives "{0}" [.integer ⟨true,32⟩ (0)] "0",
    .gives "{0}" [.integer ⟨true,32⟩ (42)] "42",
    .gives "{:}>" [.integer ⟨true,32⟩ (42)] "42>",
    .gives "{0:d}" [.integer ⟨true,32⟩ (42)] "42",
    .gives "{0}" [.integer ⟨false,32⟩ (42)] "42",
    .gives "{0}" [.integer ⟨true,32⟩ (-42)] "-42",
    .gives "{0}" [.integer ⟨true,32⟩ (12345)] "12345",
    .gives "{0}" [.integer ⟨true,32⟩ (67890)] "67890"]

/-- test_format.cpp:492-500, "format hex". -/
def formatHex : List Check := [
    .gives "{0:x}" [.integer ⟨true,32⟩ (0)] "0",
    .gives "{0:x}" [.integer ⟨true,32⟩ (66)] "42",
    .gives "{0:x}" [.integer ⟨false,32⟩ (66)] "42",
    .gives "{0:x}" [.integer ⟨true,32⟩ (-66)] "-42",
    .gives "{0:x}" [.integer ⟨true,32⟩ (305419896)] "12345678",
    .gives "{0:x}" [.integer ⟨false,32⟩ (2427178479)] "90abcdef",
    .gives "{0:X}" [.integer ⟨true,32⟩ (305419896)] "12345678",
    .gives "{0:X}" [.integer ⟨false,32⟩ (2427178479)] "90ABCDEF"]

/-- test_format.cpp:527-532, "format_oct". -/
def formatOct : List Check := [
    .gives "{0:o}" [.integer ⟨true,32⟩ (0)] "0",
    .gives "{0:o}" [.integer ⟨true,32⟩ (34)] "42",
    .gives "{0:o}" [.integer ⟨false,32⟩ (34)] "42",
    .gives "{0:o}" [.integer ⟨true,32⟩ (-34)] "-42",
    .gives "{0:o}" [.integer ⟨true,32⟩ (2739128)] "12345670"]

/-- test_format.cpp:559-615, "format_double". -/
def formatDouble : List Check := [
    .gives "{}" [.core (.double 0)] "0",
    .gives "{:}" [.core (.double 0)] "0",
    .gives "{:f}" [.core (.double 0)] "0.000000",
    .gives "{:g}" [.core (.double 0)] "0",
    .gives "{:}" [.core (.double 4645615188041950822)] "392.65",
    .gives "{:g}" [.core (.double 4645615188041950822)] "392.65",
    .gives "{:G}" [.core (.double 4645615188041950822)] "392.65",
    .gives "{:g}" [.core (.double 4707020849150951424)] "4.9014e+06",
    .gives "{:f}" [.core (.double 4645615188041950822)] "392.650000",
    .gives "{:F}" [.core (.double 4645615188041950822)] "392.650000",
    .gives "{0:e}" [.core (.double 4645615188041950822)] "3.926500e+02",
    .gives "{0:E}" [.core (.double 4645615188041950822)] "3.926500E+02",
    .gives "{0:+010.4g}" [.core (.double 4645615188041950822)] "+0000392.6",
    .gives "{:f}" [.core (.double 4890909195324358656)] "9223372036854775808.000000"]

/-- test_format.cpp:618-636, "precision_rounding". -/
def precisionRounding : List Check := [
    .gives "{:.0f}" [.core (.double 0)] "0",
    .gives "{:.0f}" [.core (.double 4576918229304087675)] "0",
    .gives "{:.0f}" [.core (.double 4591870180066957722)] "0",
    .gives "{:.3f}" [.core (.double 4557658675569630296)] "0.000",
    .gives "{:.3f}" [.core (.double 4557750909289998844)] "0.001",
    .gives "{:.3f}" [.core (.double 4564514235066398760)] "0.001",
    .gives "{:.3f}" [.core (.double 4564560351926583034)] "0.002",
    .gives "{:.3f}" [.core (.double 4607181518080091934)] "1.000",
    .gives "{:.3}" [.core (.double 4563315196701607639)] "0.00123",
    .gives "{:.16g}" [.core (.double 4591870180066957722)] "0.1",
    .gives "{:.0}" [.core (.double 4607182418800017408)] "1",
    .gives "{:.17f}" [.core (.double 4642138646636500432)] "225.51575035152063720",
    .gives "{:.1f}" [.core (.double 14052819394725049330)] "-761519619559038.2",
    .gives "{}" [.core (.double 3773471124928680318)] "1.9156918820264798e-56",
    .gives "{:.4f}" [.core (.double 4395624485722620867)] "0.0000",
    .gives "{:f}" [.core (.double 4795085276723472354)] "3788512123356.985352"]

/-- test_format.cpp:639-651, "prettify_float". -/
def prettifyFloat : List Check := [
    .gives "{}" [.core (.double 4547007122018943789)] "0.0001",
    .gives "{}" [.core (.double 4532020583610935537)] "1e-05",
    .gives "{}" [.core (.double 4831355200913801216)] "1000000000000000",
    .gives "{}" [.core (.double 4846369599423283200)] "1e+16",
    .gives "{}" [.core (.double 4547006384149180840)] "9.999e-05",
    .gives "{}" [.core (.double 4756540486875873280)] "10000000000",
    .gives "{}" [.core (.double 4771362005757984768)] "100000000000",
    .gives "{}" [.core (.double 4757767320795873280)] "12340000000",
    .gives "{}" [.core (.double 4623136420479977390)] "12.34",
    .gives "{}" [.core (.double 4563333643445681349)] "0.001234",
    .gives "{}" [.core (.double 4591870180174331904)] "0.10000000149011612"]

/-- test_format.cpp:656-676, "format_nan". -/
def formatNan : List Check := [
    .gives "{}" [.core (.double 9221120237041090560)] "nan",
    .gives "{:+}" [.core (.double 9221120237041090560)] "+nan",
    .gives "{:+06}" [.core (.double 9221120237041090560)] "  +nan",
    .gives "{:<+06}" [.core (.double 9221120237041090560)] "+nan  ",
    .gives "{:^+06}" [.core (.double 9221120237041090560)] " +nan ",
    .gives "{:>+06}" [.core (.double 9221120237041090560)] "  +nan",
    .gives "{}" [.core (.double 18444492273895866368)] "-nan",
    .gives "{:+06}" [.core (.double 18444492273895866368)] "  -nan",
    .gives "{: }" [.core (.double 9221120237041090560)] " nan",
    .gives "{:F}" [.core (.double 9221120237041090560)] "NAN",
    .gives "{:<7}" [.core (.double 9221120237041090560)] "nan    ",
    .gives "{:^7}" [.core (.double 9221120237041090560)] "  nan  ",
    .gives "{:>7}" [.core (.double 9221120237041090560)] "    nan",
    .gives "{:07}" [.core (.double 9221120237041090560)] "    nan",
    .gives "{:x>07}" [.core (.double 9221120237041090560)] "xxxxnan"]

/-- test_format.cpp:679-695, "format_infinity". -/
def formatInfinity : List Check := [
    .gives "{}" [.core (.double 9218868437227405312)] "inf",
    .gives "{:+}" [.core (.double 9218868437227405312)] "+inf",
    .gives "{}" [.core (.double 18442240474082181120)] "-inf",
    .gives "{:+06}" [.core (.double 9218868437227405312)] "  +inf",
    .gives "{:+06}" [.core (.double 18442240474082181120)] "  -inf",
    .gives "{:<+06}" [.core (.double 9218868437227405312)] "+inf  ",
    .gives "{:^+06}" [.core (.double 9218868437227405312)] " +inf ",
    .gives "{:>+06}" [.core (.double 9218868437227405312)] "  +inf",
    .gives "{: }" [.core (.double 9218868437227405312)] " inf",
    .gives "{:F}" [.core (.double 9218868437227405312)] "INF",
    .gives "{:<7}" [.core (.double 9218868437227405312)] "inf    ",
    .gives "{:^7}" [.core (.double 9218868437227405312)] "  inf  ",
    .gives "{:>7}" [.core (.double 9218868437227405312)] "    inf",
    .gives "{:07}" [.core (.double 9218868437227405312)] "    inf",
    .gives "{:x>07}" [.core (.double 9218868437227405312)] "xxxxinf"]

/-- test_format.cpp:698-715, "format_char". -/
def formatChar : List Check := [
    .gives "{0}" [.core (.char (Char.ofNat 97))] "a",
    .gives "{0:c}" [.core (.char (Char.ofNat 122))] "z",
    .gives "{0:d}" [.core (.char (Char.ofNat 48))] "48",
    .gives "{0:x}" [.core (.char (Char.ofNat 48))] "30",
    .gives "{}" [.core (.char (Char.ofNat 10))] "\x0a",
    .gives "{:?}" [.core (.char (Char.ofNat 10))] "'\\n'"]

/-- test_format.cpp:723-725, "format_unsigned_char". -/
def formatUnsignedChar : List Check := [
    .gives "{}" [.integer ⟨false,8⟩ (42)] "42",
    .gives "{}" [.integer ⟨false,8⟩ (42)] "42"]

/-- test_format.cpp:728-733, "format_cstring". -/
def formatCstring : List Check := [
    .gives "{0}" [.chars ("test\x00".toList)] "test",
    .gives "{0:s}" [.chars ("test\x00".toList)] "test",
    .gives "{0}" [.chars ("nonconst".toList ++ [Char.ofNat 0])] "nonconst"]

/-- test_format.cpp:741-777, "format_pointer". -/
def formatPointer : List Check := [
    .gives "{0}" [.core (.pointer 0)] "0x0",
    .gives "{0}" [.core (.pointer 4660)] "0x1234",
    .gives "{0:p}" [.core (.pointer 4660)] "0x1234",
    .gives "{0}" [.core (.pointer 18446744073709551615)] "0xffffffffffffffff",
    .gives "{}" [.nullptr] "0x0",
    .gives "{}" [.core (.pointer 1110)] "0x456",
    .gives "{}" [.core (.pointer 1929)] "0x789",
    .gives "{}" [.core (.pointer 1052946)] "0x101112",
    .gives "{}" [.ptr 0] "0x0",
    .gives "{}" [.ptr 0] "0x0",
    .gives "{}" [.ptr 0] "0x0",
    .gives "{}" [.ptr 0] "0x0",
    .gives "{}" [.ptr 0] "0x0",
    .gives "{}" [.ptr 0] "0x0"]

/-- test_format.cpp:782-784, "format_enum". -/
def formatEnum : List Check := [
    .gives "{}" [.integer ⟨true,32⟩ 0] "0",
    .gives "{}" [.enumerator (.integer ⟨true,32⟩ 0)] "0"]

/-- test_format.cpp:787-794, "format_string". -/
def formatString : List Check := [
    .gives "{}" [.text ("test".toList)] "test",
    .gives "{:s}" [.text ("test".toList)] "test",
    .gives "{:?}" [.text ("test".toList)] "\"test\"",
    .gives "{:*^10?}" [.text ("test".toList)] "**\"test\"**",
    .gives "{:?}" [.text ("\x09est".toList)] "\"\\test\"",
    .fails "{:x}" [.text ("test".toList)] .invalidFormat]

/-- test_format.cpp:797-825, "format_string_view". -/
def formatStringView : List Check := [
    .gives "{}" [.text ("test".toList)] "test",
    .gives "{:s}" [.text ("test".toList)] "test",
    .gives "{:.0}" [.text ("test".toList)] "",
    .gives "{:.2}" [.text ("test".toList)] "te",
    .gives "{:.4}" [.text ("test".toList)] "test",
    .gives "{:.6}" [.text ("test".toList)] "test",
    .gives "{:?}" [.text ("t\x0ast".toList)] "\"t\\nst\"",
    .gives "{}" [.text []] "",
    .gives "{:?}" [.text ("t\x0a\x0d\x09\\'\"st".toList)] "\"t\\n\\r\\t\\\\\\'\\\"st\"",
    .gives "{:?}" [.text ("\x05\xab\xef".toList)] "\"\\x05\\xab\\xef\"",
    .isValid "{:.3?}" [.text []] false,
    .gives "{}" [.text ("test".toList)] "test"]

/-- test_format.cpp:857-938, "validate_format_string". -/
def validateFormatString : List Check := [
    .isValid "" [] true,
    .isValid "abc" [] true,
    .isValid "abc{" [] false,
    .isValid "abc{x" [] false,
    .isValid "abc{{" [] true,
    .isValid "abc}" [] false,
    .isValid "abc}x" [] false,
    .isValid "abc}}" [] true,
    .isValid "abc{}" [.integer ⟨true,32⟩ 1] true,
    .isValid "abc{0}" [.integer ⟨true,32⟩ 1] true,
    .isValid "abc{1}" [.integer ⟨true,32⟩ 1] false,
    .isValid "abc{0}{}" [.integer ⟨true,32⟩ 1, .integer ⟨true,16⟩ 1] false,
    .isValid "abc{}{1}" [.integer ⟨true,32⟩ 1, .integer ⟨true,16⟩ 1] false,
    .isValid "abc{0}{1}" [.integer ⟨true,32⟩ 1, .integer ⟨true,16⟩ 1] true,
    .isValid "abc{:}" [.integer ⟨true,32⟩ 1] true,
    .isValid "abc{:f}" [.integer ⟨true,32⟩ 1] false,
    .isValid "abc" [.integer ⟨true,32⟩ 1] false,
    .isValid "{:<10}" [.integer ⟨true,32⟩ 1] true,
    .isValid "{:^10}" [.integer ⟨true,32⟩ 1] true,
    .isValid "{:>10}" [.integer ⟨true,32⟩ 1] true,
    .isValid "{:<<10}" [.integer ⟨true,32⟩ 1] true,
    .isValid "{:^^10}" [.integer ⟨true,32⟩ 1] true,
    .isValid "{:>>10}" [.integer ⟨true,32⟩ 1] true,
    .isValid "{:<}" [.integer ⟨true,32⟩ 1] true,
    .isValid "{:a<10}" [.integer ⟨true,32⟩ 1] true,
    .isValid "{:a^10}" [.integer ⟨true,32⟩ 1] true,
    .isValid "{:a>10}" [.integer ⟨true,32⟩ 1] true,
    .isValid "{:a=10}" [.integer ⟨true,32⟩ 1] false,
    .isValid "{:a<}" [.integer ⟨true,32⟩ 1] true,
    .isValid "{:a<010}" [.integer ⟨true,32⟩ 1] true,
    .isValid "{:a<-10}" [.integer ⟨true,32⟩ 1] true,
    .isValid "{:a<+10}" [.integer ⟨true,32⟩ 1] true,
    .isValid "{:a< 10}" [.integer ⟨true,32⟩ 1] true,
    .isValid "{:a<-#10}" [.integer ⟨true,32⟩ 1] true,
    .isValid "{:a<--10}" [.integer ⟨true,32⟩ 1] false,
    .isValid "{:+}" [.integer ⟨true,32⟩ 1] true,
    .isValid "{:-}" [.integer ⟨true,32⟩ 1] true,
    .isValid "{: }" [.integer ⟨true,32⟩ 1] true,
    .isValid "{:<}" [.integer ⟨true,32⟩ 1] true,
    .isValid "{:+10}" [.integer ⟨true,32⟩ 1] true,
    .isValid "{:-10}" [.integer ⟨true,32⟩ 1] true,
    .isValid "{: 10}" [.integer ⟨true,32⟩ 1] true,
    .isValid "{:+#10}" [.integer ⟨true,32⟩ 1] true,
    .isValid "{:-#10}" [.integer ⟨true,32⟩ 1] true,
    .isValid "{: #10}" [.integer ⟨true,32⟩ 1] true,
    .isValid "{:010}" [.integer ⟨true,32⟩ 1] true,
    .isValid "{:-010}" [.integer ⟨true,32⟩ 1] true,
    .isValid "{:-#010}" [.integer ⟨true,32⟩ 1] true,
    .isValid "{:0010}" [.integer ⟨true,32⟩ 1] true,
    .isValid "{:0}" [.integer ⟨true,32⟩ 1] true,
    .isValid "{:--010}" [.integer ⟨true,32⟩ 1] false,
    .isValid "{:{}}" [.integer ⟨true,32⟩ 1] false,
    .isValid "{:s}" [.integer ⟨true,32⟩ 1] false,
    .isValid "{:.1100}" [.core (.double 0)] true,
    .isValid "{:.1101}" [.core (.double 0)] false,
    .isValid "{:.2147483648}" [.core (.double 0)] false,
    .isValid "{:2147483648}" [.core (.double 0)] false,
    .isValid "{:.+1}" [.core (.double 0)] false,
    .isValid "{:.-1}" [.core (.double 0)] false,
    .isValid "{:x}" [.core (.double 0)] false,
    .isValid "{}" [.core (.bool true)] true,
    .isValid "{:d}" [.core (.bool true)] true,
    .isValid "{:f}" [.core (.bool true)] false,
    .isValid "{:.5}" [.core (.bool true)] false,
    .isValid "{}" [.core (.char 'a')] true,
    .isValid "{:d}" [.core (.char 'a')] true,
    .isValid "{}" [.integer ⟨true,32⟩ 1] true,
    .isValid "{}" [.integer ⟨false,32⟩ 1] true,
    .isValid "{}" [.core (.pointer 1)] true]

/-- The model passes all of them. -/
example : List.all (List.flatten [escape, unmatchedBraces, noArgs, argsInDifferentPositions, autoArgIndex,
    emptySpecs, leftAlign, rightAlign, centerAlign, fill, plusSign, minusSign, spaceSign, hashFlag, zeroFlag,
    zeroFlagAndAlign, zeroFlagSignAndPrefix, width, precision, formatBool, formatShort, formatInt, formatBin,
    formatDec, formatHex, formatOct, formatDouble, precisionRounding, prettifyFloat, formatNan, formatInfinity,
    formatChar, formatUnsignedChar, formatCstring, formatPointer, formatEnum, formatString, formatStringView,
    validateFormatString]) Check.passes = true := by decide +kernel

end Emio.Conformance
