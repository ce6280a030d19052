import Verif.Model.Scan

/-!
# The unit tests of the library, evaluated in the model: test_scan.cpp

Every check of /repo/test/unit_test/test_scan.cpp that scans or validates, with the result the test expects, and the
ranges of integers of /repo/test/unit_test/integer_ranges.hpp.  These are no proofs of properties: they show that the
model computes what the authors of the library expect of the code.  The kernel evaluates the model for each of them.
-/

namespace Emio.Conformance.Scanning

/-- The types of the variables of the tests. -/
abbrev int : ScanTy := .int ⟨true, 32⟩
@[inherit_doc int] abbrev uint : ScanTy := .int ⟨false, 32⟩

/-- What the variable holds before (`int val{}`, `std::string s`). -/
def before : ScanTy → ScanVal
  | .char => .char (Char.ofNat 0)
  | .int _ => .int 0
  | .string => .str []

/-- A check of a test: the input, the format string, the types of the variables, and what is expected. -/
inductive Check
  /-- `REQUIRE(emio::scan(input, str, vars...))`, and the variables afterwards. -/
  | gives (input str : String) (tys : List ScanTy) (vars : List ScanVal)
  /-- `CHECK(emio::scan(input, str, vars...) == error)`. -/
  | fails (input str : String) (tys : List ScanTy) (error : Err)
  /-- `CHECK_FALSE(emio::scan(input, str, vars...))`. -/
  | failsSomehow (input str : String) (tys : List ScanTy)
  /-- `REQUIRE(emio::scan_from(rdr, str, vars...))`, the variables afterwards and what remains in the reader. -/
  | leaves (input str : String) (tys : List ScanTy) (vars : List ScanVal) (remaining : String)
  /-- The test expects `out_of_range`, but a signed type overflows before, which is undefined: the disagreement recorded
  for C01, C50 and C58. -/
  | overflows (input str : String) (tys : List ScanTy)
  /-- `CHECK(validate_scan_string<T>(str) == valid)`. -/
  | isValid (str : String) (ty : ScanTy) (valid : Bool)

/-- Whether the model does as expected. -/
def Check.passes : Check → Bool
  | .gives input str tys vars => scanStr input.toList str.toList tys (tys.map before) == .ok vars ()
  | .fails input str tys error =>
    match scanStr input.toList str.toList tys (tys.map before) with
    | .err _ e => e == error
    | _ => false
  | .failsSomehow input str tys =>
    match scanStr input.toList str.toList tys (tys.map before) with
    | .err _ _ => true
    | _ => false
  | .leaves input str tys vars remaining =>
    match scanFrom str.toList tys ⟨Reader.ofStr input.toList, tys.map before⟩ with
    | .ok io _ => io.vars == vars && io.inp.src.drop io.inp.pos == remaining.toList
    | _ => false
  | .overflows input str tys => scanStr input.toList str.toList tys (tys.map before) == .bad .ub
  | .isValid str ty valid => validateStr str.toList [ty.farg] == .ok () valid

/-- test_scan.cpp:18-36, "scan API". -/
def scanApi : List Check := [
    .gives "abc{" "abc{{" [] [],
    .gives "1,-2!" "{},{}{}" [uint, int, .char] [.int (1), .int (-2), .char (Char.ofNat 33)],
    .gives "1,-2!" "{},{}{}" [uint, int, .char] [.int (1), .int (-2), .char (Char.ofNat 33)]]

/-- test_scan.cpp:54-73, "vscan API". -/
def vscanApi : List Check := [
    .gives "abc{" "abc{{" [] [],
    .gives "1,-2!" "{},{}{}" [uint, int, .char] [.int (1), .int (-2), .char (Char.ofNat 33)],
    .gives "1,-2!" "{},{}{}" [uint, int, .char] [.int (1), .int (-2), .char (Char.ofNat 33)]]

/-- test_scan.cpp:80-109, "scan_from API". -/
def scanFromApi : List Check := [
    .leaves "abc" "abc" [] [] "",
    .leaves "abc{" "abc{{" [] [] "",
    .leaves "1,-2!rest" "{},{}{}" [uint, int, .char] [.int (1), .int (-2), .char (Char.ofNat 33)] "rest",
    .leaves "1,-2!rest" "{},{}{}" [uint, int, .char] [.int (1), .int (-2), .char (Char.ofNat 33)] "rest"]

/-- test_scan.cpp:136-155, "vscan_from API". -/
def vscanFromApi : List Check := [
    .leaves "1,-2!rest" "{},{}{}" [uint, int, .char] [.int (1), .int (-2), .char (Char.ofNat 33)] "rest",
    .leaves "1,-2!rest" "{},{}{}" [uint, int, .char] [.int (1), .int (-2), .char (Char.ofNat 33)] "rest"]

/-- test_scan.cpp:178-190, "incomplete scan". -/
def incompleteScan : List Check := [
    .failsSomehow "1,-2rest" "{},{}" [int, int],
    .failsSomehow "1,-2rest" "{},{}" [int, int],
    .leaves "1,-2rest" "{},{}" [int, int] [.int 1, .int (-2)] "rest"]

/-- test_scan.cpp:195-213, "scan_char". -/
def scanChar : List Check := [
    .gives "o" "{}" [.char] [.char (Char.ofNat 111)],
    .gives "k" "{:c}" [.char] [.char (Char.ofNat 107)],
    .gives "f" "{:1}" [.char] [.char (Char.ofNat 102)],
    .gives "g" "{:1c}" [.char] [.char (Char.ofNat 103)],
    .isValid "{:c}" .char true,
    .isValid "{:0}" .char false,
    .isValid "{:2}" .char false,
    .isValid "{:d}" .char false,
    .isValid "{:#}" .char false]

/-- test_scan.cpp:216-291, "detect base". -/
def detectBase : List Check := [
    .gives "0b1011" "{:#}" [int] [.int (11)],
    .gives "0B101" "{:#}" [int] [.int (5)],
    .gives "+0b1010" "{:#}" [int] [.int (10)],
    .gives "-0b111" "{:#}" [int] [.int (-7)],
    .gives "0175" "{:#}" [int] [.int (125)],
    .gives "+054" "{:#}" [int] [.int (44)],
    .gives "-0023" "{:#}" [int] [.int (-19)],
    .gives "-0" "{:#}" [int] [.int (0)],
    .gives "0" "{:#}" [int] [.int (0)],
    .gives "1" "{:#}" [int] [.int (1)],
    .gives "+1" "{:#}" [int] [.int (1)],
    .gives "-1" "{:#}" [int] [.int (-1)],
    .gives "0x58" "{:#}" [int] [.int (88)],
    .gives "0XAe" "{:#}" [int] [.int (174)],
    .gives "+0x5" "{:#}" [int] [.int (5)],
    .gives "-0x1" "{:#}" [int] [.int (-1)],
    .fails "-" "{:#}" [int] .eof,
    .fails "--1" "{:#}" [int] .invalidData,
    .fails "a" "{:#}" [int] .invalidData,
    .fails "0xx" "{:#}" [int] .invalidData,
    .fails "0x+1" "{:#}" [int] .invalidData,
    .fails "0x-1" "{:#}" [int] .invalidData,
    .gives "+5" "{:#}" [uint] [.int (5)],
    .fails "-1" "{:#}" [uint] .outOfRange,
    .fails "-0x5" "{:#}" [uint] .outOfRange,
    .isValid "{:#x}" int true,
    .isValid "{:d#}" int false,
    .isValid "{:f}" int false,
    .isValid "{:.5}" int false]

/-- test_scan.cpp:294-315, "integral with width". -/
def integralWithWidth : List Check := [
    .gives "1524" "{:2}{:2}" [int, int] [.int (15), .int (24)],
    .gives "+0x5" "{:#4}" [int] [.int (5)],
    .gives "+0x5" "{:#2}x{}" [int, int] [.int (0), .int (5)],
    .fails "12ab" "{:4}" [int] .invalidData,
    .fails "+0x5" "{:#1}0x5" [int] .eof,
    .fails "+0x5" "{:#6}" [int] .eof,
    .fails "+0x5" "{:#3}5" [int] .eof,
    .isValid "{:+5}" int false,
    .isValid "{:-5}" int false]

/-- test_scan.cpp:341-374, "scan_binary". -/
def scanBinary : List Check := [
    .gives "1011" "{:b}" [int] [.int (11)],
    .gives "+1001" "{:b}" [int] [.int (9)],
    .gives "-11" "{:b}" [int] [.int (-3)],
    .failsSomehow "2" "{:b}" [int],
    .gives "0b10" "{:#b}" [int] [.int (2)],
    .gives "0B110" "{:#b}" [int] [.int (6)],
    .gives "+0b101" "{:#b}" [int] [.int (5)],
    .gives "-0b101" "{:#b}" [int] [.int (-5)],
    .fails "0" "{:#b}" [int] .eof,
    .fails "0o" "{:#b}" [int] .invalidData,
    .fails "0x1" "{:#b}" [int] .invalidData,
    .fails "0b+1" "{:#b}" [int] .invalidData,
    .fails "0b-1" "{:#b}" [int] .invalidData]

/-- test_scan.cpp:378-412, "scan_octal". -/
def scanOctal : List Check := [
    .gives "75" "{:o}" [int] [.int (61)],
    .gives "+12" "{:o}" [int] [.int (10)],
    .gives "-62" "{:o}" [int] [.int (-50)],
    .fails "8" "{:o}" [int] .invalidData,
    .gives "00" "{:#o}" [int] [.int (0)],
    .gives "050" "{:#o}" [int] [.int (40)],
    .gives "+050" "{:#o}" [int] [.int (40)],
    .gives "-050" "{:#o}" [int] [.int (-40)],
    .fails "0" "{:#o}" [int] .eof,
    .fails "0o" "{:#o}" [int] .invalidData,
    .fails "0+0" "{:#o}" [int] .invalidData,
    .fails "0-0" "{:#o}" [int] .invalidData,
    .fails "0b3" "{:#o}" [int] .invalidData,
    .fails "0x3" "{:#o}" [int] .invalidData]

/-- test_scan.cpp:416-489, "scan_decimal". -/
def scanDecimal : List Check := [
    .gives "49" "{}" [int] [.int (49)],
    .gives "-87" "{}" [int] [.int (-87)],
    .gives "59849" "{:d}" [int] [.int (59849)],
    .gives "+47891" "{:d}" [int] [.int (47891)],
    .gives "-259" "{:d}" [int] [.int (-259)],
    .fails "a" "{:d}" [int] .invalidData,
    .gives "42" "{:#d}" [int] [.int (42)],
    .gives "240" "{:#d}" [int] [.int (240)],
    .gives "+42" "{:#d}" [int] [.int (42)],
    .gives "-42" "{:#d}" [int] [.int (-42)],
    .leaves "0x5" "{}" [int] [.int (0)] "x5",
    .leaves "0b3" "{:#d}" [int] [.int (0)] "b3",
    .gives "0" "{:#d}" [int] [.int (0)],
    .gives "127" "{}" [.int ⟨true,8⟩] [.int (127)],
    .fails "128" "{}" [.int ⟨true,8⟩] .outOfRange,
    .gives "-128" "{}" [.int ⟨true,8⟩] [.int (-128)],
    .fails "-129" "{}" [.int ⟨true,8⟩] .outOfRange,
    .gives "255" "{}" [.int ⟨false,8⟩] [.int (255)],
    .fails "256" "{}" [.int ⟨false,8⟩] .outOfRange]

/-- test_scan.cpp:494-527, "scan_hex". -/
def scanHex : List Check := [
    .gives "Ad" "{:x}" [int] [.int (173)],
    .gives "+fe" "{:x}" [int] [.int (254)],
    .gives "-1d" "{:x}" [int] [.int (-29)],
    .fails "g" "{:x}" [int] .invalidData,
    .gives "0xdf" "{:#x}" [int] [.int (223)],
    .gives "0X1e" "{:#x}" [int] [.int (30)],
    .gives "+0x1e" "{:#x}" [int] [.int (30)],
    .gives "-0x1e" "{:#x}" [int] [.int (-30)],
    .fails "da" "{:#x}" [int] .invalidData,
    .fails "0b3" "{:#x}" [int] .invalidData,
    .fails "0o3" "{:#x}" [int] .invalidData,
    .fails "0x+3" "{:#x}" [int] .invalidData,
    .fails "0x-3" "{:#x}" [int] .invalidData]

/-- test_scan.cpp:531-598, "scan_string". -/
def scanString : List Check := [
    .gives "abc" "{}" [.string] [.str ("abc".toList)],
    .gives "abc" "a{}" [.string] [.str ("bc".toList)],
    .gives "abc" "ab{}" [.string] [.str ("c".toList)],
    .gives "abc" "abc{}" [.string] [.str []],
    .gives "abc" "{:3}" [.string] [.str ("abc".toList)],
    .gives "aaa" "{:2}a" [.string] [.str ("aa".toList)],
    .fails "abc" "{:4}" [.string] .eof,
    .fails "abc" "{:3}c" [.string] .eof,
    .gives "abc" "{}b{}" [.string, .string] [.str ("a".toList), .str ("c".toList)],
    .gives "abc" "{}abc" [.string] [.str []],
    .gives "abc" "{}{}c" [.string, .string] [.str [], .str ("ab".toList)],
    .gives "abc" "{:2}{}c" [.string, .string] [.str ("ab".toList), .str []],
    .gives "abc" "{:1}{}c" [.string, .string] [.str ("a".toList), .str ("b".toList)],
    .gives "abc{" "{}{{" [.string] [.str ("abc".toList)],
    .gives "abc}" "{}}}" [.string] [.str ("abc".toList)],
    .gives "abc{}def}x" "{}}}x" [.string] [.str ("abc{}def".toList)],
    .gives "abc{}def}x12" "{}}}x{}" [.string, .string] [.str ("abc{}def".toList), .str ("12".toList)],
    .fails "abc{x" "{}{{y" [.string] .invalidData,
    .isValid "{:s}" .string true,
    .isValid "{:s}" .string true,
    .isValid "{:#}" .string false,
    .isValid "{:d}" .string false]

/-- test_scan.cpp:317-339 with integer_ranges.hpp:8-54, "scan integral of different types". -/
def ranges : List Check := [
    .gives "-127" "{}" [.int ⟨true, 8⟩] [.int (-127)],
    .gives "-128" "{}" [.int ⟨true, 8⟩] [.int (-128)],
    .gives "126" "{}" [.int ⟨true, 8⟩] [.int (126)],
    .gives "127" "{}" [.int ⟨true, 8⟩] [.int (127)],
    .fails "-129" "{}" [.int ⟨true, 8⟩] .outOfRange,
    .fails "-1280" "{}" [.int ⟨true, 8⟩] .outOfRange,
    .fails "128" "{}" [.int ⟨true, 8⟩] .outOfRange,
    .fails "1270" "{}" [.int ⟨true, 8⟩] .outOfRange,
    .gives "1" "{}" [.int ⟨false, 8⟩] [.int (1)],
    .gives "0" "{}" [.int ⟨false, 8⟩] [.int (0)],
    .gives "254" "{}" [.int ⟨false, 8⟩] [.int (254)],
    .gives "255" "{}" [.int ⟨false, 8⟩] [.int (255)],
    .fails "-1" "{}" [.int ⟨false, 8⟩] .outOfRange,
    .fails "-10" "{}" [.int ⟨false, 8⟩] .outOfRange,
    .fails "256" "{}" [.int ⟨false, 8⟩] .outOfRange,
    .fails "2550" "{}" [.int ⟨false, 8⟩] .outOfRange,
    .gives "-32767" "{}" [.int ⟨true, 16⟩] [.int (-32767)],
    .gives "-32768" "{}" [.int ⟨true, 16⟩] [.int (-32768)],
    .gives "32766" "{}" [.int ⟨true, 16⟩] [.int (32766)],
    .gives "32767" "{}" [.int ⟨true, 16⟩] [.int (32767)],
    .fails "-32769" "{}" [.int ⟨true, 16⟩] .outOfRange,
    .fails "-327680" "{}" [.int ⟨true, 16⟩] .outOfRange,
    .fails "327678" "{}" [.int ⟨true, 16⟩] .outOfRange,
    .fails "327670" "{}" [.int ⟨true, 16⟩] .outOfRange,
    .gives "1" "{}" [.int ⟨false, 16⟩] [.int (1)],
    .gives "0" "{}" [.int ⟨false, 16⟩] [.int (0)],
    .gives "65534" "{}" [.int ⟨false, 16⟩] [.int (65534)],
    .gives "65535" "{}" [.int ⟨false, 16⟩] [.int (65535)],
    .fails "-1" "{}" [.int ⟨false, 16⟩] .outOfRange,
    .fails "-10" "{}" [.int ⟨false, 16⟩] .outOfRange,
    .fails "65536" "{}" [.int ⟨false, 16⟩] .outOfRange,
    .fails "655350" "{}" [.int ⟨false, 16⟩] .outOfRange,
    .gives "-2147483647" "{}" [.int ⟨true, 32⟩] [.int (-2147483647)],
    .gives "-2147483648" "{}" [.int ⟨true, 32⟩] [.int (-2147483648)],
    .gives "2147483646" "{}" [.int ⟨true, 32⟩] [.int (2147483646)],
    .gives "2147483647" "{}" [.int ⟨true, 32⟩] [.int (2147483647)],
    .overflows "-2147483649" "{}" [.int ⟨true, 32⟩],
    .overflows "-21474836480" "{}" [.int ⟨true, 32⟩],
    .overflows "2147483648" "{}" [.int ⟨true, 32⟩],
    .overflows "21474836470" "{}" [.int ⟨true, 32⟩],
    .gives "1" "{}" [.int ⟨false, 32⟩] [.int (1)],
    .gives "0" "{}" [.int ⟨false, 32⟩] [.int (0)],
    .gives "4294967294" "{}" [.int ⟨false, 32⟩] [.int (4294967294)],
    .gives "4294967295" "{}" [.int ⟨false, 32⟩] [.int (4294967295)],
    .fails "-1" "{}" [.int ⟨false, 32⟩] .outOfRange,
    .fails "-10" "{}" [.int ⟨false, 32⟩] .outOfRange,
    .fails "4294967296" "{}" [.int ⟨false, 32⟩] .outOfRange,
    .fails "42949672950" "{}" [.int ⟨false, 32⟩] .outOfRange,
    .gives "-9223372036854775807" "{}" [.int ⟨true, 64⟩] [.int (-9223372036854775807)],
    .gives "-9223372036854775808" "{}" [.int ⟨true, 64⟩] [.int (-9223372036854775808)],
    .gives "9223372036854775806" "{}" [.int ⟨true, 64⟩] [.int (9223372036854775806)],
    .gives "9223372036854775807" "{}" [.int ⟨true, 64⟩] [.int (9223372036854775807)],
    .overflows "-9223372036854775809" "{}" [.int ⟨true, 64⟩],
    .overflows "-92233720368547758080" "{}" [.int ⟨true, 64⟩],
    .overflows "9223372036854775808" "{}" [.int ⟨true, 64⟩],
    .overflows "-92233720368547758070" "{}" [.int ⟨true, 64⟩],
    .gives "1" "{}" [.int ⟨false, 64⟩] [.int (1)],
    .gives "0" "{}" [.int ⟨false, 64⟩] [.int (0)],
    .gives "18446744073709551614" "{}" [.int ⟨false, 64⟩] [.int (18446744073709551614)],
    .gives "18446744073709551615" "{}" [.int ⟨false, 64⟩] [.int (18446744073709551615)],
    .fails "-1" "{}" [.int ⟨false, 64⟩] .outOfRange,
    .fails "-10" "{}" [.int ⟨false, 64⟩] .outOfRange,
    .fails "18446744073709551616" "{}" [.int ⟨false, 64⟩] .outOfRange,
    .fails "184467440737095516150" "{}" [.int ⟨false, 64⟩] .outOfRange]

/-- The model passes all of them. -/
example : List.all (List.flatten [
    scanApi, vscanApi, scanFromApi, vscanFromApi, incompleteScan, scanChar, detectBase, integralWithWidth,
    scanBinary, scanOctal, scanDecimal, scanHex, scanString, ranges]) Check.passes = true := by
  decide +kernel

end Emio.Conformance.Scanning
