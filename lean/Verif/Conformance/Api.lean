import Verif.Model.Format
import Verif.Model.Values

/-!
# The unit tests of the library, evaluated in the model: the functions of the formatting API

The checks of /repo/test/unit_test/test_format_api.cpp, test_format_to_api.cpp, test_format_to_n_api.cpp,
test_formatted_size.cpp, test_print.cpp, test_iterator.cpp, test_format_string.cpp and test_format_could_fail_api.cpp with the results the tests expect.  These are no proofs of
properties: they show that the model computes what the authors of the library expect of the code.
-/

namespace Emio.Conformance.Api

/-- An `int`. -/
def int (n : Int) : FArg := (FVal.int n).farg .int

/-- A `char`. -/
def char (c : Char) : FArg := (FVal.core (.char c)).farg (.core .char)

/-- A string. -/
def str (s : String) : FArg := (FVal.core (.string s.toList)).farg (.core .string)

/-- The cache of the buffers behind the functions. -/
def cache : Str := List.replicate 128 ' '

/-- The text of a result. -/
def text : Run Unit Str → Option String
  | .ok _ t => some (String.ofList t)
  | _ => none

/-- The error of a result. -/
def error {σ α : Type} : Run σ α → Option Err
  | .err _ e => some e
  | _ => none

/-- The value of a result. -/
def value {σ α : Type} : Run σ α → Option α
  | .ok _ a => some a
  | _ => none

/-- The state after a success. -/
def after {σ α : Type} : Run σ α → Option σ
  | .ok s _ => some s
  | _ => none

/-- test_format_api.cpp:9-37. -/
example :
    text (formatStr "{}".toList [int 42]) = some "42" ∧
    error (formatStr "{".toList [int 42]) = some .invalidFormat := by
  decide +kernel

/-- test_format_to_api.cpp:9-50, 118-149 (output iterators: a pointer or iterator, a back_insert_iterator). -/
example :
    (match formatToPtr (fun _ => '\x00') "{}".toList [int 42] (PtrBuf.new fun _ => '\x00') with
      | .ok s n => decide (n = 2) && decide (s.mem 0 = '4') && decide (s.mem 1 = '2')
      | _ => false) = true ∧
    formatToIter cache "{}".toList [int 42] = .ok "42".toList () := by
  decide +kernel

/-- test_format_to_api.cpp:52-116, 151-186 (a static buffer). -/
example :
    (after (formatTo "42".toList [] (SpanBuf.new [' ', ' ']))).map SpanBuf.view = some "42".toList ∧
    (after (formatTo "{}".toList [int 42] (SpanBuf.new [' ', ' ']))).map SpanBuf.view = some "42".toList ∧
    error (formatTo "{}".toList [int 420] (SpanBuf.new [' ', ' '])) = some .eof := by
  decide +kernel

/-- test_format_to_api.cpp:188-220 (a truncating buffer). -/
example :
    (match formatTo "Hello {}!".toList [int 123456789] (TruncBuf.new cache (SpanBuf.new (List.replicate 13 ' ')) 10) with
      | .ok s _ => decide (s.count = 16) && match TruncBuf.flush s with
        | .ok s _ => decide (s.prim.view = "Hello 1234".toList) && decide (s.count = 16) &&
            decide ((after (formatTo "...".toList [] s.prim)).map SpanBuf.view = some "Hello 1234...".toList)
        | _ => false
      | _ => false) = true ∧
    (match formatTo "{}".toList [int 42] (TruncBuf.new cache (SpanBuf.new (List.replicate 13 ' ')) 1) with
      | .ok s _ => match TruncBuf.flush s with
        | .ok s _ => decide (s.count = 2) && decide (s.prim.view = ['4'])
        | _ => false
      | _ => false) = true := by
  decide +kernel

/-- test_format_to_n_api.cpp:9-93 (output iterators: a pointer or iterator, a back_insert_iterator). -/
example :
    (let r := value (formatToNPtr cache ['\x00', '\x00'] 1 "{}".toList [int 421])
     r.map (·.count) = some 3 ∧ r.map (·.pos) = some 1 ∧ r.map (·.mem) = some ['4', '\x00']) ∧
    (let r := value (formatToNIter cache 1 "{}".toList [int 421])
     r.map (·.count) = some 3 ∧ r.map (·.out) = some ['4']) := by
  decide +kernel

/-- test_format_to_n_api.cpp:95-137 (a buffer, which can be used afterwards). -/
example :
    (match formatToN cache 10 "Hello {}!".toList [int 123456789] (SpanBuf.new (List.replicate 13 ' ')) with
      | .ok s n => decide (n = 16) && decide (s.view = "Hello 1234".toList) &&
          decide ((after (formatTo "...".toList [] s)).map SpanBuf.view = some "Hello 1234...".toList)
      | _ => false) = true ∧
    (match formatToN cache 1 "{}".toList [int 42] (SpanBuf.new (List.replicate 10 ' ')) with
      | .ok s n => decide (n = 2) && decide (s.view = ['4'])
      | _ => false) = true := by
  decide +kernel

/-- test_formatted_size.cpp:9-36. -/
example :
    value (formattedSize cache "{}".toList [int 1]) = some 1 ∧
    value (formattedSize cache "{} {}".toList [int 1, int 45]) = some 4 ∧
    error (formattedSize cache "{}".toList [int 1, int 45]) = some .invalidFormat := by
  decide +kernel

/-- test_print.cpp:7-22. -/
example :
    vprint cache (some []) "hello {}".toList [str "world"] = .ok "hello world".toList () ∧
    vprintln cache (some []) "hello {}".toList [str "world"] = .ok "hello world\n".toList () ∧
    vprint cache none "hello {}".toList [str "world"] = .err [] .invalidData ∧
    vprintln cache none "hello {}".toList [str "world"] = .err [] .invalidData := by
  decide +kernel

/-- test_print.cpp:24-41: two lines one after the other. -/
example :
    vprintln cache (some []) "hello {}".toList [str "world"] = .ok "hello world\n".toList () ∧
    vprintln cache (some []) "abc".toList [] = .ok "abc\n".toList () := by
  decide +kernel

/-- test_iterator.cpp:8-86. -/
example :
    (let r := (TruncPtr.new (List.replicate 10 '\x00') 10).copy "acbx40!lqcl.qxon0241".toList
     r.map (·.count) = some 20 ∧ r.map (·.pos) = some 10 ∧ r.map (·.mem) = some "acbx40!lqc".toList ∧
     r.bind (fun it => (it.next.next.assign '#').map (·.mem)) = some "acbx40!lqc".toList) ∧
    (let r := (TruncIt.new 10).copy "acbx40!lqcl.qxon0241".toList
     r.count = 20 ∧ r.out = "acbx40!lqc".toList ∧ ((r.put '#').put '#').out = "acbx40!lqc".toList) := by
  decide +kernel

/-- test_format_string.cpp:20-72. -/
example :
    text (formatStr "abc {} {} {}".toList [int 42, char 'x', str "hello"]) = some "abc 42 x hello" ∧
    value (formattedSize cache "abc {} {} {}".toList [int 42, char 'x', str "hello"]) = some 14 := by
  decide +kernel

/-- test_format_string.cpp:74-108: `get` and `as_valid` of format strings. -/
example :
    (value (VStr.make "{".toList [int 0, char ' ', str ""])).map (·.str) = some none ∧
    (value (VStr.make "{} {}".toList [int 0, char ' '])).map (·.str) = some (some "{} {}".toList) ∧
    (value (VStr.make "{}".toList [int 0, char ' '])).map (·.str) = some none := by
  decide +kernel

/-- test_format_string.cpp:110-136. -/
example :
    (value (VStr.make [] [])).map (·.plain) = some true ∧
    (value (VStr.make "abc 123".toList [])).map (·.plain) = some true ∧
    (value (VStr.make "abc 123 {{".toList [])).map (·.plain) = some false ∧
    (value (VStr.make "abc }} 123".toList [])).map (·.plain) = some false ∧
    (value (VStr.make "abc {} 123".toList [])).map (·.plain) = some false ∧
    (value (VStr.make [] [int 1])).map (·.plain) = some false ∧
    (value (VStr.make "abc {} {} {}".toList [])).map (·.plain) = some false := by
  decide +kernel

/-- test_format_string.cpp:138-158: formatting empty format arguments. -/
example :
    text (formatStr [] []) = some "" ∧ text (formatStr "{}".toList [formatArgs [] []]) = some "" := by
  decide +kernel

/-- test_format_could_fail_api.cpp:8-60. -/
def args : FArg := formatArgs "{}".toList [int 123]

example :
    value (formattedSize cache "{}".toList [args]) = some 3 ∧
    value (formattedSize cache "{} {}".toList [args, args]) = some 7 ∧
    value (formattedSize cache "{}".toList [formatArgs "{}".toList [formatArgs "{}".toList [args]]]) = some 3 ∧
    error (formattedSize cache "{}".toList [formatArgs "{}".toList []]) = some .invalidFormat ∧
    error (formattedSize cache "{}".toList [formatArgs "{".toList [int 123]]) = some .invalidFormat ∧
    text (formatStr "{}".toList [args]) = some "123" ∧
    text (formatStr "{} {}".toList [args, args]) = some "123 123" ∧
    text (formatStr "{}".toList [formatArgs "{}".toList [formatArgs "{}".toList [args]]]) = some "123" ∧
    error (formatStr "{}".toList [formatArgs "{}".toList []]) = some .invalidFormat ∧
    error (formatStr "{}".toList [formatArgs "{".toList [int 123]]) = some .invalidFormat ∧
    vprint cache (some []) "{}".toList [args] = .ok "123".toList () ∧
    error (vprint cache (some []) "{}".toList [formatArgs "{}".toList []]) = some .invalidFormat ∧
    vprintln cache (some []) "{} {}".toList [args, args] = .ok "123 123\n".toList () ∧
    error (vprintln cache (some []) "{}".toList [formatArgs "{".toList [int 123]]) = some .invalidFormat := by
  decide +kernel

end Emio.Conformance.Api
