import Verif.Model.Reader

/-!
# The unit tests of the library, evaluated in the model: test_reader.cpp

The checks of /repo/test/unit_test/test_reader.cpp with the results the test expects.  These are no proofs of properties:
they show that the model computes what the authors of the library expect of the code.
-/

namespace Emio.Conformance.Reading

/-- A statement of a test. -/
inductive Step
  | pos (n : Nat)
  | remaining (n : Nat)
  | viewRemaining (s : String)
  | unpop (n : Nat)
  | pop (n : Nat)
  | peek (c : Char)
  | peekFails (e : Err)
  | matchChar (c : Char)
  | matchCharFails (c : Char) (e : Err)
  | matchStr (s : String)
  | matchStrFails (s : String) (e : Err)
  | readChar (c : Char)
  | readCharFails (e : Err)
  | readN (n : Nat) (s : String)
  | readNFails (n : Nat) (e : Err)
  | eof (b : Bool)
  | readRemaining (s : String)
  | parse (t : IntTy) (v : Int)
  | parseFails (t : IntTy) (e : Err)

/-- The reader afterwards, if a call succeeds with this result. -/
def gives {α : Type} [DecidableEq α] (x : M Reader α) (want : α) (r : Reader) : Option Reader :=
  match x r with
  | .ok r' a => if a = want then some r' else none
  | _ => none

/-- The reader afterwards, if a call fails with this error. -/
def fails {α : Type} (x : M Reader α) (e : Err) (r : Reader) : Option Reader :=
  match x r with
  | .err r' e' => if e = e' then some r' else none
  | _ => none

/-- The reader afterwards, if it is as expected. -/
def holds (b : Reader → Bool) (r : Reader) : Option Reader := if b r then some r else none

/-- Performs a statement: the reader afterwards, if the check succeeds. -/
def Step.run : Step → Reader → Option Reader
  | .pos n => holds (·.pos == n)
  | .remaining n => holds (·.cntRemaining == n)
  | .viewRemaining s => holds (·.rest == s.toList)
  | .unpop n => fun r => some (r.unpop n)
  | .pop n => fun r => some (r.pop n)
  | .peek c => gives Reader.peek c
  | .peekFails e => fails Reader.peek e
  | .matchChar c => gives (Reader.readIfMatchChar c) c
  | .matchCharFails c e => fails (Reader.readIfMatchChar c) e
  | .matchStr s => gives (Reader.readIfMatchStr s.toList) s.toList
  | .matchStrFails s e => fails (Reader.readIfMatchStr s.toList) e
  | .readChar c => gives Reader.readChar c
  | .readCharFails e => fails Reader.readChar e
  | .readN n s => gives (Reader.readNChars n) s.toList
  | .readNFails n e => fails (Reader.readNChars n) e
  | .eof b => holds (·.eof == b)
  | .readRemaining s => gives Reader.readRemaining s.toList
  | .parse t v => gives (Reader.parseInt t 10) v
  | .parseFails t e => fails (Reader.parseInt t 10) e

/-- Whether all checks succeed. -/
def passes (initial : String) (steps : List Step) : Bool :=
  (steps.foldlM (fun r (s : Step) => s.run r) (Reader.ofStr initial.toList)).isSome

/-- test_reader.cpp:12-69, "reader". -/
example : passes "abc ghi def" [
    .pos 0, .remaining 11, .viewRemaining "abc ghi def", .unpop 1, .viewRemaining "abc ghi def",
    .peek 'a', .pop 1, .peek 'b', .pop 3, .pos 4, .remaining 7, .viewRemaining "ghi def",
    .matchCharFails 'h' .invalidData, .matchChar 'g', .matchStrFails "hi!" .invalidData, .matchStr "hi ",
    .remaining 3, .viewRemaining "def", .readChar 'd', .readNFails 3 .eof, .unpop 1, .readN 3 "def",
    .peekFails .eof, .readCharFails .eof, .remaining 0, .unpop 1, .remaining 1, .eof false, .peek 'f', .readChar 'f',
    .eof true, .remaining 0, .readRemaining "", .unpop 1, .remaining 1, .readRemaining "f",
    .matchCharFails 'e' .eof, .matchStrFails "end" .eof, .unpop 500, .viewRemaining "abc ghi def"] = true := by
  decide +kernel

/-- test_reader.cpp:140-149, "a failed parse_int keeps previous read position". -/
example : passes "abc -348648" [
    .readN 4 "abc ", .parseFails u8 .outOfRange, .viewRemaining "-348648", .parseFails i16 .outOfRange,
    .viewRemaining "-348648", .parse i32 (-348648)] = true := by
  decide +kernel

/-- `emio::reader{str}.parse_int<T>(base)`: the number, or the error. -/
def number (str : String) (t : IntTy) (base : Int := 10) : Run Unit Int :=
  match Reader.parseInt t base (Reader.ofStr str.toList) with
  | .ok _ v => .ok () v
  | .err _ e => .err () e
  | .bad b => .bad b

/-- test_reader.cpp:111-138, "sign is correctly parsed". -/
example : number "-" i32 = .err () .eof ∧ number "-" u32 = .err () .eof ∧ number "- " i32 = .err () .invalidData ∧
    number "- " u32 = .err () .invalidData ∧ number "-8" i32 8 = .err () .invalidData ∧
    number "-8" u32 8 = .err () .invalidData ∧ number "-7" i32 8 = .ok () (-7) ∧
    number "-7" u32 8 = .err () .outOfRange ∧
    number "+" i32 = .err () .eof ∧ number "+" u32 = .err () .eof ∧ number "+ " i32 = .err () .invalidData ∧
    number "+ " u32 = .err () .invalidData ∧ number "+8" i32 8 = .err () .invalidData ∧
    number "+8" u32 8 = .err () .invalidData ∧ number "+7" i32 8 = .ok () 7 ∧ number "+7" u32 8 = .ok () 7 ∧
    number "+-1" i32 = .err () .invalidData ∧ number "-+1" u32 = .err () .invalidData := by
  decide +kernel

/-- test_reader.cpp:151-171, "base". -/
example : number "0159fE" i32 10 = .ok () 159 ∧ number "0159fE" i32 2 = .ok () 1 ∧ number "0159fE" i32 8 = .ok () 13 ∧
    number "0159fE" i32 16 = .ok () 88574 ∧
    number "-1078aB" i32 10 = .ok () (-1078) ∧ number "-1078aB" i32 2 = .ok () (-2) ∧
    number "-1078aB" i32 8 = .ok () (-71) ∧ number "-1078aB" i32 16 = .ok () (-1079467) ∧
    number "1" i32 1 = .err () .invalidArgument ∧ number "1" i32 37 = .err () .invalidArgument := by
  decide +kernel

/-- The text read and what remains (`read_until_...` and `read_remaining`), or the error and what remains. -/
def until' (x : M Reader Str) (str : String) : Run String String :=
  match x (Reader.ofStr str.toList) with
  | .ok r s => .ok (String.ofList r.rest) (String.ofList s)
  | .err r e => .err (String.ofList r.rest) e
  | .bad b => .bad b

/-- test_reader.cpp:174-209, "reader::read_until". -/
example : until' (Reader.readUntilChar 'b' {}) "a12bcd" = .ok "cd" "a12" ∧
    until' (Reader.readUntilStr "abd".toList {}) "abcabd123" = .ok "123" "abc" ∧
    until' (Reader.readUntilAnyOf "cb".toList {}) "a12bcd" = .ok "cd" "a12" ∧
    until' (Reader.readUntilNoneOf "12a".toList {}) "a12bcd" = .ok "cd" "a12" ∧
    until' (Reader.readUntilPred (· == 'b') {}) "a12bcd" = .ok "cd" "a12" := by
  decide +kernel

/-- test_reader.cpp:211-255, "reader::read_until_options", for all options. -/
example : ∀ inc keep ign : Bool,
    until' (Reader.readUntilChar 'c' ⟨inc, keep, ign⟩) "a12bcd" =
      .ok (if keep then "cd" else "d") (if inc then "a12bc" else "a12b") ∧
    until' (Reader.readUntilChar 'x' ⟨inc, keep, ign⟩) "a12bcd" =
      (if ign then .err "a12bcd" .invalidData else .ok "" "a12bcd") ∧
    until' (Reader.readUntilChar 'x' ⟨inc, keep, ign⟩) "" = .err "" .eof := by
  decide +kernel

/-- The fields up to the first error (the loop of test_reader.cpp:273-279). -/
def fields : Nat → Reader → List String
  | 0, _ => []
  | n + 1, r =>
    match Reader.readUntilChar ';' {} r with
    | .ok r' s => String.ofList s :: fields n r'
    | _ => []

/-- test_reader.cpp:270-281, "default option works with delimiter and EOF". -/
example : fields 100 (Reader.ofStr "0;1;2;3;4".toList) = ["0", "1", "2", "3", "4"] := by decide +kernel

/-- What the reader of `subreader(pos, len)` of a reader at address 4096 contains. -/
def sub (str : String) (skip pos len : Nat) : Run Unit String :=
  match Reader.subreader 4096 pos len ⟨str.toList, skip⟩ with
  | .ok _ r => .ok () (String.ofList r.rest)
  | .err _ e => .err () e
  | .bad b => .bad b

/-- test_reader.cpp:284-356, "reader::subreader", with `npos` as 2^64 - 1. -/
example : (∀ len ∈ [0, 1, 2, 2 ^ 64 - 1], sub "" 0 0 len = .ok () "") ∧ sub "" 0 1 0 = .err () .eof ∧
    (∀ pos ∈ [0, 1, 2, 3], ∀ len ∈ [0, 1, 2, 3, 2 ^ 64 - 1],
      sub "abc" 0 pos len = .ok () (String.ofList (("abc".toList.drop pos).take len)) ∧
      sub "123abc" 3 pos len = .ok () (String.ofList (("abc".toList.drop pos).take len))) ∧
    sub "abc" 0 4 (2 ^ 64 - 1) = .err () .eof ∧ sub "123abc" 3 4 (2 ^ 64 - 1) = .err () .eof := by
  decide +kernel

end Emio.Conformance.Reading
