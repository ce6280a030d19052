import Verif.Model.Writer
import Verif.Model.Format

/-!
# The unit tests of the library, evaluated in the model: test_buffer.cpp, test_writer.cpp and test_utf.cpp

The checks of /repo/test/unit_test/test_buffer.cpp, test_writer.cpp and detail/test_utf.cpp with the results the tests
expect.  These are no proofs of properties: they show that the model computes what the authors of the library expect of
the code.
-/

namespace Emio.Conformance.Buffers

/-- A statement of a test of a buffer. -/
inductive Step (σ : Type)
  /-- `get_write_area_of` succeeds with an area of the size; it is filled with the character. -/
  | area (n : Nat) (c : Char)
  /-- `get_write_area_of` succeeds, and its area begins at the place. -/
  | areaAt (n off : Nat)
  /-- `get_write_area_of` fails. -/
  | areaFails (n : Nat)
  /-- `get_write_area_of_max` succeeds with an area of the size `got`; it is filled with the character. -/
  | areaMax (n got : Nat) (c : Char)
  /-- `get_write_area_of_max` fails. -/
  | areaMaxFails (n : Nat)
  /-- Something that can be observed. -/
  | holds (f : σ → Bool)
  /-- Something that succeeds. -/
  | succeeds (f : M σ Unit)
  /-- Something that fails with an error and changes the buffer. -/
  | fails (f : M σ Unit) (e : Err)

/-- Fill a write area. -/
def fill [BufferImpl σ] (a : Area) (c : Char) (s : σ) : Option σ := BufferImpl.store s a.off (List.replicate a.len c)

/-- Do the statements do what the test expects? -/
def steps [BufferImpl σ] : List (Step σ) → σ → Bool
  | [], _ => true
  | .area n c :: rest, s =>
    match getWriteAreaOf n s with
    | .ok s' a => a.len == n && ((fill a c s').map (steps rest)).getD false
    | _ => false
  | .areaAt n off :: rest, s =>
    match getWriteAreaOf n s with
    | .ok s' a => a == ⟨off, n⟩ && steps rest s'
    | _ => false
  | .areaFails n :: rest, s =>
    match getWriteAreaOf n s with
    | .err s' e => e == .eof && steps rest s'
    | _ => false
  | .areaMax n got c :: rest, s =>
    match getWriteAreaOfMax n s with
    | .ok s' a => a.len == got && ((fill a c s').map (steps rest)).getD false
    | _ => false
  | .areaMaxFails n :: rest, s =>
    match getWriteAreaOfMax n s with
    | .err s' e => e == .eof && steps rest s'
    | _ => false
  | .holds f :: rest, s => f s && steps rest s
  | .succeeds f :: rest, s =>
    match f s with
    | .ok s' _ => steps rest s'
    | _ => false
  | .fails f e :: rest, s =>
    match f s with
    | .err s' e' => e == e' && steps rest s'
    | _ => false

/-- `n` times the character. -/
def many (n : Nat) (c : Char) : Str := List.replicate n c

/-- The state after a constructor. -/
def built (r : Run σ α) (p : σ → Bool) : Bool :=
  match r with
  | .ok s _ => p s
  | _ => false

/-- `default_cache_size`. -/
def N : Nat := defaultCacheSize

/-- test_buffer.cpp:130-207 (without the copies). -/
def memoryBuffer : List Bool :=
  [(0, 15), (18, 18)].map fun (given, cap) =>
    built (MemBuf.new 15 given) <| steps
      [.holds (·.capacity == cap), .holds (·.view == []),
       .area 15 'x', .holds (·.view == many 15 'x'),
       .area 55 'y', .holds (·.view == many 15 'x' ++ many 55 'y'),
       .area N 'z', .holds (·.view == many 15 'x' ++ many 55 'y' ++ many N 'z'),
       .holds fun s => s.capacity ≥ s.view.length,
       .holds fun s => built s.reset fun s' => s'.capacity == s.capacity && steps [.area 15 'x'] s']

/-- test_buffer.cpp:209-249; the default capacities of `std::string` are 15 and 30. -/
def regression : List Bool :=
  [built (MemBuf.new N 0) <| steps <|
    [.holds (·.capacity == N)] ++ List.replicate 16 (.area 1 'a') ++
    [.area 1 'b', .area 30 'c', .holds (·.view == many 16 'a' ++ ['b'] ++ many 30 'c')]]

/-- test_buffer.cpp:251-302 (without the copies). -/
def memoryBufferCt : List Bool :=
  [built (MemBuf.new 1 0) <| steps
      [.holds (·.capacity == 1), .holds (·.view == []),
       .area 7 'x', .holds (·.view == "xxxxxxx".toList),
       .area 5 'y', .holds (·.view == "xxxxxxxyyyyy".toList),
       .area 8 'z', .holds (·.view == "xxxxxxxyyyyyzzzzzzzz".toList),
       .holds fun s => s.capacity ≥ s.view.length,
       .holds fun s => built s.reset fun s' => s'.capacity == s.capacity && steps [.area 7 'x'] s']]

/-- test_buffer.cpp:304-380 (without the copies). -/
def spanBuffer : List Bool :=
  [steps
    [.holds (·.capacity == 70 + N), .holds (·.view == []),
     .areaAt 15 0, .holds (·.view.length == 15),
     .areaAt 55 15, .holds (·.view.length == 70),
     .areaAt N 70, .holds (·.view.length == 70 + N),
     .areaFails 1, .areaMax 0 0 'x',
     .holds (·.capacity == 70 + N),
     .holds fun s => s.reset.capacity == 70 + N && steps [.area 15 'x'] s.reset]
    (SpanBuf.new (uninit (70 + N)))]

/-- test_buffer.cpp:382-407, 409-436. -/
def spanLimits : List Bool :=
  [steps [.areaMaxFails 100] (SpanBuf.new []),
   steps [.areaMax 100 50 'x'] (SpanBuf.new (uninit 50)),
   steps [.areaMax 60 50 'x', .areaMaxFails 60, .areaMax 0 0 'x'] (SpanBuf.new (uninit 50))]

/-- test_buffer.cpp:438-490 (without the copies). -/
def staticBuffer : List Bool :=
  [steps
    [.areaMax 500 500 'q', .areaMax 5 5 'y',
     .holds fun s => steps [.areaMax 600 542 'l', .holds (·.view == many 542 'l')] s.reset]
    (SpanBuf.new (uninit 542))]

/-- test_buffer.cpp:492-532. -/
def countingBuffer : List Bool :=
  [steps
    [.holds (·.count == 0), .area 15 'x', .holds (·.count == 15), .area 55 'x', .holds (·.count == 70),
     .area N 'x', .holds (·.count == 70 + N), .area N 'x', .holds (·.count == 70 + 2 * N),
     .areaFails (N + 1), .holds (·.count == 70 + 2 * N)]
    (CountBuf.new (uninit N))]

/-- test_buffer.cpp:534-564. -/
def pointer : List Bool :=
  [steps [.area 2 'x', .holds (·.out == 2), .area 3 'y', .holds (·.out == 5), .holds (·.view == "xxyyy".toList)]
    (PtrBuf.new fun _ => '\x00')]

/-- test_buffer.cpp:566-658. -/
def iterator : List Bool :=
  [steps
    [.holds (·.out == []), .areaFails (2 ^ 64 - 1), .areaFails (N + 1),
     .area N 'x', .holds (·.out == []),
     .area 2 'y', .holds (·.out == many N 'x'),
     .area N 'z', .holds (·.out == many N 'x' ++ many 2 'y'),
     .area 3 'x', .holds (·.out == many N 'x' ++ many 2 'y' ++ many N 'z'),
     .area 2 'y', .holds (·.out == many N 'x' ++ many 2 'y' ++ many N 'z'),
     .area 42 'z', .holds (·.out == many N 'x' ++ many 2 'y' ++ many N 'z'),
     .holds (·.flush.out == many N 'x' ++ many 2 'y' ++ many N 'z' ++ many 3 'x' ++ many 2 'y' ++ many 42 'z'),
     .holds fun s => s.flush.flush.out == s.flush.out]
    (IterBuf.new (uninit N))]

/-- test_buffer.cpp:660-711; the default capacity of `std::string` is 15. -/
def backInsert : List Bool :=
  [built (BackBuf.new N [] 15) <| steps
    [.area 2 'x', .holds fun s => (many 2 'x').isPrefixOf s.chars,
     .area 42 'y', .holds fun s => (many 2 'x' ++ many 42 'y').isPrefixOf s.chars,
     .area 3 'z', .holds fun s => (many 2 'x' ++ many 42 'y' ++ many 3 'z').isPrefixOf s.chars,
     .holds fun s => s.chars != many 2 'x' ++ many 42 'y' ++ many 3 'z',
     .holds (·.flush.chars == many 2 'x' ++ many 42 'y' ++ many 3 'z'),
     .holds (·.flush.flush.chars == many 2 'x' ++ many 42 'y' ++ many 3 'z')]]

/-- test_buffer.cpp:713-779. -/
def fileBuffer : List Bool :=
  [steps
    [.areaFails (N + 1), .area 2 'y', .holds (·.file == []),
     .succeeds FileBuf.flush, .holds (·.file == "yy".toList),
     .area 4 'z', .holds (·.file == "yy".toList),
     .succeeds FileBuf.flush, .holds (·.file == "yyzzzz".toList),
     .area N 'x', .area 2 'z', .holds (·.file == "yyzzzz".toList ++ many N 'x')]
    (FileBuf.new (uninit N) [])]

/-- A truncating buffer over `static_buffer<64>`. -/
def truncating (limit : Nat) : TruncBuf SpanBuf := TruncBuf.new (uninit N) (SpanBuf.new (uninit 64)) limit

/-- What arrived in the primary buffer. -/
def prim (d : Str) : Step (TruncBuf SpanBuf) := .holds fun s => s.prim.view == d

/-- What `count()` tells. -/
def count (n : Nat) : Step (TruncBuf SpanBuf) := .holds (·.count == n)

/-- `flush()` succeeds. -/
def flushes : Step (TruncBuf SpanBuf) := .succeeds TruncBuf.flush

/-- test_buffer.cpp:821-879: requests below the limit first, with an explicit `flush` or without. -/
def truncBelow : List Bool :=
  [true, false].flatMap fun explicit =>
    let start := [.area 40 'a', count 40, prim []] ++ if explicit then [flushes, prim (many 40 'a')] else []
    let second := [.area 8 'b', count 48] ++
      if explicit then [prim (many 40 'a'), flushes, prim (many 40 'a' ++ many 8 'b')] else [prim []]
    [steps (start ++ second ++
      [.area N 'c', count (48 + N), prim (many 40 'a' ++ many 8 'b'), flushes, prim (many 40 'a' ++ many 8 'b')])
      (truncating 48),
     steps (start ++ [.area N 'b', count (40 + N), prim (many 40 'a'), flushes, prim (many 40 'a' ++ many 8 'b')])
      (truncating 48)]

/-- test_buffer.cpp:880-910. -/
def truncAbove : List Bool :=
  [true, false].map fun explicit =>
    steps ([.area N 'a', count N, prim []] ++ (if explicit then [flushes, prim (many 48 'a')] else []) ++
      [.area N 'a', count (2 * N), prim (many 48 'a'), flushes, prim (many 48 'a')]) (truncating 48)

/-- test_buffer.cpp:911-977: more than the primary buffer can hold. -/
def truncPrimary : List Bool :=
  ([true, false].map fun explicit =>
    steps ([.area 60 'a', count 60, prim []] ++ (if explicit then [flushes, prim (many 60 'a')] else []) ++
      [.area 8 'b', count 68, .areaFails N, prim (many 60 'a' ++ many 4 'b')]) (truncating 86)) ++
  [steps [.area 90 'a', count 90, prim [], .fails TruncBuf.flush .eof, prim (many 64 'a')] (truncating 86)]

/-- test_buffer.cpp:978-994. -/
def truncCache : List Bool :=
  [steps [.areaMax (N + 10) N 'a', prim [], flushes, prim (many 64 'a')] (truncating 64)]

/-! ### test_writer.cpp -/

/-- A writer over `memory_buffer`. -/
def written (l : List (Step MemBuf)) : Bool := built (MemBuf.new N 0) (steps l)

/-- The text of the buffer. -/
def text (s : String) : Step MemBuf := .holds (·.view == s.toList)

/-- `int`. -/
def cInt : IntTy := ⟨true, 32⟩

/-- test_writer.cpp:36-111. -/
def writer : List Bool :=
  [written [.area 1 '1', text "1"],
   written [.succeeds (writeChar 'c'), text "c"],
   written [.succeeds (writeCharN 'c' 3), text "ccc"],
   written [.succeeds (writeCharEscaped '"'), text "'\\\"'"],
   written [.succeeds (writeStr "s".toList), text "s"],
   written [.succeeds (writeStrEscaped "'".toList), text "\"\\'\""],
   written [.succeeds (writeStrEscaped []), text "\"\""],
   written [.succeeds (writeInt cInt 1 10 false), text "1", .succeeds (writeInt cInt 15 16 false), text "1f",
     .succeeds (writeInt cInt 10 11 true), text "1fA", .succeeds (writeInt cInt (-3) 2 false), text "1fA-11",
     .fails (writeInt cInt 3 1 false) .invalidArgument, .fails (writeInt cInt 3 37 false) .invalidArgument,
     text "1fA-11", .succeeds (writeInt cInt 9999 10 false), text "1fA-119999",
     .succeeds (writeInt cInt 414 15 false), text "1fA-1199991c9"],
   written [.succeeds (writeInt cInt 0 10 false), text "0", .succeeds (writeInt cInt 0 16 false), text "00",
     .succeeds (writeInt cInt 0 8 false), text "000", .succeeds (writeInt cInt 0 2 false), text "0000",
     .succeeds (writeInt cInt 0 36 false), text "00000"]]

/-- test_writer.cpp:120-129: the long texts. -/
def lorem : Str :=
  "Lorem ipsum dolor sit amet, consetetur sadipscing elitr, sed diam nonumy eirmod tempor invidunt ut \
   labore et dolor e magna aliquyam erat, sed diam voluptua.".toList

/-- test_writer.cpp:127-129. -/
def ipsum : Str :=
  "At vero eos et accusam et justo duo dolores et ea rebum. Stet clita kasd gubergren, no sea takimata \
   sanctus est Lorem ipsum do lor sit amet.".toList

/-- test_writer.cpp:113-146. -/
def writerCached : List Bool :=
  [lorem.length > N, ipsum.length > N,
   steps [.succeeds (writeCharN 'x' (N + 1)), .succeeds (writeStr lorem), .succeeds (writeStrEscaped ipsum),
     .holds (·.flush.out == many (N + 1) 'x' ++ lorem ++ ['"'] ++ ipsum ++ ['"'])] (IterBuf.new (uninit N))]

/-- test_writer.cpp:220-239. -/
def writerZero : List Bool :=
  [(writeChar 'a'), (writeCharN 'a' 1), (writeCharEscaped 'a'), (writeStr ['a']), (writeStrEscaped ['a']),
   (writeInt cInt 0 10 false)].map fun f => steps [.fails f .eof] (SpanBuf.new [])

/-! ### test_utf.cpp -/

/-- `test_escape` (test_utf.cpp:9-18). -/
def escapes (input expected : List Nat) : Bool :=
  let i := input.map Char.ofNat
  let e := expected.map Char.ofNat
  countSizeWhenEscaped i == e.length && (escapeHelper i [] e.length).1 == e

/-- The codes of a text. -/
def codes (s : String) : List Nat := s.toList.map Char.toNat

/-- test_utf.cpp:24-48. -/
def utf : List Bool :=
  [escapes (codes " !/09:@AZ[`az~") (codes " !/09:@AZ[`az~"),
   escapes (codes "\n\r\t\\'\"") (codes "\\n\\r\\t\\\\\\'\\\""),
   escapes [0x00, 0x19, 0x7f, 0xff] (codes "\\x00\\x19\\x7f\\xff"),
   escapes [120, 5, 13, 0x13, 9, 116, 0x80, 48] (codes "x\\x05\\r\\x13\\tt\\x800")]

/-- The calls of one `write_escaped_helper` with areas of the sizes, and what each of them stores. -/
def chunks (src rem : Str) : List (Nat × String) → Bool
  | [] => true
  | (space, out) :: rest =>
    let r := escapeHelper src rem space
    r.1 == out.toList && chunks r.2.1 r.2.2 rest

/-- test_utf.cpp:50-190. -/
def utfChunks : List Bool :=
  [chunks ['a'] [] [(0, ""), (1, "a"), (4, "")],
   chunks ['a'] [] [(1, "a"), (4, "")],
   chunks ['\n'] [] [(0, ""), (2, "\\n"), (4, "")],
   chunks ['\n'] [] [(1, "\\"), (1, "n"), (4, "")],
   chunks ['\n'] [] [(1, "\\"), (0, ""), (1, "n"), (4, "")],
   chunks ['\n'] [] [(2, "\\n"), (4, "")],
   chunks ['\n'] [] [(3, "\\n"), (4, "")],
   chunks [Char.ofNat 0xf5] [] [(0, ""), (4, "\\xf5"), (4, "")],
   chunks [Char.ofNat 0xf5] [] [(1, "\\"), (1, "x"), (1, "f"), (1, "5"), (4, "")],
   chunks [Char.ofNat 0xf5] [] [(2, "\\x"), (2, "f5"), (4, "")],
   chunks [Char.ofNat 0xf5] [] [(2, "\\x"), (0, ""), (2, "f5"), (4, "")],
   chunks [Char.ofNat 0xf5] [] [(3, "\\xf"), (1, "5"), (4, "")],
   chunks [Char.ofNat 0xf5] [] [(4, "\\xf5"), (4, "")],
   chunks [Char.ofNat 0xf5] [] [(5, "\\xf5"), (4, "")]]

/-- Every check gives the result the test expects. -/
example : (List.flatten [memoryBuffer, regression, memoryBufferCt, spanBuffer, spanLimits, staticBuffer, countingBuffer,
    pointer, iterator, backInsert, fileBuffer, truncBelow, truncAbove, truncPrimary, truncCache, writer, writerCached,
    writerZero, utf, utfChunks]).all (· == true) = true := by decide +kernel

end Emio.Conformance.Buffers
