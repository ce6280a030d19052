import Verif.Model.Parser
/-
Model of include/emio/format.hpp and include/emio/iterator.hpp.

The functions taking `format_args` (`vformat`, `vformat_to`, ...) and those taking a format string and the arguments
do the same once the format string has been validated; the model takes the format string as text and validates it.
The caches of the buffers, which C++ leaves uninitialised, are parameters.
-/
namespace Emio
open BufferImpl

/-- `default_cache_size` (buffer.hpp:27). -/
def defaultCacheSize : Nat := 128

/-- `format` / `vformat` (format.hpp:211-217, 227-257): the string. -/
def formatStr (str : Str) (args : List FArg) : Run Unit Str :=
  match MemBuf.new defaultCacheSize 0 with
  | .ok s _ =>
    match formatTo str args s with
    | .ok s' _ => .ok () s'.view
    | .err _ e => .err () e
    | .bad b => .bad b
  | .err _ e => .err () e
  | .bad b => .bad b

/-- `formatted_size` / `vformatted_size` (format.hpp:53-57, 66-109). -/
def formattedSize (cache str : Str) (args : List FArg) : Run Unit Nat :=
  match formatTo str args (CountBuf.new cache) with
  | .ok s _ => .ok () s.count
  | .err _ e => .err () e
  | .bad b => .bad b

/-- `format_to(out, ...)` for an output iterator (format.hpp:142-146, 193-201): what went through the iterator.  On an
error the characters of full caches have gone through it. -/
def formatToIter (cache str : Str) (args : List FArg) : Run Str Unit :=
  match formatTo str args (IterBuf.new cache) with
  | .ok s _ => .ok s.flush.out ()
  | .err s e => .err s.out e
  | .bad b => .bad b

/-- `format_to(char*, ...)` (format.hpp:193-201 with buffer.hpp:478-513): the distance from the initial pointer to the
returned one. -/
def formatToPtr (mem : Nat → Char) (str : Str) (args : List FArg) : M PtrBuf Nat := fun _ =>
  match formatTo str args (PtrBuf.new mem) with
  | .ok s _ => .ok s s.out
  | .err s e => .err s e
  | .bad b => .bad b

/-- `format_to_n(buffer&, n, ...)` (format.hpp:299-304, 343-353): the total size; the primary buffer is the state. -/
def formatToN {π : Type} [BufferImpl π] (cache : Str) (n : Nat) (str : Str) (args : List FArg) : M π Nat := fun prim =>
  match formatTo str args (TruncBuf.new cache prim n) with
  | .ok s _ =>
    match TruncBuf.flush s with
    | .ok s' _ => .ok s'.prim s'.count
    | .err s' e => .err s'.prim e
    | .bad b => .bad b
  | .err s e => .err s.prim e
  | .bad b => .bad b

/-! ### iterator.hpp -/

/-- `truncating_iterator` over an output-only iterator (iterator.hpp:77-101): `out` is what was passed to the wrapped
iterator.  `limit_` is signed. -/
structure TruncIt where
  out : Str
  limit : Int
  count : Nat
  deriving DecidableEq, Repr

namespace TruncIt

/-- Constructor (iterator.hpp:36-37). -/
def new (limit : Int) : TruncIt := ⟨[], limit, 0⟩

/-- `*it++ = c` (iterator.hpp:83-100). -/
def put (it : TruncIt) (c : Char) : TruncIt :=
  { it with out := if (it.count : Int) < it.limit then it.out ++ [c] else it.out, count := it.count + 1 }

/-- Copy characters to the iterator (`copy_str`, buffer.hpp:395-401). -/
def copy (it : TruncIt) (t : Str) : TruncIt := t.foldl put it

end TruncIt

/-- `truncating_iterator` over any other iterator (iterator.hpp:107-138): memory, the position of `out_` in it, and the
black hole. -/
structure TruncPtr where
  mem : Str
  pos : Nat
  limit : Int
  count : Nat
  blackHole : Char
  deriving DecidableEq, Repr

namespace TruncPtr

/-- Constructor (iterator.hpp:36-37), for a pointer to the beginning of `mem`. -/
def new (mem : Str) (limit : Int) : TruncPtr := ⟨mem, 0, limit, 0, '\x00'⟩

/-- `*it = c` (iterator.hpp:129-134); nothing: writing outside of the memory. -/
def assign (it : TruncPtr) (c : Char) : Option TruncPtr :=
  if (it.count : Int) < it.limit then
    if it.pos < it.mem.length then some { it with mem := it.mem.set it.pos c } else none
  else some { it with blackHole := c }

/-- `++it` (iterator.hpp:115-121). -/
def next (it : TruncPtr) : TruncPtr :=
  { it with pos := if (it.count : Int) < it.limit then it.pos + 1 else it.pos, count := it.count + 1 }

/-- Copy characters to the iterator (`copy_str`, buffer.hpp:395-401). -/
def copy (it : TruncPtr) : Str → Option TruncPtr
  | [] => some it
  | c :: t => (it.assign c).bind fun it => it.next.copy t

end TruncPtr

/-- `format_to_n(out, n, ...)` for an output-only iterator (format.hpp:279-287, 316-331): the truncating iterator in the
end.  Simplification: the characters of the caches are passed on at the end; nobody looks at the iterator before. -/
def formatToNIter (cache : Str) (n : Int) (str : Str) (args : List FArg) : Run Unit TruncIt :=
  match formatTo str args (IterBuf.new cache) with
  | .ok s _ => .ok () ((TruncIt.new n).copy s.flush.out)
  | .err _ e => .err () e
  | .bad b => .bad b

/-- `format_to_n(out, n, ...)` for a pointer to the beginning of `mem` (format.hpp:279-287, 316-331). -/
def formatToNPtr (cache : Str) (mem : Str) (n : Int) (str : Str) (args : List FArg) : Run Unit TruncPtr :=
  match formatTo str args (IterBuf.new cache) with
  | .ok s _ =>
    match (TruncPtr.new mem n).copy s.flush.out with
    | some it => .ok () it
    | none => .bad .ub
  | .err _ e => .err () e
  | .bad b => .bad b

/-- `vprint` (format.hpp:361-369): `file` is nothing for a null pointer, otherwise what the coming calls of `fwrite`
manage to write (see `FileBuf`); the state is what the file got. -/
def vprint (cache : Str) (file : Option (List Nat)) (str : Str) (args : List FArg) : Run Str Unit :=
  match file with
  | none => .err [] .invalidData
  | some io =>
    match formatTo str args (FileBuf.new cache io) with
    | .ok s _ =>
      match FileBuf.flush s with
      | .ok s' _ => .ok s'.file ()
      | .err s' e => .err s'.file e
      | .bad b => .bad b
    | .err s e => .err s.file e
    | .bad b => .bad b

/-- `vprintln` (format.hpp:427-437). -/
def vprintln (cache : Str) (file : Option (List Nat)) (str : Str) (args : List FArg) : Run Str Unit :=
  match file with
  | none => .err [] .invalidData
  | some io =>
    match (do formatTo str args; writeArea 1 ['\n']; FileBuf.flush : M FileBuf Unit) (FileBuf.new cache io) with
    | .ok s _ => .ok s.file ()
    | .err s e => .err s.file e
    | .bad b => .bad b

end Emio
