import Verif.Model.Format
/-
How `print` and `println` hand their text to the stream: the calls of `fwrite` they make.
-/
namespace Emio
open BufferImpl

/-- `file_buffer<CacheSize>` (buffer.hpp:580-632) on a stream that takes everything, seen as the sequence of the calls of
`fwrite` it makes: what each of them was asked to write.  Simplified: a call for no characters does nothing to the stream
and is left out. -/
structure CallBuf where
  base : Base
  calls : List Str
  cache : Str
  deriving DecidableEq, Repr

namespace CallBuf

/-- Constructor (buffer.hpp:587-589). -/
def new (cache : Str) : CallBuf := ⟨⟨false, 0, 0, cache.length⟩, [], cache⟩

/-- `flush` (buffer.hpp:601-608); `fwrite` manages to write all it is asked to. -/
def flush (s : CallBuf) : CallBuf :=
  { s with
    calls := if s.base.used = 0 then s.calls else s.calls ++ [s.cache.take s.base.used]
    base := s.base.setWriteArea 0 s.cache.length }

/-- `request_write_area` of `file_buffer` (buffer.hpp:619-627). -/
instance : BufferImpl CallBuf where
  base s := s.base
  setBase s b := { s with base := b }
  request _ size := fun s =>           -- buffer.hpp:619-627
    .ok { flush s with base := (flush s).base.setWriteArea 0 s.cache.length } (cacheArea s.cache.length size)
  store s i d := (overwrite s.cache i d).map fun m => { s with cache := m }

end CallBuf

/-- `vprint` (format.hpp:361-369) and, with `newline`, `vprintln` (format.hpp:427-437) on a stream that takes everything:
the calls of `fwrite` that are made. -/
def printCalls (cache : Str) (newline : Bool) (str : Str) (args : List FArg) : Run (List Str) Unit :=
  match (do formatTo str args; if newline then writeArea 1 ['\n'] else pure () : M CallBuf Unit) (CallBuf.new cache) with
  | .ok s _ => .ok (CallBuf.flush s).calls ()
  | .err s e => .err s.calls e
  | .bad b => .bad b

end Emio
