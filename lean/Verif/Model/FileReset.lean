import Verif.Model.Buffer
/-
Model of `file_buffer::reset` (buffer.hpp:610-616): the stream is a file with a position.
-/
namespace Emio

/-- A `file_buffer` with the file its stream belongs to (buffer.hpp:578-632): the contents when the position of the stream
was at the beginning for the last time, what the stream has received from there until the last `reset()`, and the buffer,
of which `file` is what the stream has received since.  Simplifications: the file is open for update, not for appending;
nobody else uses the stream; the stream hands on what it receives at once (stdio's own buffer is not modelled). -/
structure DiskFile where
  start : Str
  sent : Str
  buf : FileBuf

namespace DiskFile

/-- `file_buffer{file}` with the position at the beginning of a file (buffer.hpp:587-589). -/
def new (cache start : Str) : DiskFile := ⟨start, [], FileBuf.new cache []⟩

/-- The contents of the file: what was written since the position was at the beginning, and behind it what was there before
(`std::fwrite`, buffer.hpp:602). -/
def contents (d : DiskFile) : Str := (d.sent ++ d.buf.file) ++ d.start.drop (d.sent ++ d.buf.file).length

/-- `reset` (buffer.hpp:613-616): the whole cache is the write area again, and the stream is asked to go to its beginning.
Its answer is ignored; `seekable` tells whether it can. -/
def reset (seekable : Bool) (d : DiskFile) : DiskFile :=
  let buf := { d.buf with base := d.buf.base.setWriteArea 0 d.buf.cache.length, file := [] }
  if seekable then ⟨d.contents, [], buf⟩ else ⟨d.start, d.sent ++ d.buf.file, buf⟩

end DiskFile

end Emio
