import Verif.Model.Format
/-
Model of formatting to a back-insert iterator (include/emio/format.hpp with include/emio/buffer.hpp).
-/
namespace Emio

/-- `format_to(std::back_inserter(container), ...)` (format.hpp:142-146, 193-201 with buffer.hpp:520-570, 572-573) for a
container of the given elements and capacity: the elements of the container in the end.  `Capacity` is
`default_cache_size` (buffer.hpp:27, 408).  On an error `out()` is not called, so the container keeps its enlarged size. -/
def formatToBack (chars : Str) (cap : Nat) (str : Str) (args : List FArg) : Run Str Unit :=
  match BackBuf.new 128 chars cap with
  | .ok s0 _ =>
    match formatTo str args s0 with
    | .ok s _ => .ok s.flush.chars ()
    | .err s e => .err s.chars e
    | .bad b => .bad b
  | .err _ _ => .bad .terminate
  | .bad b => .bad b

end Emio
