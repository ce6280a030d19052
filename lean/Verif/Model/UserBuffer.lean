import Verif.Model.Buffer
/-
Model of buffers written by a user: classes derived from `buffer` (include/emio/buffer.hpp:28-127).
-/
namespace Emio

/-- What a call of `request_write_area` of the user's class does (buffer.hpp:90-103): the memory its write areas lie in
and its own members afterwards, the area passed to `set_write_area` if that was called (buffer.hpp:105-112), and what is
returned. -/
structure Answer (S : Type) where
  mem : Str
  own : S
  setArea : Option Area
  result : Except Err Area

/-- The user's `request_write_area(used, size)` (buffer.hpp:90-103): a function of the area that was set before, the
arguments, the memory and the own members of the class. -/
abbrev Override (S : Type) := (area : Area) → (used size : Nat) → (mem : Str) → (own : S) → Answer S

/-- An object of the user's class (buffer.hpp:28-127): the members of the base class, the memory its write areas lie in
and its own members. -/
structure UserBuf {S : Type} (f : Override S) where
  base : Base
  mem : Str
  own : S

/-- The object after a call of its `request_write_area` (buffer.hpp:78, 105-112). -/
def UserBuf.after {S : Type} {f : Override S} (s : UserBuf f) (r : Answer S) : UserBuf f where
  base := match r.setArea with
    | some a => s.base.setWriteArea a.off a.len
    | none => s.base
  mem := r.mem
  own := r.own

/-- The answer of the user's `request_write_area` (buffer.hpp:78). -/
def UserBuf.ask {S : Type} {f : Override S} (s : UserBuf f) (used size : Nat) : Answer S :=
  f ⟨s.base.off, s.base.len⟩ used size s.mem s.own

/-- `request_write_area` of the user's class (buffer.hpp:78, 90-103). -/
instance {S : Type} (f : Override S) : BufferImpl (UserBuf f) where
  base s := s.base
  setBase s b := { s with base := b }
  request used size := fun s =>
    match (s.ask used size).result with
    | .ok a => .ok (s.after (s.ask used size)) a
    | .error e => .err (s.after (s.ask used size)) e
  store s i d := (overwrite s.mem i d).map fun m => { s with mem := m }

end Emio
