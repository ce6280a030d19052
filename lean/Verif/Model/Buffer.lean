import Verif.Base
/-
Model of include/emio/buffer.hpp and include/emio/detail/ct_vector.hpp.

A write area (`std::span<char>`) is an offset and a length into the memory its buffer writes to.  Each buffer carries
that memory as a list of characters; storing outside of it is undefined behaviour (`store` returns `none`).
Simplifications: sizes are natural numbers (no `size_t` wrap-around); memory allocation never fails; memory that C++
leaves uninitialised holds NUL characters (no theorem depends on that: they only speak about written characters).
-/
namespace Emio

/-- `std::span<char>`: where a write area starts in its buffer's memory, and its size (buffer.hpp:46-81, 125). -/
structure Area where
  off : Nat
  len : Nat
  deriving DecidableEq, Repr

/-- The members of class `buffer` (buffer.hpp:123-125): `fixed_size_`, `used_` and `area_` (offset and size). -/
structure Base where
  fixed : Bool
  used : Nat
  off : Nat
  len : Nat
  deriving DecidableEq, Repr

/-- `set_write_area` (buffer.hpp:109-112). -/
def Base.setWriteArea (b : Base) (off len : Nat) : Base := { b with off := off, len := len, used := 0 }

/-- What a concrete buffer adds to the base class: its `request_write_area` and the memory the areas point to. -/
class BufferImpl (σ : Type) where
  base : σ → Base
  setBase : σ → Base → σ
  /-- `request_write_area(used, size)`. -/
  request : (used size : Nat) → M σ Area
  /-- Write characters to the memory, starting at an offset. -/
  store : σ → Nat → Str → Option σ

open BufferImpl

section
variable {σ : Type} [BufferImpl σ]

/-- `buffer::get_write_area_of_max` (buffer.hpp:62-81). -/
def getWriteAreaOfMax (size : Nat) : M σ Area := fun s =>
  let b := base s
  let remaining := b.len - b.used
  if remaining ≥ size ∨ b.fixed = true then
    if remaining = 0 ∧ size ≠ 0 then .err s .eof
    else
      let maxSize := min remaining size
      .ok (setBase s { b with used := b.used + maxSize }) ⟨b.off + b.used, maxSize⟩
  else
    match request b.used size s with
    | .ok s' area => .ok (setBase s' { base s' with used := (base s').used + area.len }) area
    | .err s' e => .err s' e
    | .bad b => .bad b

/-- `used_ -= n` in `get_write_area_of` (buffer.hpp:49). -/
def giveBack (n : Nat) (s : σ) : σ := setBase s { base s with used := (base s).used - n }

/-- `buffer::get_write_area_of` (buffer.hpp:46-53). -/
def getWriteAreaOf (size : Nat) : M σ Area := fun s =>
  match getWriteAreaOfMax size s with
  | .ok s' area => if area.len < size then .err (giveBack area.len s') .eof else .ok s' area
  | .err s' e => .err s' e
  | .bad b => .bad b

end

/-- Writing `d` into a memory block at offset `i` (detail/conversion.hpp:294 `copy_n`). -/
def overwrite (mem : Str) (i : Nat) (d : Str) : Option Str :=
  if i + d.length ≤ mem.length then some (mem.take i ++ d ++ mem.drop (i + d.length)) else none

/-- Uninitialised memory of a given size (ct_vector.hpp:143, buffer.hpp:468). -/
def uninit (n : Nat) : Str := List.replicate n '\x00'

/-! ### span_buffer and static_buffer -/

/-- `span_buffer` (buffer.hpp:238-314) with the memory its span refers to. -/
structure SpanBuf where
  base : Base
  mem : Str
  deriving DecidableEq, Repr

namespace SpanBuf

/-- `span_buffer{span}` (buffer.hpp:249-251); the default constructor (buffer.hpp:243) is the case of an empty span. -/
def new (mem : Str) : SpanBuf := ⟨⟨true, 0, 0, mem.length⟩, mem⟩

/-- `request_write_area` of `span_buffer`, which is inherited (buffer.hpp:99-103, 238-314). -/
instance : BufferImpl SpanBuf where
  base s := s.base
  setBase s b := { s with base := b }
  request _ _ := M.throw .eof          -- `buffer::request_write_area` (buffer.hpp:99-103)
  store s i d := (overwrite s.mem i d).map fun m => { s with mem := m }

/-- `view` (buffer.hpp:283-285). -/
def view (s : SpanBuf) : Str := s.mem.take s.base.used

/-- `capacity` (buffer.hpp:308-310). -/
def capacity (s : SpanBuf) : Nat := s.mem.length

/-- `reset` (buffer.hpp:300-302). -/
def reset (s : SpanBuf) : SpanBuf := { s with base := s.base.setWriteArea 0 s.mem.length }

/-- Copy constructor and assignment of `static_buffer` (buffer.hpp:331-334, 339-348): request an area of the other
buffer's used size and copy the other's characters into it.  `mem` is the memory of the new or assigned buffer; both
have the same size.  `.value()` of an error throws out of a `noexcept` context. -/
def staticCopy (mem : Str) (other : SpanBuf) : Run SpanBuf Unit :=
  match getWriteAreaOf other.base.used (new mem) with
  | .ok s a =>
    match BufferImpl.store s a.off (other.mem.take a.len) with
    | some s' => .ok s' ()
    | none => .bad .ub
  | .err _ _ => .bad .terminate
  | .bad b => .bad b

/-- Copy constructor and assignment of `span_buffer` (buffer.hpp:253-256, 261-270): the same span, with an area of the
other's used size requested.  (Both buffers then refer to the same memory; the model follows one of them.) -/
def spanCopy (other : SpanBuf) : Run SpanBuf Unit :=
  match getWriteAreaOf other.base.used (new other.mem) with
  | .ok s _ => .ok s ()
  | .err _ _ => .bad .terminate
  | .bad b => .bad b

end SpanBuf

/-! ### ct_vector -/

/-- `ct_vector<char, StorageSize>` (ct_vector.hpp:24-147): the inline storage (its length is `StorageSize`), the
external allocation if `data_` points to one, and `size_`.  `capacity_` is the length of the current block. -/
structure CtVec where
  storage : Str
  ext : Option Str
  size : Nat
  deriving DecidableEq, Repr

namespace CtVec

/-- `ct_vector()` (ct_vector.hpp:26-30). -/
def new (n : Nat) : CtVec := ⟨uninit n, none, 0⟩

/-- The block `data_` points to (detail/ct_vector.hpp:130-136, 144). -/
def data (v : CtVec) : Str := v.ext.getD v.storage

/-- `capacity` (ct_vector.hpp:122-124). -/
def capacity (v : CtVec) : Nat := v.data.length

/-- Change the contents of the current block (detail/ct_vector.hpp:143-144). -/
def setData (v : CtVec) (d : Str) : CtVec :=
  match v.ext with
  | some _ => { v with ext := some d }
  | none => { v with storage := d }

/-- `reserve` (ct_vector.hpp:94-116).  `none`: reads outside the current block. -/
def reserve (v : CtVec) (n : Nat) : Option CtVec :=
  if n < v.storage.length ∧ v.ext = none then some { v with size := n }
  else if v.capacity < n then
    if v.size ≤ v.capacity then
      some { v with ext := some (v.data.take v.size ++ uninit (n - v.size)), size := n }
    else none
  else some { v with size := n }

/-- `clear` (ct_vector.hpp:118-120). -/
def clear (v : CtVec) : CtVec := { v with size := 0 }

/-- `copy_n(other.data_, other.size_, data_)` (detail/ct_vector.hpp:34, 43, 58, 77). -/
def copyFrom (v other : CtVec) : Option CtVec :=
  if other.size ≤ other.capacity then
    (overwrite v.data 0 (other.data.take other.size)).map v.setData
  else none

/-- Copy constructor (ct_vector.hpp:32-35). -/
def copy (other : CtVec) : Option CtVec :=
  ((new other.storage.length).reserve other.size).bind (copyFrom · other)

/-- Copy assignment (ct_vector.hpp:53-60). -/
def assignCopy (v other : CtVec) : Option CtVec := (v.reserve other.size).bind (copyFrom · other)

/-- The state a moved-from vector is left in (ct_vector.hpp:47-50, 81-84). -/
def movedFrom (other : CtVec) : CtVec := ⟨other.storage, none, 0⟩

/-- Move constructor (ct_vector.hpp:37-51). -/
def move (other : CtVec) : Option CtVec :=
  match other.ext with
  | some d => some ⟨uninit other.storage.length, some d, other.size⟩
  | none => ((new other.storage.length).copyFrom other).map fun v => { v with size := other.size }

/-- Move assignment (ct_vector.hpp:62-86).  `data_` is not set back to the inline storage after `delete[] data_`, so an
external block that is followed by an inline source is written after it was freed: `none`. -/
def assignMove (v other : CtVec) : Option CtVec :=
  match other.ext with
  | some d => some { v with ext := some d, size := other.size }
  | none =>
    if v.ext.isSome then none
    else (v.copyFrom other).map fun v => { v with size := other.size }

end CtVec

/-! ### memory_buffer -/

/-- `memory_buffer<StorageSize>` (buffer.hpp:133-233). -/
structure MemBuf where
  base : Base
  used : Nat
  vec : CtVec
  deriving DecidableEq, Repr

namespace MemBuf

/-- `request_write_area` (buffer.hpp:221-228). -/
def requestArea (used size : Nat) : M MemBuf Area := fun s =>
  match s.vec.reserve (s.vec.size + size) with
  | none => .bad .ub
  | some v =>
    let off := s.used + used
    .ok { base := s.base.setWriteArea off size, used := off, vec := v } ⟨off, size⟩

/-- `request_write_area` of `memory_buffer` (buffer.hpp:221-228). -/
instance : BufferImpl MemBuf where
  base s := s.base
  setBase s b := { s with base := b }
  request := requestArea
  store s i d := (overwrite s.vec.data i d).map fun m => { s with vec := s.vec.setData m }

/-- The object before the body of a constructor runs (the initialisers of the members, buffer.hpp:123-125, 231-232). -/
def blank (storageSize : Nat) : MemBuf := ⟨⟨false, 0, 0, 0⟩, 0, CtVec.new storageSize⟩

/-- `memory_buffer{capacity}` (buffer.hpp:144-147); `memory_buffer{}` is the case 0 (buffer.hpp:138). -/
def new (storageSize capacity : Nat) : Run MemBuf Area :=
  requestArea 0 (max storageSize capacity) (blank storageSize)

/-- `view` (buffer.hpp:189-191). -/
def view (s : MemBuf) : Str := s.vec.data.take (s.used + s.base.used)

/-- `capacity` (buffer.hpp:216-218). -/
def capacity (s : MemBuf) : Nat := s.vec.capacity

/-- `reset` (buffer.hpp:206-210). -/
def reset (s : MemBuf) : Run MemBuf Area :=
  requestArea 0 s.vec.clear.capacity { s with used := 0, vec := s.vec.clear }

/-- The buffer built around a copied or moved vector (buffer.hpp:149-152, 154-156, 165-167, 176-178): the position of
the other buffer, and the block from there to its capacity as write area. -/
def around (b : Base) (used : Nat) (v : CtVec) : MemBuf :=
  { base := b.setWriteArea used (v.capacity - used), used := used, vec := v }

/-- Number of characters written (buffer.hpp:150, 155, 165, 176). -/
def position (s : MemBuf) : Nat := s.used + s.base.used

/-- Copy constructor (buffer.hpp:149-152). -/
def copy (other : MemBuf) : Option MemBuf :=
  other.vec.copy.map (around ⟨false, 0, 0, 0⟩ other.position)

/-- Copy assignment (buffer.hpp:160-169), for two different objects. -/
def assignCopy (s other : MemBuf) : Option MemBuf :=
  (s.vec.assignCopy other.vec).map (around s.base other.position)

/-- `other.reset()` of a moved-from buffer (buffer.hpp:157, 179, 206-210). -/
def resetMoved (other : MemBuf) : Option MemBuf :=
  (reset { other with vec := other.vec.movedFrom }).state?

/-- Move constructor (buffer.hpp:154-158): the new buffer and the moved-from one. -/
def move (other : MemBuf) : Option (MemBuf × MemBuf) :=
  other.vec.move.bind fun v => other.resetMoved.map fun o => (around ⟨false, 0, 0, 0⟩ other.position v, o)

/-- Move assignment (buffer.hpp:171-181), for two different objects. -/
def assignMove (s other : MemBuf) : Option (MemBuf × MemBuf) :=
  (s.vec.assignMove other.vec).bind fun v => other.resetMoved.map fun o => (around s.base other.position v, o)

end MemBuf

/-! ### Buffers with an internal cache -/

/-- The end of `request_write_area` of the cached buffers (buffer.hpp:458-463, 621-626, 685-690, 730-735): set the whole
cache as write area and return it, or its beginning if that is enough. -/
def cacheArea (cacheSize size : Nat) : Area := if size > cacheSize then ⟨0, cacheSize⟩ else ⟨0, size⟩

/-- `iterator_buffer<Iterator, CacheSize>` (buffer.hpp:419-469): `out` is what went through the output iterator. -/
structure IterBuf where
  base : Base
  out : Str
  cache : Str
  deriving DecidableEq, Repr

namespace IterBuf

/-- Constructor (buffer.hpp:426-428); the content of the cache is arbitrary. -/
def new (cache : Str) : IterBuf := ⟨⟨false, 0, 0, cache.length⟩, [], cache⟩

/-- `flush` (buffer.hpp:440-444). -/
def flush (s : IterBuf) : IterBuf :=
  { base := s.base.setWriteArea 0 s.cache.length, out := s.out ++ s.cache.take s.base.used, cache := s.cache }

/-- `request_write_area` of `iterator_buffer` (buffer.hpp:456-464). -/
instance : BufferImpl IterBuf where
  base s := s.base
  setBase s b := { s with base := b }
  request _ size := fun s =>           -- buffer.hpp:456-464
    .ok { s.flush with base := s.flush.base.setWriteArea 0 s.cache.length } (cacheArea s.cache.length size)
  store s i d := (overwrite s.cache i d).map fun m => { s with cache := m }

end IterBuf

/-- `iterator_buffer<OutputPtr*>` (buffer.hpp:478-513).  Simplification: the destination has room for everything that
is written (the caller's obligation for an output pointer), so its memory is unbounded. -/
structure PtrBuf where
  base : Base
  mem : Nat → Char

namespace PtrBuf

/-- Constructor (buffer.hpp:484-486): the write area has the maximal size. -/
def new (mem : Nat → Char) : PtrBuf := ⟨⟨false, 0, 0, 2 ^ 64 - 1⟩, mem⟩

/-- `request_write_area` of `iterator_buffer<char*>`, which is inherited (buffer.hpp:99-103, 478-513). -/
instance : BufferImpl PtrBuf where
  base s := s.base
  setBase s b := { s with base := b }
  request _ _ := M.throw .eof          -- `buffer::request_write_area` (buffer.hpp:99-103)
  store s i d := some { s with mem := fun j => if i ≤ j then (d[j - i]?).getD (s.mem j) else s.mem j }

/-- `out` (buffer.hpp:507-509): distance from the initial pointer. -/
def out (s : PtrBuf) : Nat := s.base.used

/-- The characters between the initial pointer and `out()` (buffer.hpp:507-512). -/
def view (s : PtrBuf) : Str := (List.range s.base.used).map s.mem

end PtrBuf

/-- `iterator_buffer<std::back_insert_iterator<Container>, Capacity>` (buffer.hpp:522-570) with its container: the
elements `chars` (`size()` of them) and `capacity()`.  Accessing elements at or behind `size()` is undefined. -/
structure BackBuf where
  base : Base
  used : Nat
  chars : Str
  cap : Nat
  deriving DecidableEq, Repr

namespace BackBuf

/-- `Container::resize` (buffer.hpp:544, 560). -/
def resize (c : Str) (n : Nat) : Str := c.take n ++ uninit (n - c.length)

/-- `request_write_area` (buffer.hpp:558-565).  The new write area has the length of the whole container, although it
starts at `used_`. -/
def requestArea (used size : Nat) : M BackBuf Area := fun s =>
  let newSize := s.chars.length + size
  let off := s.used + used
  .ok { base := s.base.setWriteArea off newSize, used := off, chars := resize s.chars newSize,
        cap := max s.cap newSize } ⟨off, size⟩

/-- `request_write_area` of `iterator_buffer<std::back_insert_iterator>` (buffer.hpp:558-565). -/
instance : BufferImpl BackBuf where
  base s := s.base
  setBase s b := { s with base := b }
  request := requestArea
  store s i d := (overwrite s.chars i d).map fun m => { s with chars := m }

/-- Constructor (buffer.hpp:528-531): container of the given elements and capacity. -/
def new (capacity : Nat) (chars : Str) (cap : Nat) : Run BackBuf Area :=
  requestArea 0 (min cap capacity) ⟨⟨false, 0, 0, 0⟩, 0, chars, cap⟩

/-- `flush` (buffer.hpp:543-546). -/
def flush (s : BackBuf) : BackBuf := { s with chars := resize s.chars (s.used + s.base.used) }

end BackBuf

/-- `file_buffer<CacheSize>` (buffer.hpp:580-632).  `file` is what `fwrite` has written, `io` tells how many characters
the coming calls of `fwrite` manage to write (at most what was asked for); afterwards they write everything. -/
structure FileBuf where
  base : Base
  file : Str
  cache : Str
  io : List Nat
  deriving DecidableEq, Repr

namespace FileBuf

/-- Constructor (buffer.hpp:587-589). -/
def new (cache : Str) (io : List Nat) : FileBuf := ⟨⟨false, 0, 0, cache.length⟩, [], cache, io⟩

/-- `flush` (buffer.hpp:601-608). -/
def flush : M FileBuf Unit := fun s =>
  let n := match s.io with
    | [] => s.base.used
    | k :: _ => min k s.base.used
  let s' := { s with file := s.file ++ s.cache.take n, io := s.io.tail }
  if n ≠ s.base.used then .err s' .eof
  else .ok { s' with base := s.base.setWriteArea 0 s.cache.length } ()

/-- `request_write_area` of `file_buffer` (buffer.hpp:619-627). -/
instance : BufferImpl FileBuf where
  base s := s.base
  setBase s b := { s with base := b }
  request _ size := fun s =>           -- buffer.hpp:619-627
    match flush s with
    | .ok s' _ => .ok { s' with base := s'.base.setWriteArea 0 s.cache.length } (cacheArea s.cache.length size)
    | .err s' e => .err s' e
    | .bad b => .bad b
  store s i d := (overwrite s.cache i d).map fun m => { s with cache := m }

end FileBuf

/-- `truncating_buffer<CacheSize>` (buffer.hpp:640-699) over a primary buffer of type `π`. -/
structure TruncBuf (π : Type) where
  base : Base
  prim : π
  limit : Nat
  written : Nat
  used : Nat
  cache : Str

namespace TruncBuf
variable {π : Type} [BufferImpl π]

/-- Constructor (buffer.hpp:648-650). -/
def new (cache : Str) (prim : π) (limit : Nat) : TruncBuf π := ⟨⟨false, 0, 0, cache.length⟩, prim, limit, 0, 0, cache⟩

/-- `count` (buffer.hpp:662-664). -/
def count (s : TruncBuf π) : Nat := s.used + s.base.used

/-- Loop of `flush` (buffer.hpp:672-677).  The characters are always taken from the beginning of the cache.
Zero-sized areas would loop for ever; areas larger than requested do not occur. -/
def flushLoop (bytes : Nat) : M (TruncBuf π) Unit := fun s =>
  if s.written < s.limit ∧ bytes > 0 then
    match getWriteAreaOfMax (min bytes (s.limit - s.written)) s.prim with
    | .ok p a =>
      if a.len = 0 then .bad .diverge
      else if a.len > min bytes (s.limit - s.written) then .bad .ub
      else
        match BufferImpl.store p a.off (s.cache.take a.len) with
        | none => .bad .ub
        | some p' => flushLoop (bytes - a.len) { s with prim := p', written := s.written + a.len }
    | .err p e => .err { s with prim := p } e
    | .bad b => .bad b
  else .ok s ()
termination_by bytes
decreasing_by omega

/-- `flush` (buffer.hpp:669-680). -/
def flush : M (TruncBuf π) Unit := fun s =>
  match flushLoop s.base.used { s with used := s.used + s.base.used } with
  | .ok s' _ => .ok { s' with base := s'.base.setWriteArea 0 s'.cache.length } ()
  | .err s' e => .err s' e
  | .bad b => .bad b

/-- `request_write_area` of `truncating_buffer` (buffer.hpp:683-691). -/
instance : BufferImpl (TruncBuf π) where
  base s := s.base
  setBase s b := { s with base := b }
  request _ size := fun s =>           -- buffer.hpp:683-691
    match flush s with
    | .ok s' _ => .ok { s' with base := s'.base.setWriteArea 0 s'.cache.length } (cacheArea s'.cache.length size)
    | .err s' e => .err s' e
    | .bad b => .bad b
  store s i d := (overwrite s.cache i d).map fun m => { s with cache := m }

end TruncBuf

/-- `detail::counting_buffer<CacheSize>` (buffer.hpp:709-741). -/
structure CountBuf where
  base : Base
  used : Nat
  cache : Str
  deriving DecidableEq, Repr

namespace CountBuf

/-- Constructor (buffer.hpp:712): no write area yet. -/
def new (cache : Str) : CountBuf := ⟨⟨false, 0, 0, 0⟩, 0, cache⟩

/-- `count` (buffer.hpp:723-725). -/
def count (s : CountBuf) : Nat := s.used + s.base.used

/-- `request_write_area` of `counting_buffer` (buffer.hpp:728-736). -/
instance : BufferImpl CountBuf where
  base s := s.base
  setBase s b := { s with base := b }
  request used size := fun s =>        -- buffer.hpp:728-736
    .ok { s with used := s.used + used, base := s.base.setWriteArea 0 s.cache.length } (cacheArea s.cache.length size)
  store s i d := (overwrite s.cache i d).map fun m => { s with cache := m }

end CountBuf
end Emio
