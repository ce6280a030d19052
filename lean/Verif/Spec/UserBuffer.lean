import Verif.Model.UserBuffer
/-
Specification vocabulary: what a buffer of a user has received, and what its `request_write_area` must do.
-/
namespace Emio

/-- What the buffer has received: what was written before the current write area was set - `earlier`, which is for the
author of the class to say - and the characters written to the current write area. -/
def UserBuf.received {S : Type} {f : Override S} (earlier : Str → S → Str) (b : UserBuf f) : Str :=
  earlier b.mem b.own ++ (b.mem.drop b.base.off).take b.base.used

/-- What the documentation asks of the author of the class (buffer.hpp:84-95), made precise.  `Good` are the states the
object can be in: the current write area, the memory and the own members. -/
structure DocumentedContract {S : Type} (f : Override S) (earlier : Str → S → Str) (Good : Area → Str → S → Prop) : Prop where
  /-- Write areas lie in the memory of the buffer. -/
  inside : ∀ a mem own, Good a mem own → a.off + a.len ≤ mem.length
  /-- Anything may be written to the write area; that does not change what was written earlier. -/
  writable : ∀ a mem own, Good a mem own → ∀ mem' : Str, mem'.length = mem.length → mem'.take a.off = mem.take a.off →
    mem'.drop (a.off + a.len) = mem.drop (a.off + a.len) → Good a mem' own ∧ earlier mem' own = earlier mem own
  /-- A request that is granted sets a new write area, what was written to the former one is kept, and the returned area
  is the beginning of the new one, with the requested size as maximum. -/
  grants : ∀ a mem own used size, Good a mem own → used ≤ a.len → a.len - used < size →
    ∀ x, (f a used size mem own).result = .ok x → ∃ n, (f a used size mem own).setArea = some n ∧
      Good n (f a used size mem own).mem (f a used size mem own).own ∧
      earlier (f a used size mem own).mem (f a used size mem own).own = earlier mem own ++ (mem.drop a.off).take used ∧
      x.off = n.off ∧ x.len ≤ n.len ∧ x.len ≤ size
  /-- A request is refused with end-of-file, and what was written is kept. -/
  refuses : ∀ a mem own used size, Good a mem own → used ≤ a.len → a.len - used < size →
    ∀ e, (f a used size mem own).result = .error e → e = .eof ∧
      Good ((f a used size mem own).setArea.getD a) (f a used size mem own).mem (f a used size mem own).own ∧
      earlier (f a used size mem own).mem (f a used size mem own).own ++
        (if (f a used size mem own).setArea.isSome then [] else ((f a used size mem own).mem.drop a.off).take used) =
      earlier mem own ++ (mem.drop a.off).take used

/-- What the author of the class must take care of: what the documentation asks, and that no area is empty. -/
structure KeepsContract {S : Type} (f : Override S) (earlier : Str → S → Str) (Good : Area → Str → S → Prop) : Prop
    extends DocumentedContract f earlier Good where
  not_empty : ∀ a mem own used size, Good a mem own → used ≤ a.len → a.len - used < size →
    ∀ x, (f a used size mem own).result = .ok x → 0 < x.len

/-- The object is in a state the author of the class allows. -/
def UserBuf.InOrder {S : Type} {f : Override S} (Good : Area → Str → S → Prop) (b : UserBuf f) : Prop :=
  b.base.used ≤ b.base.len ∧ Good ⟨b.base.off, b.base.len⟩ b.mem b.own

/-- No request for up to `n` characters is refused or answered with less. -/
def GrantsUpTo {S : Type} (f : Override S) (n : Nat) (Good : Area → Str → S → Prop) : Prop :=
  ∀ a mem own used size, Good a mem own → used ≤ a.len → a.len - used < size →
    ∃ x, (f a used size mem own).result = .ok x ∧ min n size ≤ x.len

end Emio
