import Verif.Spec.Client
/-
Specification: how the capacity of a memory_buffer develops (property C98).
-/
namespace Emio.Spec

/-- The capacity of a buffer, and how many characters still fit behind the text. -/
structure Room where
  capacity : Nat
  left : Nat
  deriving DecidableEq, Repr

/-- `k` characters are requested: if they do not fit, the capacity grows by `k`, and all of it is taken. -/
def Room.take (r : Room) (k : Nat) : Room := if k ≤ r.left then ⟨r.capacity, r.left - k⟩ else ⟨r.capacity + k, 0⟩

/-- After a reset everything is free again. -/
def Room.after : List ClientOp → Room → Room
  | [], r => r
  | .exact d :: ops, r => Room.after ops (r.take d.length)
  | .upTo d :: ops, r => Room.after ops (r.take d.length)
  | .special :: ops, r => Room.after ops ⟨r.capacity, r.capacity⟩

/-- How many characters are requested. -/
def requested : List ClientOp → Nat
  | [] => 0
  | .exact d :: ops => d.length + requested ops
  | .upTo d :: ops => d.length + requested ops
  | .special :: ops => requested ops

end Emio.Spec
