import Verif.Spec.Client
/-
Specification: sessions of writing to a file that is reset after each of them.
-/
namespace Emio.Spec

/-- The client's actions until the next reset, and whether it flushes before it. -/
structure Session where
  ops : List ClientOp
  flushes : Bool

/-- A text written over the beginning of another one. -/
def writtenOver (old new : Str) : Str := new ++ old.drop new.length

/-- `kept` is what a session leaves in a file although `text` was written: all of it after a flush, and otherwise a
beginning of it that is shorter by the size of the cache at most. -/
structure Leaves (cacheSize : Nat) (s : Session × Str) (kept : Str) : Prop where
  beginning : kept <+: s.2
  missing : s.2.length ≤ kept.length + cacheSize
  flushed : s.1.flushes = true → kept = s.2

end Emio.Spec
