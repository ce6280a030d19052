import Verif.Spec.Client
/-
Specification: a buffer of `c` characters that hands the first `limit` characters on to an output iterator, through a
cache of `m` characters.
-/
namespace Emio.Spec

/-- The sizes of the pieces in which `n` characters go through a cache of `m` characters that holds `level` characters, and
how many the cache holds then.  What does not fit in as a whole begins in the emptied cache. -/
def pieces (m level n : Nat) : List Nat × Nat :=
  if n = 0 ∨ m = 0 then ([], level)
  else if level + n ≤ m then ([n], level + n)
  else
    let rest := pieces m (min m n) (n - min m n)
    (min m n :: rest.1, rest.2)
termination_by n
decreasing_by omega

/-- `out`: what has been handed on; `level`: how many characters of it are still in the cache behind; `handed`: how many
characters count as handed on; `pending`: what is in the buffer; `total`: how many characters have left the buffer. -/
structure Truncating where
  out : Str
  level : Nat
  handed : Nat
  pending : Str
  total : Nat

/-- Hand the pending characters on.  *Every piece is taken from the beginning of the pending characters.* -/
def Truncating.flush (m limit : Nat) (st : Truncating) : Truncating :=
  let n := min st.pending.length (limit - st.handed)
  ⟨st.out ++ ((pieces m st.level n).1.map fun k => st.pending.take k).flatten, (pieces m st.level n).2, st.handed + n, [],
    st.total + st.pending.length⟩

/-- One action of a client, and what is written by it. -/
def Truncating.step (c m limit : Nat) : ClientOp → Truncating → Truncating × Str
  | .exact d, st =>
    if st.pending.length + d.length ≤ c then ({ st with pending := st.pending ++ d }, d)
    else if d.length ≤ c then ({ st.flush m limit with pending := d }, d)
    else (st.flush m limit, [])
  | .upTo d, st =>
    if st.pending.length + d.length ≤ c then ({ st with pending := st.pending ++ d }, d)
    else ({ st.flush m limit with pending := d.take c }, d.take c)
  | .special, st => (st.flush m limit, [])

/-- Several actions, and what has been written by them. -/
def Truncating.run (c m limit : Nat) : List ClientOp → Truncating × Str → Truncating × Str
  | [], x => x
  | op :: ops, (st, t) => Truncating.run c m limit ops ((st.step c m limit op).1, t ++ (st.step c m limit op).2)

end Emio.Spec
