import Verif.Model.Buffer
/-
Specification vocabulary: a client that uses a buffer through its public functions and remembers what it wrote.
-/
namespace Emio
open BufferImpl

/-- One action of a client: request an area for exactly / at most the characters of `d` and fill it with (the beginning
of) `d`, or perform the special action of the buffer at hand (`reset` or `flush`). -/
inductive ClientOp
  | exact (d : Str)
  | upTo (d : Str)
  | special
  deriving DecidableEq, Repr

section
variable {σ : Type} [BufferImpl σ]

/-- Perform an action; the second component is what the client knows it has written.  `none`: the client ran into
undefined behaviour, e.g. it was given an area that is not inside the memory of the buffer, or an area of the wrong
size.  An error is noticed and the client goes on. -/
def ClientOp.step (special : σ × Str → Option (σ × Str)) : ClientOp → σ × Str → Option (σ × Str)
  | .exact d, (s, t) =>
    match getWriteAreaOf d.length s with
    | .ok s' a => if a.len = d.length then (store s' a.off d).map (·, t ++ d) else none
    | .err s' _ => some (s', t)
    | .bad _ => none
  | .upTo d, (s, t) =>
    match getWriteAreaOfMax d.length s with
    | .ok s' a => if a.len ≤ d.length then (store s' a.off (d.take a.len)).map (·, t ++ d.take a.len) else none
    | .err s' _ => some (s', t)
    | .bad _ => none
  | .special, st => special st

/-- Perform a list of actions. -/
def client (special : σ × Str → Option (σ × Str)) : List ClientOp → σ × Str → Option (σ × Str)
  | [], st => some st
  | op :: ops, st => (op.step special st).bind (client special ops)

end

/-- What a client has written if every request was granted in full; `special` discards everything if `clears`. -/
def clientText (clears : Bool) : List ClientOp → Str → Str
  | [], t => t
  | .exact d :: ops, t => clientText clears ops (t ++ d)
  | .upTo d :: ops, t => clientText clears ops (t ++ d)
  | .special :: ops, t => clientText clears ops (if clears then [] else t)

end Emio
