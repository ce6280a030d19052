import Verif.Spec.Client
/-
Specification: a stream that may accept only some of the characters it is given, and a buffer of `c` characters in front
of it.
-/
namespace Emio.Spec

/-- What the stream has received, what is in the buffer, and how many characters the next calls of the stream will accept
(everything, when the list has ended). -/
structure Stream where
  received : Str
  pending : Str
  accepts : List Nat

/-- How many of the pending characters the stream will accept now. -/
def Stream.accepted (st : Stream) : Nat :=
  match st.accepts with
  | [] => st.pending.length
  | k :: _ => min k st.pending.length

/-- Give the pending characters to the stream.  If it does not accept all of them, *all of them remain pending*. -/
def Stream.flush (st : Stream) : Stream × Bool :=
  if st.accepted = st.pending.length then (⟨st.received ++ st.pending, [], st.accepts.tail⟩, true)
  else (⟨st.received ++ st.pending.take st.accepted, st.pending, st.accepts.tail⟩, false)

/-- One action of a client, and what is written by it. -/
def Stream.step (c : Nat) : ClientOp → Stream → Stream × Str
  | .exact d, st =>
    if st.pending.length + d.length ≤ c then ({ st with pending := st.pending ++ d }, d)
    else if st.flush.2 = true ∧ d.length ≤ c then ({ st.flush.1 with pending := d }, d)
    else (st.flush.1, [])
  | .upTo d, st =>
    if st.pending.length + d.length ≤ c then ({ st with pending := st.pending ++ d }, d)
    else if st.flush.2 = true then ({ st.flush.1 with pending := d.take c }, d.take c)
    else (st.flush.1, [])
  | .special, st => (st.flush.1, [])

/-- Several actions, and what has been written by them. -/
def Stream.run (c : Nat) : List ClientOp → Stream × Str → Stream × Str
  | [], x => x
  | op :: ops, (st, t) => Stream.run c ops ((st.step c op).1, t ++ (st.step c op).2)

end Emio.Spec
