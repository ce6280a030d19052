import Verif.Spec.Client
/- Clients that ask for pieces of limited size. -/
namespace Emio

/-- The text of an action; flushing writes nothing. -/
def ClientOp.text : ClientOp → Str
  | .exact d => d
  | .upTo d => d
  | .special => []

/-- All texts of a list of actions, in order. -/
def allText (ops : List ClientOp) : Str := ops.flatMap ClientOp.text

/-- No action asks for more than `c` characters at once. -/
def PiecesUpTo (c : Nat) (ops : List ClientOp) : Prop := ∀ op ∈ ops, op.text.length ≤ c

end Emio
