import Verif.Spec.Template
/- What is left of an output that does not fit into a buffer of fixed size. -/
namespace Emio.Spec

/-- `KeptOf room pieces last p`: of the output made of literal text before each field, what the fields are formatted as,
and literal text at the end, `p` is left if there is room for `room` characters.  Everything before the place where the
room ends is kept; literal text is cut there, of a field any beginning may be left. -/
def KeptOf (room : Nat) : List (Str × Str) → Str → Str → Prop
  | [], last, p => p = last.take room
  | (lit, x) :: rest, last, p =>
    if room < lit.length then p = lit.take room
    else if room < lit.length + x.length then ∃ q, q <+: x ∧ q.length + lit.length ≤ room ∧ p = lit ++ q
    else ∃ p', KeptOf (room - (lit.length + x.length)) rest last p' ∧ p = lit ++ x ++ p'

end Emio.Spec
