import Verif.Spec.Writer
/- What a sequence of writer calls leaves in a buffer of fixed size. -/
namespace Emio.Spec

/-- The calls that write as much as there is room for; the others (one character, a number, an area) write all or
nothing. -/
def fillsUp : WOp → Bool
  | .str _ => true
  | .charN _ _ => true
  | .strEscaped _ => true
  | .charEscaped _ => true
  | _ => false

/-- What the calls append if there is room for `room` characters, and whether all of them succeed: they stop at the first
call whose text does not fit. -/
def fixedCalls (room : Nat) : List WOp → Str × Bool
  | [] => ([], true)
  | op :: ops =>
    if (callText op).length ≤ room then
      (callText op ++ (fixedCalls (room - (callText op).length) ops).1,
        (fixedCalls (room - (callText op).length) ops).2)
    else (if fillsUp op then (callText op).take room else [], false)

end Emio.Spec
