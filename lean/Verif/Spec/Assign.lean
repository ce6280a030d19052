import Verif.Spec.BackInsert
/-
When a memory buffer that another one was assigned to can be used, independent of the model: four numbers are enough.
-/
namespace Emio.Spec

/-- Pieces of these lengths (nothing: a reset) can be written one after the other: `size` is the size the vector believes to
have, `cap` is the size of its block, `reach` is where the area in use ends, `written` is how much has been written.  A piece
that fits into the area goes there.  For any other piece the vector grows to `size` and the length of the piece, and the
area for the piece begins behind what has been written: undefined behaviour if it does not end inside the block.  If the block
is replaced, only the first `size` characters are kept.  A reset makes the whole block available again. -/
def memFits (size cap reach written : Nat) : List (Option Nat) → Bool
  | [] => true
  | none :: pieces => memFits cap cap cap 0 pieces
  | some n :: pieces =>
    if written + n ≤ reach then memFits size cap reach (written + n) pieces
    else if cap < size + n then
      decide (written ≤ size) && memFits (size + n) (size + n) (written + n) (written + n) pieces
    else decide (written + n ≤ cap) && memFits (size + n) cap (written + n) (written + n) pieces

end Emio.Spec
