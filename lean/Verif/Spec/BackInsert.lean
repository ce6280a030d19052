import Verif.Spec.Client
/-
When writing through a back-insert iterator goes well, independent of the model: three numbers are enough.
-/
namespace Emio.Spec

/-- Pieces of these lengths (nothing: a flush) can be written one after the other: `size` is the size of the container,
`reach` is where the area in use ends, `written` is how much has been written.  A piece that fits into the area goes there;
this is undefined behaviour if it does not fit into the container.  For any other piece the container grows by the length of
the piece, and the area then begins behind what has been written and is as long as the whole container. -/
def backFits (size reach written : Nat) : List (Option Nat) → Bool
  | [] => true
  | none :: pieces => backFits written reach written pieces
  | some n :: pieces =>
    if written + n ≤ reach then decide (written + n ≤ size) && backFits size reach (written + n) pieces
    else backFits (size + n) (written + size + n) (written + n) pieces

/-- The length of the piece a client writes. -/
def piece : ClientOp → Option Nat
  | .exact d => some d.length
  | .upTo d => some d.length
  | .special => none

end Emio.Spec
