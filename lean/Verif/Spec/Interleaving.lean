import Verif.Spec.UserFormatter
/-
Several threads that print to one stream.
-/
namespace Emio.Spec

/-- `order` takes the steps of all threads, those of each thread in its own order: at any time some thread makes its
next step. -/
inductive Interleaving {α : Type} : List (List α) → List α → Prop
  | done (threads : List (List α)) (h : ∀ t ∈ threads, t = []) : Interleaving threads []
  | step (threads : List (List α)) (i : Nat) (x : α) (rest order : List α) (h : threads[i]? = some (x :: rest))
      (more : Interleaving (threads.set i rest) order) : Interleaving threads (x :: order)

/-- The pieces in which a text is handed over: none is empty or longer than `c`, and no two that follow each other would
have fitted into one. -/
structure Pieces (c : Nat) (calls : List Str) : Prop where
  sized : ∀ x ∈ calls, x ≠ [] ∧ x.length ≤ c
  needed : ∀ l a b r, calls = l ++ a :: b :: r → c < a.length + b.length

/-- A call of `print`, or of `println` if `newline` is set. -/
structure Printing where
  newline : Bool
  str : Str
  args : List Passed

/-- What is to appear on the stream if formatting gives `text`. -/
def Printing.line (p : Printing) (text : Str) : Str := text ++ if p.newline then ['\n'] else []

end Emio.Spec
