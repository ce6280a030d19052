import Verif.Model.Reader
/-
How a function that hands characters to an output comes to an end.
-/
namespace Emio.Spec

/-- The outcome of a call that should output `text`; `.ok out ()` and `.err out e` say that the output got `out`.  There
is no constructor for undefined behaviour.  If there is no `fail`, the text is all there is to output: the call succeeds
and the output got all of it, or the output failed (end-of-file) and got the beginning of it.  Otherwise the call does not
succeed, but says `fail`, unless the output failed earlier. -/
inductive Ends (text : Str) (fail : Option Err) : Run Str Unit → Prop
  | done (h : fail = none) : Ends text fail (.ok text ())
  | refused {e : Err} {out : Str} (h : fail = some e) (beginning : out <+: text) : Ends text fail (.err out e)
  | cut {out : Str} (beginning : out <+: text) : Ends text fail (.err out .eof)

/-- Success with a value, or a failure. -/
def ended {σ α : Type} (fail : Option Err) (s : σ) (a : α) : Run σ α :=
  match fail with
  | none => .ok s a
  | some e => .err s e

end Emio.Spec
