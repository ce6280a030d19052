import Verif.Spec.WideNumbers
/-
Specification: format strings put together, and what a format string refers to.
-/
namespace Emio.Spec

/-- The template is a format string that is accepted for these arguments (C63). -/
def Template.AcceptedFor (t : Template) (args : List CoreArg) : Prop := t.NumbersPass ∧ t.reduced.Suits args

/-- What a template shows: before each field the literal text, the specification of the field, and the argument it refers to. -/
def Template.shows (t : Template) (args : List CoreArg) : List (Str × Option SpecText × Option CoreArg) :=
  t.segs.mapIdx fun i s => (s.1, s.2.spec, args[s.2.field.argument i]?)

/-- One template behind the other. -/
def Template.append (a b : Template) : Template :=
  match b.segs with
  | [] => ⟨a.segs, a.last ++ b.last⟩
  | (lit, h) :: segs => ⟨a.segs ++ (a.last ++ lit, h) :: segs, b.last⟩

/-- The outcome of formatting two texts, one behind the other. -/
def both : Run Unit Str → Run Unit Str → Run Unit Str
  | .ok _ a, .ok _ b => .ok () (a ++ b)
  | .ok _ _, r => r
  | r, _ => r

end Emio.Spec
