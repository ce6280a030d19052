import Verif.Model.UserFormatter
import Verif.Spec.Dynamic
import Verif.Lemmas.ParserFails
/-
Specification: what the library expects from formatters of its users.
-/
namespace Emio.Spec

/-- Where the specification `spec` and the closing brace follow, the formatter reads exactly these, when it validates and
when it parses, and then writes `text` for the value, asking for at most `k` contiguous characters at a time. -/
structure Makes {α : Type} (f : UserFormatter α) (v : α) (spec text : Str) (k : Nat) : Prop where
  validates : ∀ validate ∈ f.validate, ∀ (r : Reader) (tail : Str), r.At (spec ++ '}' :: tail) →
    validate r = .ok (r.adv (spec.length + 1)) ()
  parses : ∀ (r : Reader) (tail : Str), r.At (spec ++ '}' :: tail) →
    ∃ s, f.parse r = .ok (r.adv (spec.length + 1)) s ∧ Emits (f.format s v) text k

/-- The formatter reads the specification likewise, but reports the error `e` after writing `text`. -/
structure Reports {α : Type} (f : UserFormatter α) (v : α) (spec text : Str) (e : Err) : Prop where
  validates : ∀ validate ∈ f.validate, ∀ (r : Reader) (tail : Str), r.At (spec ++ '}' :: tail) →
    validate r = .ok (r.adv (spec.length + 1)) ()
  parses : ∀ (r : Reader) (tail : Str), r.At (spec ++ '}' :: tail) →
    ∃ s, f.parse r = .ok (r.adv (spec.length + 1)) s ∧ Stops (f.format s v) text e

/-- The least one can ask of a formatter: its functions end, do not move back in the format string, `parse` reads what
`validate` accepted, and `format` uses the writer properly and reports no errors but `errs` of its own. -/
structure Decent {α : Type} (f : UserFormatter α) (v : α) (errs : Err → Prop) : Prop where
  ends : ∀ r : Reader, r.Inv →
    (∃ r' e, f.check r = .err r' e) ∨ ∃ n ≤ r.rest.length, f.check r = .ok (r.adv n) ()
  agrees : ∀ validate ∈ f.validate, ∀ r r' : Reader, r.Inv → validate r = .ok r' () → ∃ s, f.parse r = .ok r' s
  writes : ∀ s ops, ∃ new, (∀ op ∈ new, op.Fine) ∧
    (f.format s v ops = .ok (ops ++ new) () ∨ ∃ e, errs e ∧ f.format s v ops = .err (ops ++ new) e)

/-- An argument: one the library knows how to format, or one with a formatter of the user. -/
inductive Passed : Type 1
  | builtin (a : AnyArg)
  | custom {α : Type} (f : UserFormatter α) (v : α)

/-- The argument as it is passed. -/
def Passed.farg : Passed → FArg
  | .builtin a => a.farg
  | .custom f v => f.farg v

/-- The field is replaced by `text`: for a builtin argument it is what the field alone is formatted as. -/
def Passed.Makes (spec text : Str) (k : Nat) : Passed → Prop
  | .builtin a => a.Typed ∧ ¬ a.HasTuple ∧ a.Takes spec ∧ 1421 ≤ k ∧
      formatStr ('{' :: ':' :: (spec ++ ['}'])) [a.farg] = .ok () text
  | .custom f v => Spec.Makes f v spec text k

/-- The format string, with `n` arguments: at most 128, numbered always or never, and all of them used. -/
structure FormatText.Numbers (t : FormatText) (n : Nat) : Prop where
  number : n ≤ 128
  digits : ∀ f ∈ t.fields, ∀ c ∈ f.idx, c.isDigit
  mode : t.Automatic ∨ t.Explicit
  arguments : ∀ k, k ∈ t.arguments ↔ k < n

/-- The field is written with the specification `spec`: `{}`, `{:spec}`, `{7}` or `{7:spec}`. -/
def Field.HasSpec (f : Field) (spec : Str) : Prop := f.body = spec ++ ['}'] ∧ (f.colon = false → spec = [])

/-- Arguments of which one asks little: values, and formatters that are decent. -/
def Passed.Decent (errs : Err → Prop) : Passed → Prop
  | .builtin (.value ty v) => HasType v ty ∧ NoTuple ty ∧ errs .invalidFormat
  | .builtin _ => False
  | .custom f v => Spec.Decent f v errs

end Emio.Spec
