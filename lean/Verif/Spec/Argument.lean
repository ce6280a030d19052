import Verif.Model.FormatArg
import Verif.Spec.FloatText
/-
Specification: values of core types and the text they are rendered to.
-/
namespace Emio.Spec

/-- The value belongs to its type.  Strings are assumed to be shorter than 2^31 characters, also in escaped form. -/
def ValidArg : CoreArg → Prop
  | .bool _ => True
  | .char c => c.toNat < 256
  | .int t n => t.Std ∧ t.Holds n
  | .double bits => bits < 2 ^ 64
  | .pointer addr => addr < 2 ^ 64
  | .string s => (∀ c ∈ s, c.toNat < 256) ∧ (quoted '"' s).length < 2 ^ 31

/-- The text of an argument under a specification. -/
noncomputable def argText : CoreArg → Specs → Str
  | .bool b, s => boolText s b
  | .char c, s => charText s c
  | .int _ n, s => intText s n
  | .double bits, s => floatText s bits
  | .pointer addr, s => ptrText s addr
  | .string str, s => strText s str

end Emio.Spec
