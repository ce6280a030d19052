import Verif.Spec.Dynamic
/-
Automatic numbering, independent of the model.
-/
namespace Emio.Spec

/-- The body of a field is any text up to the next closing brace; without a colon there is none. -/
def Field.Closed (f : Field) : Prop :=
  ∃ s, f.body = s ++ ['}'] ∧ '}' ∉ s ∧ (f.colon = false → s = [])

/-- Numbers 0, 1, 2, ... put in from left to right. -/
def FormatText.numbered (t : FormatText) : FormatText :=
  ⟨t.segs.mapIdx fun i s => (s.1, { s.2 with idx := numeral false 10 i }), t.last⟩

/-- No tuples in the argument (they do not look at their field only, see C54). -/
def AnyArg.TupleFree : AnyArg → Prop
  | .value ty _ => NoTuple ty
  | .dynamic ty _ _ _ => NoTuple ty
  | .nested _ _ => True

/-- `"a{}b{:xyz}"` becomes `"a{0}b{1:xyz}"`. -/
example : (FormatText.numbered ⟨[(['a'], ⟨[], false, ['}']⟩), (['b'], ⟨[], true, ['x', 'y', 'z', '}']⟩)], []⟩).text =
    "a{0}b{1:xyz}".toList := by decide +kernel

end Emio.Spec
