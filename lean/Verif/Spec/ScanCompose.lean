import Verif.Spec.WideScan
/-
Specification: scan strings put together, and the variables of a scan string in another order.
-/
namespace Emio.Spec

/-- The template is accepted for variables of these types (C59). -/
def ScanTemplate.AcceptedFor (t : ScanTemplate) (tys : List ScanTy) : Prop := t.NumbersPass ∧ t.reduced.Suits tys

/-- One template behind the other. -/
def ScanTemplate.append (a b : ScanTemplate) : ScanTemplate :=
  match b.segs with
  | [] => ⟨a.segs, a.last ++ b.last⟩
  | (lit, h) :: segs => ⟨a.segs ++ (a.last ++ lit, h) :: segs, b.last⟩

/-- The last field, if there is one, is not a string that ends where the text behind it begins. -/
def ScanTemplate.EndsItself (t : ScanTemplate) (tys : List ScanTy) : Prop :=
  ∀ s ∈ t.segs.getLast?, tys[s.2.field.argument (t.segs.length - 1)]? = some .string → s.2.sp.width ≠ []

/-- The numbers of the variables replaced. -/
def ScanTemplate.renumber (t : ScanTemplate) (f : Nat → Nat) : ScanTemplate :=
  { t with segs := t.segs.map fun s => (s.1, { s.2 with idx := numeral false 10 (f (numeralValue 10 s.2.idx)) }) }

/-- `"a{}"` and `"b{:2}c"`. -/
example : (ScanTemplate.append ⟨[(['a'], ⟨[], none⟩)], []⟩ ⟨[(['b'], ⟨[], some { width := ['2'] }⟩)], ['c']⟩).text =
    "a{}b{:2}c".toList ∧
    (ScanTemplate.renumber ⟨[([], ⟨['0'], none⟩), ([','], ⟨['1'], none⟩)], []⟩ (1 - ·)).text = "{1},{0}".toList := by
  decide +kernel

end Emio.Spec
