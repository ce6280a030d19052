import Verif.Spec.WideNumbers
import Verif.Spec.Scan
/-
Specification: widths of any size in scan strings.  As in `Verif/Spec/WideNumbers.lean`, they are read modulo 2^32; a
width of zero is refused.
-/
namespace Emio.Spec

namespace ScanSpec

/-- The width, if there is one, passes, and something is left of it. -/
def NumbersPass (t : ScanSpec) : Prop := t.width ≠ [] → Passes t.width ∧ numeralValue 10 t.width % 2 ^ 32 ≠ 0

/-- The specification with the width replaced by what is left of it. -/
def reduced (t : ScanSpec) : ScanSpec :=
  { t with width := if t.width = [] then [] else numeral false 10 (numeralValue 10 t.width % 2 ^ 32) }

/-- The specification as understood: with what is left of the width. -/
def taken (t : ScanSpec) : ScanSpecs :=
  { t.meaning with width := if t.width = [] then -1 else (numeralValue 10 t.width % 2 ^ 32 : Nat) }

end ScanSpec

/-- The field with its width reduced. -/
def ScanHole.reduced (h : ScanHole) : ScanHole := { h with spec := h.spec.map ScanSpec.reduced }

/-- The template with its widths reduced. -/
def ScanTemplate.reduced (t : ScanTemplate) : ScanTemplate := { t with segs := t.segs.map fun s => (s.1, s.2.reduced) }

/-- The specifications of the template are well-formed, with widths that pass. -/
def ScanTemplate.NumbersPass (t : ScanTemplate) : Prop := ∀ s ∈ t.segs, s.2.sp.WellFormed ∧ s.2.sp.NumbersPass

/-- `"{:9999999999}"` is understood as `"{:1410065407}"`. -/
example : (ScanTemplate.reduced ⟨[([], ⟨[], some { width := "9999999999".toList }⟩)], []⟩).text = "{:1410065407}".toList := by
  decide +kernel

end Emio.Spec
