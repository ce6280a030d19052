import Verif.Spec.Template
import Verif.Spec.ParseInt
/-
Specification: widths and precisions of any size.

They are read modulo 2^32.  What is noticed of it is that the reduced value of the digits read so far decreases at some
digit, or that 2^31 or more is left.
-/
namespace Emio.Spec

/-- The number passes: no decrease is noticed, and less than 2^31 is left. -/
def Passes (ds : Str) : Prop := ¬ WrapsDown (2 ^ 32) 10 ds ∧ numeralValue 10 ds % 2 ^ 32 < 2 ^ 31

namespace SpecText

/-- Width and precision pass. -/
def NumbersPass (t : SpecText) : Prop := Passes t.width ∧ ∀ p ∈ t.prec, Passes p

/-- What is left of the precision, -1 if there is none. -/
def precLeft (t : SpecText) : Int :=
  match t.prec with
  | some p => (numeralValue 10 p % 2 ^ 32 : Nat)
  | none => -1

/-- The specification as understood: with what is left of width and precision. -/
def taken (t : SpecText) : Specs :=
  { t.meaning with width := (t.widthValue % 2 ^ 32 : Nat), precision := t.precLeft }

/-- The specification with width and precision replaced by what is left of them. -/
def reduced (t : SpecText) : SpecText :=
  { t with
    width := if t.widthValue % 2 ^ 32 = 0 then [] else numeral false 10 (t.widthValue % 2 ^ 32)
    prec := t.prec.map fun p => numeral false 10 (numeralValue 10 p % 2 ^ 32) }

end SpecText

/-- The field with its numbers reduced. -/
def Hole.reduced (h : Hole) : Hole := { h with spec := h.spec.map SpecText.reduced }

/-- The template with its numbers reduced. -/
def Template.reduced (t : Template) : Template := { t with segs := t.segs.map fun s => (s.1, s.2.reduced) }

/-- The specifications of the template are well-formed, with numbers that pass. -/
def Template.NumbersPass (t : Template) : Prop := ∀ s ∈ t.segs, ∀ sp ∈ s.2.spec, sp.WellFormed ∧ sp.NumbersPass

/-- `"{:6000000000}"` is understood as `"{:1705032704}"`. -/
example : (Template.reduced ⟨[([], ⟨[], some { width := "6000000000".toList }⟩)], []⟩).text = "{:1705032704}".toList := by
  decide +kernel

end Emio.Spec
