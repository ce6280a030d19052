import Verif.Lemmas.SpecsForward
import Verif.Model.Parser
/-
Properties C27 to C29: format specifications.
-/
namespace Emio
open Spec

/-! ### C27 validation and parsing of a specification agree -/

/-- Whatever text follows: if the validation of a specification succeeds, parsing it at run time stops at the same
position and obtains the same specification, without any failed assumption. -/
theorem C27_parse_agrees_with_validate (s s' : Specs) (r r' : Reader) (h : r.Inv)
    (hv : validateFormatSpecs s r = .ok r' s') : parseFormatSpecs s r = .ok r' s' :=
  (specs_agree h hv).1

/-- The same for the formatter of a core type: a specification accepted for the type is parsed to the same
end and to the specification that was checked. -/
theorem C27_formatter_parse_agrees_with_validate (a : CoreArg) (r r' : Reader) (h : r.Inv)
    (hv : a.farg.validate r = .ok r' ()) :
    ∃ s, validateFormatSpecs {} r = .ok r' s ∧ a.ty.check s = true ∧ a.farg.parse r = .ok r' (a.write s) := by
  unfold CoreArg.farg at *
  simp only at *
  unfold CoreTy.validate at hv
  obtain ⟨r1, s, h1, hv⟩ := bind_ok_inv hv
  split at hv
  · rename_i hc
    rw [M.pure_run] at hv
    obtain ⟨rfl, _⟩ := ok_inj hv
    refine ⟨s, h1, hc, ?_⟩
    rw [M.bind_ok (specs_agree h h1).1]
    rfl
  · simp at hv

example : validateFormatSpecs {} (Reader.ofStr "*^+#10x} and more".toList) =
    .ok ⟨"*^+#10x} and more".toList, 8⟩
      { fill := '*', align := .center, sign := '+', alternateForm := true, width := 10, type := 'x' } := by
  decide +kernel

/-! ### C28 a specification means what its grammar says -/

/-- Every text of the grammar, followed by a closing brace and anything, is accepted, read up to the brace and
understood as the grammar says. -/
theorem C28_grammar_is_accepted (t : SpecText) (wf : t.WellFormed) (fits : t.Fits) (r : Reader) (h : r.Inv) (tail : Str)
    (hr : r.rest = t.text ++ '}' :: tail) :
    validateFormatSpecs {} r = .ok { r with pos := r.pos + (t.text.length + 1) } t.meaning ∧
    parseFormatSpecs {} r = .ok { r with pos := r.pos + (t.text.length + 1) } t.meaning := by
  have := specs_forward wf fits (u := r) ⟨h, hr⟩
  exact ⟨this, (specs_agree h this).1⟩

/-- Nothing else is accepted.  What numbers of any size are understood as is said by C29. -/
theorem C28_only_grammar_is_accepted (r r' : Reader) (s : Specs) (h : r.Inv) (hv : validateFormatSpecs {} r = .ok r' s) :
    ∃ (t : SpecText) (tail : Str), t.WellFormed ∧ r.rest = t.text ++ '}' :: tail ∧
      r' = { r with pos := r.pos + (t.text.length + 1) } ∧ (t.Fits → s = t.meaning) ∧ t.NumbersPass ∧ s = t.taken := by
  obtain ⟨t, tail, wf, hr, he, hp, hs⟩ := specs_backward_wide h hv
  exact ⟨t, tail, wf, hr, he, fun fits => by rw [hs, (fits_pass fits).2], hp, hs⟩

/-- A specification is accepted for a type if its meaning passes the check of the type, otherwise it is an invalid
format. -/
theorem C28_type_check (ty : CoreTy) (t : SpecText) (wf : t.WellFormed) (fits : t.Fits) (r : Reader) (h : r.Inv)
    (tail : Str) (hr : r.rest = t.text ++ '}' :: tail) :
    ty.validate r = if ty.check t.meaning then .ok { r with pos := r.pos + (t.text.length + 1) } ()
      else .err { r with pos := r.pos + (t.text.length + 1) } .invalidFormat := by
  unfold CoreTy.validate
  rw [M.bind_ok (specs_forward wf fits (u := r) ⟨h, hr⟩)]
  split <;> rfl

/-- `{:*^+#10.3x}`. -/
def specExample : SpecText :=
  { fill := '*', align := '^', sign := '+', alt := true, width := ['1', '0'], prec := some ['3'], type := 'x' }

theorem specExample_ok : specExample.WellFormed ∧ specExample.Fits :=
  ⟨⟨by simp [specExample], by simp [specExample], by simp [specExample], by simp [specExample],
    by simp [specExample], by simp [specExample], by simp [specExample]⟩, by decide +kernel, by decide +kernel⟩

example : validateFormatSpecs {} (Reader.ofStr "*^+#10.3x}".toList) = .ok ⟨"*^+#10.3x}".toList, 10⟩ specExample.meaning :=
  (C28_grammar_is_accepted specExample specExample_ok.1 specExample_ok.2 (Reader.ofStr "*^+#10.3x}".toList)
    (Reader.at_ofStr _).1 []
    rfl).1

/-! ### C29 widths and precisions that do not fit -/

/-- The property: whenever the validation accepts a specification, width and precision are those written. -/
def WidthsTakenOrRejected : Prop :=
  ∀ (t : SpecText) (r r' : Reader) (s : Specs) (tail : Str), t.WellFormed → r.Inv → r.rest = t.text ++ '}' :: tail →
    validateFormatSpecs {} r = .ok r' s → s.width = t.widthValue ∧ s.precision = t.precValue

/-- It does not hold: `{:6000000000}` is accepted as width 1705032704. -/
theorem C29_width_overflow_violated : ¬ WidthsTakenOrRejected := by
  intro h
  have := h { width := "6000000000".toList } (Reader.ofStr "6000000000}".toList) ⟨"6000000000}".toList, 11⟩
    { width := 1705032704 } [] ⟨by simp, by simp, by simp, by simp, by simp, by simp, by simp⟩ (Reader.at_ofStr _).1 rfl
    (by decide +kernel)
  exact absurd this.1 (by decide +kernel)

/-- Up to 2^32 - 1 it holds: values below 2^31 are taken, the others are rejected as invalid format. -/
theorem C29_widths_taken_or_rejected_partial (t : SpecText) (wf : t.WellFormed) (hw : t.widthValue < 2 ^ 32)
    (hp : t.precValue < 2 ^ 32) (r : Reader) (h : r.Inv) (tail : Str) (hr : r.rest = t.text ++ '}' :: tail) :
    (t.Fits ∧ validateFormatSpecs {} r = .ok { r with pos := r.pos + (t.text.length + 1) } t.meaning) ∨
    (¬ t.Fits ∧ ∃ r', validateFormatSpecs {} r = .err r' .invalidFormat) := by
  by_cases fits : t.Fits
  · exact Or.inl ⟨fits, specs_forward wf fits ⟨h, hr⟩⟩
  · exact Or.inr ⟨fits, specs_reject wf hw hp fits ⟨h, hr⟩⟩

/-- What happens to any number: width and precision are read modulo 2^32.  They are rejected if the reduced value of the
digits read so far decreases at some digit, or if 2^31 or more is left.  Otherwise the specification is accepted and
understood with what is left of them. -/
theorem C29_numbers_of_any_size (t : SpecText) (wf : t.WellFormed) (r : Reader) (h : r.Inv) (tail : Str)
    (hr : r.rest = t.text ++ '}' :: tail) :
    (t.NumbersPass ∧ validateFormatSpecs {} r = .ok { r with pos := r.pos + (t.text.length + 1) } t.taken) ∨
    (¬ t.NumbersPass ∧ ∃ r' e, validateFormatSpecs {} r = .err r' e ∧ (e = .invalidFormat ∨ e = .outOfRange)) := by
  by_cases fits : t.NumbersPass
  · exact Or.inl ⟨fits, specs_forward_wide wf fits ⟨h, hr⟩⟩
  · obtain ⟨r', e, h1, h2⟩ := specs_reject_wide wf fits ⟨h, hr⟩
    exact Or.inr ⟨fits, r', e, h1, h2.imp id fun h => h.1⟩

/-- For the formatters of the core types as well. -/
theorem C29_type_check (ty : CoreTy) (t : SpecText) (wf : t.WellFormed) (pass : t.NumbersPass) (r : Reader) (h : r.Inv)
    (tail : Str) (hr : r.rest = t.text ++ '}' :: tail) :
    ty.validate r = if ty.check t.taken then .ok { r with pos := r.pos + (t.text.length + 1) } ()
      else .err { r with pos := r.pos + (t.text.length + 1) } .invalidFormat := by
  unfold CoreTy.validate
  rw [M.bind_ok (specs_forward_wide wf pass (u := r) ⟨h, hr⟩)]
  split <;> rfl

example : (validateFormatSpecs {} (Reader.ofStr "4294967296}".toList)).err? = some .outOfRange ∧
    (validateFormatSpecs {} (Reader.ofStr "*<6000000000.9999999999}".toList)).val? =
      some { fill := '*', align := .left, width := 1705032704, precision := 1410065407 } := by
  decide +kernel

/-- `{:2147483648}` is rejected, `{:.2147483647}` is not. -/
example : (validateFormatSpecs {} (Reader.ofStr "2147483648}".toList)).err? = some .invalidFormat ∧
    (validateFormatSpecs {} (Reader.ofStr ".2147483647}".toList)).val? = some { precision := 2147483647 } := by
  decide +kernel

end Emio
