import Verif.Props.Format
/-
The width of characters in debug form.
-/
namespace Emio
open Reader Spec

/-- A character in debug form is surrounded as if its text always had three characters. -/
theorem C31_debug_char_exactly (c : Char) (hc : c.toNat < 256) (t : SpecText) (wf : t.WellFormed) (fits : t.Fits)
    (hal : CoreTy.Allows .char t) (debug : t.type = some '?') :
    formatStr ("{:".toList ++ t.text ++ "}".toList) [(CoreArg.char c).farg] =
      .ok () (surround (if t.meaning.align = .none then .left else t.meaning.align) t.meaning.fill (t.widthValue - 3)
        (quoted '\'' [c])) := by
  rw [← single_text]
  have hch := (allows_iff .char wf).2 hal
  have he := writeArgChar_debug_emits t.meaning (meaning_ok fits) c hc ((meaning_type_some wf '?' (by decide)).2 debug)
  have : fillCount t.meaning 3 = t.widthValue - 3 := by
    unfold fillCount
    have : t.meaning.width = (t.widthValue : Int) := rfl
    omega
  rw [this] at he
  exact (formats_single (core_reads (.char c) t wf fits hch he)).str

/-- The width is missed by as much as the escape sequence is longer than one character, and only if there is padding. -/
theorem C31_debug_char_too_wide (c : Char) (hc : c.toNat < 256) (t : SpecText) (wf : t.WellFormed) (fits : t.Fits)
    (hal : CoreTy.Allows .char t) (debug : t.type = some '?') :
    ∃ text, formatStr ("{:".toList ++ t.text ++ "}".toList) [(CoreArg.char c).farg] = .ok () text ∧
      text.length = max t.widthValue 3 + ((quoted '\'' [c]).length - 3) := by
  refine ⟨_, C31_debug_char_exactly c hc t wf fits hal debug, ?_⟩
  have h3 : 3 ≤ (quoted '\'' [c]).length := by
    have := length_escape_ge [c]
    simp [quoted] at this ⊢
    omega
  have hlen : ∀ al fill k, al ≠ Align.none → (surround al fill k (quoted '\'' [c])).length = k + (quoted '\'' [c]).length := by
    intro al fill k hal
    cases al <;> simp [surround] at hal ⊢ <;> omega
  rw [hlen]
  · omega
  · split
    · simp
    · assumption

/-- `{:5?}` of a newline has one character too many. -/
example : (∃ text, formatStr "{:5?}".toList [(CoreArg.char '\n').farg] = .ok () text ∧ text.length = 6) ∧
    formatStr "{:5?}".toList [(CoreArg.char '\n').farg] = .ok () "'\\n'  ".toList := by
  constructor
  · exact C31_debug_char_too_wide '\n' (by decide) { width := ['5'], type := some '?' }
      ⟨by simp, by simp, by simp, by simp, by simp, by simp, by simp⟩ ⟨by decide +kernel, by decide +kernel⟩
      (by simp [CoreTy.Allows, SpecText.TextOnly]) rfl
  · exact C31_debug_char_exactly '\n' (by decide) { width := ['5'], type := some '?' }
      ⟨by simp, by simp, by simp, by simp, by simp, by simp, by simp⟩ ⟨by decide +kernel, by decide +kernel⟩
      (by simp [CoreTy.Allows, SpecText.TextOnly]) rfl

end Emio
