import Verif.Props.Values
/-
What C33, C36 and C61 claim without the conditions of their theorems, and that it does not hold.
-/
namespace Emio
open Spec

/-- C33 without exceptions. -/
def OthersAsSpecified : Prop :=
  (∀ (b : Bool) (t : SpecText), t.WellFormed → t.Fits → CoreTy.Allows .bool t →
    formatStr ("{:".toList ++ t.text ++ "}".toList) [(CoreArg.bool b).farg] = .ok () (boolText t.meaning b)) ∧
  (∀ (c : Char) (t : SpecText), c.toNat < 256 → t.WellFormed → t.Fits → CoreTy.Allows .char t →
    formatStr ("{:".toList ++ t.text ++ "}".toList) [(CoreArg.char c).farg] = .ok () (charText t.meaning c))

/-- It does not hold: `{:5?}` of a newline is padded to six characters. -/
theorem C33_debug_char_violated : ¬ OthersAsSpecified := by
  rintro ⟨_, h⟩
  have h1 := h '\n' { width := ['5'], type := '?' } (by decide)
    ⟨by simp, by simp, by simp, by simp, by simp, by simp, by simp⟩ ⟨by decide +kernel, by decide +kernel⟩
    (by simp [CoreTy.Allows, SpecText.TextOnly])
  have h2 : ¬ formatStr ("{:".toList ++ (SpecText.text { width := ['5'], type := some '?' }) ++ "}".toList)
      [(CoreArg.char '\n').farg] = .ok () (charText (SpecText.meaning { width := ['5'], type := some '?' }) '\n') := by
    decide +kernel
  exact h2 h1

/-- C36 without exceptions, for an output iterator. -/
def FirstNAlways : Prop :=
  ∀ (str : Str) (args : List CoreArg) (cache text : Str) (n : Int), (∀ a ∈ args, ValidArg a) → args.length ≤ 128 →
    cache.length = defaultCacheSize → formatStr str (fargs args) = .ok () text →
    ∃ it, formatToNIter cache n str (fargs args) = .ok () it ∧ it.out = text.take n.toNat ∧ it.count = text.length

/-- It does not hold: not even one character of `{:f}` of 1e300 is written. -/
theorem C36_long_float_violated : ¬ FirstNAlways := by
  intro h
  have h1 : ∃ text, formatStr "{:f}".toList (fargs [.double 0x7E37E43C8800759C]) = .ok () text := by
    have hl : (formatStr "{:f}".toList (fargs [.double 0x7E37E43C8800759C])).val?.map List.length = some 308 := by
      decide +kernel
    cases hx : formatStr "{:f}".toList (fargs [.double 0x7E37E43C8800759C]) with
    | ok s t => exact ⟨t, rfl⟩
    | err s e => rw [hx] at hl; cases hl
    | bad b => rw [hx] at hl; cases hl
  obtain ⟨text, ht⟩ := h1
  obtain ⟨it, h2, _⟩ := h _ _ (List.replicate 128 '-') text 1 (by simp [ValidArg]) (by simp) rfl ht
  have h3 : (formatToNIter (List.replicate 128 '-') 1 "{:f}".toList (fargs [.double 0x7E37E43C8800759C])).err? = some .eof := by
    decide +kernel
  rw [h2] at h3
  cases h3

/-- C61 without exceptions. -/
def AcceptedNestedSucceed : Prop :=
  ∀ (str : Str) (args : List (FTy × FVal)), args.length ≤ 128 → (∀ a ∈ args, NoTuple a.1) → (∀ a ∈ args, HasType a.2 a.1) →
    validateStr str (vargs args) = .ok () true → ∃ text, formatStr str (vargs args) = .ok () text

/-- It does not hold: `{::O}` is accepted for a list of integers, but formatting fails. -/
theorem C61_octal_violated : ¬ AcceptedNestedSucceed := by
  intro h
  obtain ⟨text, ht⟩ := h "{::O}".toList [(.seq .int, .range [.int 1])] (by decide)
    (by simp [NoTuple, FTy.seq, FTy.int])
    (by
      intro a ha
      simp only [List.mem_cons, List.not_mem_nil, or_false] at ha
      subst ha
      refine HasType.range (fun v hv => ?_)
      simp only [List.mem_cons, List.not_mem_nil, or_false] at hv
      subst hv
      exact HasType.core ⟨by decide, by decide⟩) (by decide +kernel)
  have : (formatStr "{::O}".toList (vargs [(.seq .int, .range [.int 1])])).err? = some .invalidFormat := by decide +kernel
  rw [ht] at this
  simp [Run.err?] at this

end Emio
