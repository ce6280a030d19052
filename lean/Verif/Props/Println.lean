import Verif.Props.Total
/-
Property C37: `println` is `print` and a line feed.
-/
namespace Emio
open Spec BufferImpl

/-- The outcome of `println`, given that of `print`: what `print` has sent and a line feed, or the same error after the
same characters. -/
def AndNewline : Run Str Unit → Run Str Unit
  | .ok out _ => .ok (out ++ ['\n']) ()
  | .err out e => .err out e
  | .bad b => .bad b

theorem Settled.println_print {str : Str} {args : List FArg} {text : Str} {fail : Option Err} (h : Settled str args text fail)
    (cache : Str) (hc : cache ≠ []) :
    vprintln cache (some []) str args = AndNewline (vprint cache (some []) str args) := by
  unfold vprintln vprint
  simp only
  rcases h.wrote (FileBuf.lawful cache.length true) (FileBuf.rep_new cache [] true hc (fun _ => rfl)) with
    ⟨s', h1, hf, h2⟩ | ⟨s', e, h1, hf, h2⟩ | ⟨s', p, h1, hp, h2⟩
  · rw [M.bind_ok h1, h1]
    have hcl : 1 ≤ cache.length := List.length_pos_iff.2 hc
    obtain ⟨s3, hw⟩ := writeArea_accepts (FileBuf.acceptsOk cache.length) h2 ['\n'] hcl trivial
    have hr3 := writeArea_wrote (FileBuf.lawful cache.length true) h2 1 ['\n'] rfl
    have hw : writeArea 1 ['\n'] s' = .ok s3 () := hw
    rw [hw] at hr3
    have hr3 : FileBuf.Rep cache.length true s3 ([] ++ text ++ ['\n']) := hr3
    rw [M.bind_ok hw]
    rcases FileBuf.rep_flush hr3 with ⟨s4, hf4, _, hfile4, _⟩ | ⟨s4, hf4, _, hio⟩
    · rcases FileBuf.rep_flush h2 with ⟨s5, hf5, _, hfile5, _⟩ | ⟨s5, hf5, _, hio⟩
      · simp only
        rw [hf4, hf5]
        simp [hfile4, hfile5, AndNewline]
      · exact absurd (h2.2.2.2.2.2.2.1 rfl) hio
    · exact absurd (hr3.2.2.2.2.2.2.1 rfl) hio
  · rw [M.bind_err h1, h1]
    rfl
  · rw [M.bind_err h1, h1]
    rfl

/-- C37 for all strings, accepted or not, all arguments of the library and all sizes of the cache. -/
theorem C37_println (str : Str) (args : List CoreArg) (hn : args.length ≤ 128) (hv : ∀ a ∈ args, ValidArg a) (cache : Str)
    (hc : cache ≠ []) :
    vprintln cache (some []) str (fargs args) = AndNewline (vprint cache (some []) str (fargs args)) := by
  obtain ⟨b, hb⟩ := C22_validation_total str args hn
  cases b with
  | false =>
    by_cases hp : (fargs args).length = 0 ∧ checkIfPlainString str = true
    · have h0 : fargs args = [] := List.eq_nil_of_length_eq_zero hp.1
      rw [h0, plain_validates str hp.2] at hb
      cases hb
    · exact (settled_of_refused hb hp).println_print cache hc
  | true =>
    obtain ⟨text, fail, h, hf⟩ := settled_of_accepted (fargs_sound str hv) (fargs_tame args) hb
    exact h.println_print cache hc

/-- C37 for nested ranges, optionals and variants. -/
theorem C37_println_nested (str : Str) (args : List (FTy × FVal)) (hlen : args.length ≤ 128) (hn : ∀ a ∈ args, NoTuple a.1)
    (hv : ∀ a ∈ args, HasType a.2 a.1) (cache : Str) (hc : cache ≠ []) :
    vprintln cache (some []) str (vargs args) = AndNewline (vprint cache (some []) str (vargs args)) := by
  obtain ⟨b, hb⟩ := C61_validation_total str args hlen hn
  cases b with
  | false =>
    by_cases hp : (vargs args).length = 0 ∧ checkIfPlainString str = true
    · have h0 : vargs args = [] := List.eq_nil_of_length_eq_zero hp.1
      rw [h0, plain_validates str hp.2] at hb
      cases hb
    · exact (settled_of_refused hb hp).println_print cache hc
  | true =>
    obtain ⟨text, fail, h, hf⟩ := settled_of_accepted (vargs_sound hn hv str) (vargs_tame hn) hb
    exact h.println_print cache hc

/-- A cache of three characters: a string goes through it in pieces, a number of five digits does not fit. -/
example : vprint "...".toList (some []) "a{}c".toList (fargs [.string "12345".toList]) = .ok "a12345c".toList () ∧
    vprintln "...".toList (some []) "a{}c".toList (fargs [.string "12345".toList]) = .ok "a12345c\n".toList () ∧
    vprint "...".toList (some []) "a{}c".toList (fargs [.int i32 12345]) = .err ['a'] .eof ∧
    vprintln "...".toList (some []) "a{}c".toList (fargs [.int i32 12345]) = .err ['a'] .eof := by decide +kernel

end Emio
