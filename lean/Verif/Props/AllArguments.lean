import Verif.Lemmas.Clean
import Verif.Props.Total
import Verif.Props.Println
import Verif.Props.BackInsert
/-
Properties C15, C37, C64 and C71 for arguments of every kind: tuples, widths given at run time, nested format strings,
formatters of the user.
-/
namespace Emio
open Spec BufferImpl

/-- What is asked of a formatter of the user: `format` uses the writer properly, whatever was parsed.  It may report any
error, or have undefined behaviour; nothing is asked of the other functions.  Nothing is asked of the arguments that the
library knows how to format. -/
def Spec.Passed.Proper : Passed → Prop
  | .builtin _ => True
  | .custom f v => ∀ s ops, (∃ b, f.format s v ops = .bad b) ∨ ∃ new, (∀ op ∈ new, op.Fine) ∧
      (f.format s v ops = .ok (ops ++ new) () ∨ ∃ e, f.format s v ops = .err (ops ++ new) e)

/-- All functions have the same undefined behaviour, whatever the output is. -/
structure AllBad (str : Str) (args : List FArg) (b : Bad) : Prop where
  format : formatStr str args = .bad b
  buffer : ∀ {σ : Type} [BufferImpl σ] (s : σ), formatTo str args s = .bad b
  pointer : ∀ mem p, formatToPtr mem str args p = .bad b
  size : ∀ cache, formattedSize cache str args = .bad b
  iterator : ∀ cache, formatToIter cache str args = .bad b
  firstN : ∀ {π : Type} [BufferImpl π] (cache : Str) (limit : Nat) (s : π), formatToN cache limit str args s = .bad b
  firstNIterator : ∀ cache n, formatToNIter cache n str args = .bad b
  firstNPointer : ∀ cache mem n, formatToNPtr cache mem n str args = .bad b
  print : ∀ cache io, vprint cache (some io) str args = .bad b
  println : ∀ cache io, vprintln cache (some io) str args = .bad b

theorem allBad {str : Str} {args : List FArg} {b : Bad}
    (h : ∀ {σ : Type} [BufferImpl σ] (s : σ), formatTo str args s = .bad b) : AllBad str args b where
  format := by
    obtain ⟨s, a, hs, _⟩ := MemBuf.rep_new defaultCacheSize 0
    unfold formatStr
    rw [hs]
    simp only
    rw [h]
  buffer := h
  pointer _ _ := by unfold formatToPtr; rw [h]
  size _ := by unfold formattedSize; rw [h]
  iterator _ := by unfold formatToIter; rw [h]
  firstN _ _ _ := by unfold formatToN; rw [h]
  firstNIterator _ _ := by unfold formatToNIter; rw [h]
  firstNPointer _ _ _ := by unfold formatToNPtr; rw [h]
  print _ _ := by unfold vprint; simp only; rw [h]
  println _ _ := by
    unfold vprintln
    simp only
    rw [M.bind_run, h]

theorem passed_clean {a : Passed} (h : a.Proper) : a.farg.Clean := by
  cases a with
  | builtin a => exact any_clean a
  | custom f v =>
    intro r r' act hp
    obtain ⟨r1, s, _, h2⟩ := bind_ok_inv (m := f.parse) (f := fun s => pure (f.format s v)) hp
    obtain ⟨_, rfl⟩ := ok_inj h2
    intro ops ho
    rcases h s ops with ⟨b, hb⟩ | ⟨new, hn, hx | ⟨e, hx⟩⟩
    · rw [hb]; trivial
    · rw [hx]; exact ⟨AllFine.append ho hn, trivial⟩
    · rw [hx]; exact AllFine.append ho hn

theorem settles (str : Str) (args : List Passed) (h : ∀ a ∈ args, a.Proper) :
    (∃ b, AllBad str (args.map Passed.farg) b) ∨ ∃ text fail, Settled str (args.map Passed.farg) text fail := by
  rcases settled_or_bad str (args.map Passed.farg) (by
    intro a ha
    obtain ⟨p, hp, rfl⟩ := List.mem_map.1 ha
    exact passed_clean (h p hp)) with ⟨b, hb⟩ | hs
  · exact Or.inl ⟨b, allBad hb⟩
  · exact Or.inr hs

/-- C71 for arguments of every kind, in any number and of any type (even with a value of another type), and every
string: either *all* functions have the same undefined behaviour on every output, or there is one text that all of them
deliver. -/
theorem C71_every_argument (str : Str) (args : List Passed) (h : ∀ a ∈ args, a.Proper) :
    (∃ b, AllBad str (args.map Passed.farg) b) ∨
    ∃ text fail, Delivers str (args.map Passed.farg) text fail := by
  rcases settles str args h with hb | ⟨text, fail, hs⟩
  · exact Or.inl hb
  · exact Or.inr ⟨text, fail, hs.delivers⟩

/-- C64 for arguments of every kind: if `format` gives a text, so do all functions that format into memory. -/
theorem C64_in_memory_every_argument (str : Str) (args : List Passed) (h : ∀ a ∈ args, a.Proper) (text : Str)
    (hf : formatStr str (args.map Passed.farg) = .ok () text) : InMemory str (args.map Passed.farg) text := by
  rcases C71_every_argument str args h with ⟨b, hb⟩ | ⟨text', fail, hd⟩
  · rw [hb.format] at hf
    cases hf
  · have := hd.format
    rw [hf] at this
    cases fail with
    | some e => cases this
    | none =>
      cases this
      refine ⟨hd.format, fun n s t hr => ?_, fun mem ops s t hs => ?_, fun mem p hl => ?_⟩
      · obtain ⟨s', h1, h2⟩ := hd.memory n s t hr
        exact ⟨s', h2, h1⟩
      · have := hd.span mem ops s t hs
        split
        · rw [if_pos ‹_›] at this
          obtain ⟨s', h1, h2⟩ := this
          exact ⟨s', h2, h1⟩
        · rw [if_neg ‹_›] at this
          exact this
      · obtain ⟨s', h1, h2⟩ := hd.pointer mem p hl
        exact ⟨s', h2, h1⟩

/-- C64, the other way round: if `format` reports an error, all functions that format into memory report the same error,
unless they report the end of their memory before. -/
theorem C64_error_every_argument (str : Str) (args : List Passed) (h : ∀ a ∈ args, a.Proper) (e : Err)
    (hf : formatStr str (args.map Passed.farg) = .err () e) :
    (∀ n (s : MemBuf) (t : Str), MemReach n s t → ∃ s', formatTo str (args.map Passed.farg) s = .err s' e) ∧
    (∀ (mem : Str) (ops : List ClientOp) (s : SpanBuf) (t : Str), client spanReset ops (SpanBuf.new mem, []) = some (s, t) →
      ∃ s' e', formatTo str (args.map Passed.farg) s = .err s' e' ∧ (e' = e ∨ e' = .eof)) := by
  rcases C71_every_argument str args h with ⟨b, hb⟩ | ⟨text', fail, hd⟩
  · rw [hb.format] at hf
    cases hf
  · have := hd.format
    rw [hf] at this
    cases fail with
    | none => cases this
    | some e =>
      cases this
      refine ⟨fun n s t hr => ?_, fun mem ops s t hs => ?_⟩
      · obtain ⟨s', _, h2⟩ := hd.memory n s t hr
        exact ⟨s', h2⟩
      · have := hd.span mem ops s t hs
        split at this
        · obtain ⟨s', _, h2⟩ := this
          exact ⟨s', _, h2, Or.inl rfl⟩
        · obtain ⟨s', _, h2, _⟩ := this
          exact ⟨s', _, h2, Or.inr rfl⟩

/-- C37 for arguments of every kind: `println` writes what `print` writes, and a line feed if that goes well. -/
theorem C37_println_every_argument (str : Str) (args : List Passed) (h : ∀ a ∈ args, a.Proper) (cache : Str)
    (hc : cache ≠ []) : vprintln cache (some []) str (args.map Passed.farg) =
      AndNewline (vprint cache (some []) str (args.map Passed.farg)) := by
  rcases settles str args h with ⟨b, hb⟩ | ⟨text, fail, hs⟩
  · rw [hb.print, hb.println]
    rfl
  · exact hs.println_print cache hc

/-- C15 for arguments of every kind, whenever `format` does not have undefined behaviour: there is a way to cut the text
into pieces such that for every container formatting to a back-insert iterator goes well exactly if the pieces fit. -/
theorem C15_back_inserter_every_argument (str : Str) (args : List Passed) (h : ∀ a ∈ args, a.Proper)
    (hb : ∀ b, formatStr str (args.map Passed.farg) ≠ .bad b) :
    ∃ (text : Str) (fail : Option Err), Delivers str (args.map Passed.farg) text fail ∧
      ∃ pieces : List Str, pieces.flatten = text ∧ ∀ (chars : Str) (cap : Nat),
        if backFits (chars.length + min cap 128) (chars.length + min cap 128) 0 (pieces.map fun p => some p.length) then
          (fail = none ∧ formatToBack chars cap str (args.map Passed.farg) = .ok text ()) ∨
          ∃ e rest, fail = some e ∧ formatToBack chars cap str (args.map Passed.farg) = .err (text ++ rest) e ∧
            chars.length + min cap 128 ≤ (text ++ rest).length
        else formatToBack chars cap str (args.map Passed.farg) = .bad .ub := by
  rcases settles str args h with ⟨b, hx⟩ | ⟨text, fail, hs⟩
  · exact absurd hx.format (hb b)
  · exact ⟨text, fail, hs.delivers, hs.back⟩

/-- Two pairs. -/
def twoPairs : List Passed := [.builtin (.value aPair.1 aPair.2), .builtin (.value aPair.1 aPair.2)]

/-- One pair: some of the characters behind the field are lost, but all functions agree on that.  Two pairs: they all have
undefined behaviour.  A string that is not accepted: they all say so. -/
example : (∀ a ∈ twoPairs, a.Proper) ∧
    formatStr "ab{}cdefgh".toList ((twoPairs.take 1).map Passed.farg) = .ok () "ab(1, 2)fgh".toList ∧
    formatStr "{}{}".toList (twoPairs.map Passed.farg) = .bad .ub ∧
    formatStr "{".toList (twoPairs.map Passed.farg) = .err () .invalidFormat := by
  refine ⟨?_, by decide +kernel, by decide +kernel, by decide +kernel⟩
  intro a ha
  simp only [twoPairs, List.mem_cons, List.not_mem_nil, or_false, or_self] at ha
  subst ha
  exact trivial

end Emio
