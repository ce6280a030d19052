import Verif.Lemmas.Settled
import Verif.Props.Outputs
/-
Property C71: whatever the format string, the arguments and the output are, a formatting function comes to a result, and
what it handed out is the beginning of one text.
-/
namespace Emio
open Spec BufferImpl

/-- All functions come to a result (none has undefined behaviour or runs for ever), and hand out the beginning of `text`,
or all of it if they succeed.  They succeed only if there is no `fail`; otherwise they say `fail`, unless the output fails
earlier. -/
structure Delivers (str : Str) (args : List FArg) (text : Str) (fail : Option Err) : Prop where
  format : formatStr str args = ended fail () text
  memory : ∀ n (s : MemBuf) (t : Str), MemReach n s t →
    ∃ s', s'.view = t ++ text ∧ formatTo str args s = ended fail s' ()
  span : ∀ (mem : Str) (ops : List ClientOp) (s : SpanBuf) (t : Str),
    client spanReset ops (SpanBuf.new mem, []) = some (s, t) →
    if t.length + text.length ≤ mem.length then
      ∃ s', s'.view = t ++ text ∧ formatTo str args s = ended fail s' ()
    else ∃ s' p, formatTo str args s = .err s' .eof ∧ p <+: text ∧ s'.view = t ++ p
  pointer : ∀ mem p, text.length ≤ 2 ^ 64 - 1 →
    ∃ s', s'.view = text ∧ formatToPtr mem str args p = ended fail s' text.length
  size : ∀ cache : Str, cache ≠ [] →
    (formattedSize cache str args = ended fail () text.length) ∨
    formattedSize cache str args = .err () .eof
  iterator : ∀ cache : Str, cache ≠ [] → Ends text fail (formatToIter cache str args)
  firstN : ∀ cache : Str, cache ≠ [] → ∀ limit n (s : MemBuf) (t : Str), MemReach n s t →
    (∃ s', formatToN cache limit str args s = .ok s' text.length ∧ fail = none ∧ s'.view = t ++ text.take limit) ∨
    (∃ s' e p, formatToN cache limit str args s = .err s' e ∧ (e = .eof ∨ fail = some e) ∧
      p <+: text.take limit ∧ s'.view = t ++ p)
  firstNIterator : ∀ cache : Str, cache ≠ [] → ∀ n : Int,
    (∃ it, formatToNIter cache n str args = .ok () it ∧ fail = none ∧ it.out = text.take n.toNat ∧
      it.count = text.length) ∨
    formatToNIter cache n str args = .err () .eof ∨
    ∃ e, fail = some e ∧ formatToNIter cache n str args = .err () e
  firstNPointer : ∀ cache : Str, cache ≠ [] → ∀ (mem : Str) (n : Int), n.toNat ≤ mem.length →
    (∃ it, formatToNPtr cache mem n str args = .ok () it ∧ fail = none ∧ it.count = text.length ∧
      it.mem = text.take n.toNat ++ mem.drop (min n.toNat text.length)) ∨
    formatToNPtr cache mem n str args = .err () .eof ∨
    ∃ e, fail = some e ∧ formatToNPtr cache mem n str args = .err () e
  print : ∀ cache : Str, cache ≠ [] → ∀ io, Ends text fail (vprint cache (some io) str args)
  println : ∀ cache : Str, cache ≠ [] → ∀ io, Ends (text ++ ['\n']) fail (vprintln cache (some io) str args)

theorem Settled.delivers {str : Str} {args : List FArg} {text : Str} {fail : Option Err} (h : Settled str args text fail) :
    Delivers str args text fail := by
  refine ⟨h.format, fun n s t hr => ?_, fun mem ops s t hs => ?_, fun mem p hl => h.ptr mem hl p, h.size, h.iter,
    fun cache hc limit n s t hr => ?_, h.toNIter, fun cache hc mem n hm => ?_, h.print, h.println⟩
  · obtain ⟨s', h1, h2⟩ := h.accepted (MemBuf.accepts n) hr.rep trivial
    exact ⟨s', h1.2.2.2.2.2.2.2, h2⟩
  · have hr := span_reach hs
    split
    · rename_i hle
      obtain ⟨s', h1, h2⟩ := h.accepted (SpanBuf.accepts mem.length) hr hle
      exact ⟨s', h1.2.2.2.2.2, h2⟩
    · rename_i hgt
      have hno : ∀ s', ¬ SpanBuf.Rep mem.length s' (t ++ text) := by
        intro s' hw
        have := SpanBuf.Rep.length hw
        have := hw.2.2.2.2.1
        simp at *
        omega
      rcases h.wrote (SpanBuf.lawful mem.length) hr with ⟨s', _, _, h2⟩ | ⟨s', _, _, _, h2⟩ | ⟨s', p, h1, hp, h2⟩
      · exact absurd h2 (hno s')
      · exact absurd h2 (hno s')
      · exact ⟨s', p, h1, hp, h2.2.2.2.2.2⟩
  · rcases h.toN (MemBuf.lawful n) cache hc s t hr.rep limit ((MemBuf.accepts n).unsplit trivial) with
      ⟨s', h1, hf, h2⟩ | ⟨s', e, q, h1, he, hq, h2⟩
    · exact Or.inl ⟨s', h1, hf, h2.2.2.2.2.2.2.2⟩
    · exact Or.inr ⟨s', e, q, h1, he, hq, h2.2.2.2.2.2.2.2⟩
  · rcases h.toNPtr cache hc n mem (by omega) with ⟨it, h1, hf, h2, _, h3⟩ | h1
    · exact Or.inl ⟨it, h1, hf, h2, h3⟩
    · exact Or.inr h1

/-- C71 for core arguments: every string, accepted or not, every buffer state, every behaviour of the file. -/
theorem C71_core (str : Str) (args : List CoreArg) (hn : args.length ≤ 128) (hv : ∀ a ∈ args, ValidArg a) :
    ∃ text fail, Delivers str (fargs args) text fail ∧ (fail = none ∨ fail = some .invalidFormat) := by
  obtain ⟨b, hb⟩ := C22_validation_total str args hn
  cases b with
  | false =>
    by_cases hp : (fargs args).length = 0 ∧ checkIfPlainString str = true
    · have h0 : fargs args = [] := List.eq_nil_of_length_eq_zero hp.1
      rw [h0, plain_validates str hp.2] at hb
      cases hb
    · exact ⟨_, _, (settled_of_refused hb hp).delivers, Or.inr rfl⟩
  | true =>
    obtain ⟨text, fail, h, hf⟩ := settled_of_accepted (fargs_sound str hv) (fargs_tame args) hb
    exact ⟨text, fail, h.delivers, hf⟩

/-- C71 for nested ranges, optionals and variants. -/
theorem C71_nested (str : Str) (args : List (FTy × FVal)) (hlen : args.length ≤ 128) (hn : ∀ a ∈ args, NoTuple a.1)
    (hv : ∀ a ∈ args, HasType a.2 a.1) : ∃ text fail, Delivers str (vargs args) text fail ∧ (fail = none ∨ fail = some .invalidFormat) := by
  obtain ⟨b, hb⟩ := C61_validation_total str args hlen hn
  cases b with
  | false =>
    by_cases hp : (vargs args).length = 0 ∧ checkIfPlainString str = true
    · have h0 : vargs args = [] := List.eq_nil_of_length_eq_zero hp.1
      rw [h0, plain_validates str hp.2] at hb
      cases hb
    · exact ⟨_, _, (settled_of_refused hb hp).delivers, Or.inr rfl⟩
  | true =>
    obtain ⟨text, fail, h, hf⟩ := settled_of_accepted (vargs_sound hn hv str) (vargs_tame hn) hb
    exact ⟨text, fail, h.delivers, hf⟩

/-- C71, as seen by someone who prints: when `format` gives a text, then whatever the file does (`io`: what its writes
manage to write), the file gets the beginning of this text and a line feed, and all of it if the call succeeds. -/
theorem C71_print (str : Str) (args : List CoreArg) (hn : args.length ≤ 128) (hv : ∀ a ∈ args, ValidArg a) (text : Str)
    (h : formatStr str (fargs args) = .ok () text) (cache : Str) (hc : cache ≠ []) (io : List Nat) :
    Ends text none (vprint cache (some io) str (fargs args)) ∧
    Ends (text ++ ['\n']) none (vprintln cache (some io) str (fargs args)) := by
  obtain ⟨text', fail, hd, _⟩ := C71_core str args hn hv
  have hf := hd.format
  rw [h] at hf
  cases fail with
  | some => cases hf
  | none =>
    injection hf with _ hf
    subst hf
    exact ⟨hd.print cache hc io, hd.println cache hc io⟩

/-- C71, as seen by someone who prints something invalid: the file gets nothing of a string that is not accepted, and the
call says so. -/
theorem C71_print_refused (str : Str) (args : List CoreArg)
    (h : validateStr str (fargs args) = .ok () false) (cache : Str) (io : List Nat) :
    vprint cache (some io) str (fargs args) = .err [] .invalidFormat ∧
    vprintln cache (some io) str (fargs args) = .err [] .invalidFormat := by
  have hp : ¬ ((fargs args).length = 0 ∧ checkIfPlainString str = true) := by
    intro hp
    have h0 : fargs args = [] := List.eq_nil_of_length_eq_zero hp.1
    rw [h0, plain_validates str hp.2] at h
    cases h
  have hf : ∀ s : FileBuf, formatTo str (fargs args) s = .err s .invalidFormat := by
    intro s
    unfold formatTo VStr.make
    rw [if_neg hp, h]
    rfl
  constructor
  · unfold vprint
    simp only
    rw [hf]
    rfl
  · unfold vprintln
    simp only
    rw [M.bind_err (hf _)]
    rfl

/-- A full disk: two of the five characters are written. -/
example : vprint "........".toList (some [2]) "<{}>".toList (fargs [.int ⟨true, 32⟩ 123]) = .err "<1".toList .eof := by
  decide +kernel

/-- The letter `O` is accepted for numbers, but fails: the text ends there. -/
example : formatToIter "........".toList "0123456789{:O}".toList (fargs [.int ⟨true, 32⟩ 123]) =
    .err "01234567".toList .invalidFormat := by
  decide +kernel

end Emio
