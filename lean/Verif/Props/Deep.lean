import Verif.Lemmas.Deep
import Verif.Props.UserFormatter
/-
Property C72 (and C71, C60) for arguments of every kind: widths and precisions given at run time, format strings in format
strings in format strings.
-/
namespace Emio
open Spec BufferImpl

theorem deep_any {str : Str} {args : List Deep} {errs : Err → Prop} (hn : args.length ≤ 128)
    (decent : ∀ a ∈ args, a.Decent errs) :
    ∃ accepted text fail, validateStr str (args.map Deep.farg) = .ok () accepted ∧
      Settled str (args.map Deep.farg) text fail ∧
      if accepted then ∀ e ∈ fail, errs e else text = [] ∧ fail = some .invalidFormat := by
  have hf : ∀ a ∈ args.map Deep.farg, a.Forward ∧ a.Agrees errs := by
    intro a ha
    obtain ⟨b, hb, rfl⟩ := List.mem_map.1 ha
    exact deep_works (decent b hb)
  obtain ⟨b, hb⟩ := validates_total (str := str) (by simpa using hn) fun a ha => (hf a ha).1
  cases b with
  | false =>
    by_cases hp : (args.map Deep.farg).length = 0 ∧ checkIfPlainString str = true
    · have h0 : args.map Deep.farg = [] := List.eq_nil_of_length_eq_zero hp.1
      rw [h0, plain_validates str hp.2] at hb
      cases hb
    · exact ⟨false, _, _, hb, settled_of_refused hb hp, by simp⟩
  | true =>
    obtain ⟨text, fail, h, he⟩ := settled_of_agrees (fun a ha => (hf a ha).2) (fun a ha => (hf a ha).1) hb
    exact ⟨true, text, fail, hb, h, by simpa using he⟩

/-- C72, any string and arguments of every kind: values, values with a width and a precision given at run time, formatters
of the user, and format strings with such arguments, to any depth.  Every function comes to a result, the same for all.
Accepted format strings fail with nothing but the errors `errs` of the formatters, and `invalid_format`. -/
theorem C72_any_depth (str : Str) (args : List Deep) (errs : Err → Prop) (hn : args.length ≤ 128)
    (decent : ∀ a ∈ args, a.Decent errs) :
    ∃ accepted text fail, validateStr str (args.map Deep.farg) = .ok () accepted ∧
      Delivers str (args.map Deep.farg) text fail ∧
      if accepted then ∀ e ∈ fail, errs e else text = [] ∧ fail = some .invalidFormat := by
  obtain ⟨b, text, fail, h1, h2, h3⟩ := deep_any (str := str) hn decent
  exact ⟨b, text, fail, h1, h2.delivers, h3⟩

/-- C22 and C71 for the arguments the library knows, to any depth: whatever the strings are, at the outside and inside,
formatting ends with a text or with `invalid_format`, in all functions alike. -/
theorem C71_any_depth (str : Str) (args : List Deep) (hn : args.length ≤ 128)
    (decent : ∀ a ∈ args, a.Decent (· = .invalidFormat)) :
    ∃ text fail, (fail = none ∨ fail = some .invalidFormat) ∧ Delivers str (args.map Deep.farg) text fail := by
  obtain ⟨b, text, fail, _, h2, h3⟩ := C72_any_depth str args _ hn decent
  refine ⟨text, fail, ?_, h2⟩
  cases fail with
  | none => exact Or.inl rfl
  | some e =>
    cases b with
    | true =>
      obtain rfl := h3 e rfl
      exact Or.inr rfl
    | false => exact Or.inr h3.2

theorem nested_deep (str : Str) (args : List Deep) : (Deep.nested str args).farg = formatArgs str (args.map Deep.farg) := by
  rw [Deep.farg, fargs_map]

/-- A format string in a format string is formatted as it would be outside, whatever its arguments are: `{}` of it is the
same as the format string itself, on every buffer. -/
theorem C72_nested_is_inlined (str : Str) (args : List Deep) {σ : Type} [BufferImpl σ] (b : σ) :
    formatTo "{}".toList [(Deep.nested str args).farg] b = formatTo str (args.map Deep.farg) b ∧
    formatTo "{:}".toList [(Deep.nested str args).farg] b = formatTo str (args.map Deep.farg) b := by
  rw [nested_deep]
  exact ⟨nested_alone false str _ b, nested_alone true str _ b⟩

/-- And so to any depth: wrapping a format string `n` times changes nothing. -/
theorem C72_nested_many_times (str : Str) (args : List Deep) (n : Nat) {σ : Type} [BufferImpl σ] (b : σ) :
    formatTo "{}".toList [((fun a => Deep.nested "{}".toList [a])^[n] (Deep.nested str args)).farg] b =
      formatTo str (args.map Deep.farg) b := by
  induction n with
  | zero => exact (C72_nested_is_inlined str args b).1
  | succ n ih =>
    rw [Function.iterate_succ_apply', (C72_nested_is_inlined _ _ b).1]
    exact ih

/-! ### Examples -/

/-- A number with the width 6, in a format string that is in a format string. -/
def aDeepArgument : Deep :=
  .nested "<{}>".toList [.nested "{1}{0:.2f}".toList [.dynamic (.core .double) (.core (.double 0x3ff8000000000000)) (some 6) none,
    .custom fooFormatter 42]]

theorem aDeepArgument_decent : aDeepArgument.Decent (· = .invalidFormat) := by
  refine .nested (by decide) (fun a ha => ?_) rfl
  obtain rfl := List.mem_singleton.1 ha
  refine .nested (by decide) (fun a ha => ?_) rfl
  simp only [List.mem_cons, List.not_mem_nil, or_false] at ha
  rcases ha with rfl | rfl
  · refine .dynamic (HasType.core (by simp [ValidArg])) trivial ?_ ?_ (by simp) rfl
    · intro k hk
      cases hk
      decide
    · intro k hk
      cases hk
  · exact .custom (foo_decent 42 (by decide) _)

example : ∃ text fail, (fail = none ∨ fail = some .invalidFormat) ∧
    Delivers "[{}]".toList [aDeepArgument.farg] text fail :=
  C71_any_depth "[{}]".toList [aDeepArgument] (by decide) (by
    intro a ha
    obtain rfl := List.mem_singleton.1 ha
    exact aDeepArgument_decent)

example : formatStr "[{}]".toList [aDeepArgument.farg] = .ok () "[<42  1.50>]".toList := by
  rw [aDeepArgument, nested_deep]
  simp only [List.map, Deep.farg]
  decide +kernel

end Emio
