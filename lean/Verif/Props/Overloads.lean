import Verif.Model.Overloads
import Verif.Props.UserFormatter
import Verif.Props.AllArguments
import Verif.Props.CacheNested
/-
Property C84: which calls return a plain value, and when these throw.
-/
namespace Emio
open Spec BufferImpl

/-- The argument as it is passed to a function that chooses by `format_can_fail`. -/
def Spec.Passed.call : Passed → CallArg
  | .builtin (.nested str args) => formatArgsArg str (args.map fun a => a.2.farg a.1)
  | .builtin a => builtinArg a.farg
  | .custom f v => f.callArg v

/-- What is declared about the argument: `format_args` can fail, other arguments of the library cannot, and for formatters
of the user it is what they say. -/
def Spec.Passed.SaysCanFail : Passed → Prop
  | .builtin (.nested _ _) => True
  | .builtin _ => False
  | .custom f _ => f.formatCanFail = some true

theorem call_farg (a : Passed) : a.call.farg = a.farg := by
  rcases a with (_ | _ | _) | _ <;> rfl

theorem call_canFail (a : Passed) : a.call.canFail = true ↔ a.SaysCanFail := by
  rcases a with (_ | _ | _) | ⟨f, v⟩
  · simp [Passed.call, builtinArg, Passed.SaysCanFail]
  · simp [Passed.call, builtinArg, Passed.SaysCanFail]
  · simp [Passed.call, formatArgsArg, Passed.SaysCanFail]
  · simp only [Passed.call, UserFormatter.callArg, Passed.SaysCanFail]
    rcases f.formatCanFail with _ | _ | _ <;> simp

theorem calls_farg (args : List Passed) : (args.map Passed.call).map CallArg.farg = args.map Passed.farg := by
  simp [call_farg]

theorem overload_value (flags : List Bool) : overload true flags = some .value ↔ true ∉ flags := by
  unfold overload
  simp only [if_true]
  constructor
  · intro h hm
    split at h
    · rename_i h1
      have := List.all_eq_true.1 h1 true hm
      simp at this
    · split at h <;> cases h
  · intro h
    rw [if_pos]
    rw [List.all_eq_true]
    intro b hb
    cases b
    · rfl
    · exact absurd hb h

theorem overload_result (flags : List Bool) : overload true flags = some .result ↔ flags ≠ [] ∧ false ∉ flags := by
  unfold overload
  simp only [if_true]
  constructor
  · intro h
    split at h
    · cases h
    · split at h
      · rename_i h1
        rw [Bool.and_eq_true] at h1
        refine ⟨fun h2 => by simp [h2] at h1, fun hm => ?_⟩
        have := List.all_eq_true.1 h1.2 false hm
        simp at this
      · cases h
  · rintro ⟨h1, h2⟩
    rw [if_neg, if_pos]
    · rw [Bool.and_eq_true, List.all_eq_true]
      refine ⟨by simpa using List.length_pos_iff.2 h1, fun b hb => ?_⟩
      cases b
      · exact absurd hb h2
      · rfl
    · rw [List.all_eq_true]
      intro h3
      obtain ⟨b, l, rfl⟩ := List.exists_cons_of_ne_nil h1
      have := h3 b (by simp)
      cases b
      · exact h2 (by simp)
      · simp at this

/-- Which overload is chosen, for any arguments.  With a string that was checked when the program was compiled, a plain
value is returned exactly if nothing is said to be able to fail; a result exactly if there are arguments and everything is
said to be able to fail; otherwise there is no overload.  With other strings it is always a result. -/
theorem C84_overload (args : List Passed) :
    (overload true ((args.map Passed.call).map CallArg.canFail) = some .value ↔ ∀ a ∈ args, ¬ a.SaysCanFail) ∧
    (overload true ((args.map Passed.call).map CallArg.canFail) = some .result ↔ args ≠ [] ∧ ∀ a ∈ args, a.SaysCanFail) ∧
    (overload true ((args.map Passed.call).map CallArg.canFail) = none ↔
      (∃ a ∈ args, a.SaysCanFail) ∧ ∃ a ∈ args, ¬ a.SaysCanFail) ∧
    overload false ((args.map Passed.call).map CallArg.canFail) = some .result := by
  have e1 : true ∈ (args.map Passed.call).map CallArg.canFail ↔ ∃ a ∈ args, a.SaysCanFail := by
    simp [call_canFail]
  have e2 : false ∈ (args.map Passed.call).map CallArg.canFail ↔ ∃ a ∈ args, ¬ a.SaysCanFail := by
    simp [← call_canFail]
  have h1 : overload true ((args.map Passed.call).map CallArg.canFail) = some .value ↔ ∀ a ∈ args, ¬ a.SaysCanFail := by
    rw [overload_value, e1]
    simp
  have h2 : overload true ((args.map Passed.call).map CallArg.canFail) = some .result ↔
      args ≠ [] ∧ ∀ a ∈ args, a.SaysCanFail := by
    rw [overload_result, e2]
    simp
  refine ⟨h1, h2, ?_, rfl⟩
  constructor
  · intro h
    constructor
    · by_contra hc
      rw [h1.2 (by simpa using hc)] at h
      cases h
    · by_contra hc
      have hall : ∀ a ∈ args, a.SaysCanFail := by simpa using hc
      rcases args with _ | ⟨a, l⟩
      · cases h
      · rw [h2.2 ⟨by simp, hall⟩] at h
        cases h
  · rintro ⟨⟨a, ha, h3⟩, b, hb, h4⟩
    cases hx : overload true ((args.map Passed.call).map CallArg.canFail) with
    | none => rfl
    | some r =>
      cases r
      · exact absurd h3 (h1.1 hx a ha)
      · exact absurd ((h2.1 hx).2 b hb) h4

theorem formatValid_run (v : VStr) (args : List FArg) : formatValid v args = (vformatRun v args).access := by
  unfold formatValid vformatRun
  generalize MemBuf.new defaultCacheSize 0 = m
  cases m with
  | ok m u =>
    simp only
    cases vformatTo v args m <;> rfl
  | err m e => rfl
  | bad b => rfl

theorem vformatRun_eq (args : List FArg) (v : VStr) (s : Str)
    (h : ∀ {σ : Type} [BufferImpl σ] (b : σ), vformatTo v args b = formatTo s args b) :
    vformatRun v args = formatStr s args := by
  unfold vformatRun formatStr
  generalize MemBuf.new defaultCacheSize 0 = m
  cases m with
  | ok m u =>
    simp only [h]
    cases formatTo s args m <;> rfl
  | err m e => rfl
  | bad b => rfl

theorem sizeRun_eq (cache : Str) (args : List FArg) (v : VStr) (s : Str)
    (h : ∀ {σ : Type} [BufferImpl σ] (b : σ), vformatTo v args b = formatTo s args b) :
    sizeRun cache v args = formattedSize cache s args := by
  unfold sizeRun formattedSize
  rw [h]
  cases formatTo s args (CountBuf.new cache) <;> rfl

/-- The calls of the four functions with a valid format string: the same as formatting the string it holds, with the result
taken apart or not. -/
theorem C84_calls (args : List Passed) (v : VStr) (h : StringObject (args.map Passed.farg) true v) (cache : Str)
    (io : List Nat) :
    ∃ s, v.get = Res.ofValue s ∧ validateStr s (args.map Passed.farg) = .ok () true ∧
      ((∀ a ∈ args, ¬ a.SaysCanFail) →
        formatCall true v (args.map Passed.call) = .value (formatStr s (args.map Passed.farg)).access ∧
        formattedSizeCall cache true v (args.map Passed.call) =
          .value (formattedSize cache s (args.map Passed.farg)).access ∧
        printCall cache io true v (args.map Passed.call) = .value (vprint cache (some io) s (args.map Passed.farg)).access ∧
        printlnCall cache io true v (args.map Passed.call) =
          .value (vprintln cache (some io) s (args.map Passed.farg)).access) ∧
      (args ≠ [] → (∀ a ∈ args, a.SaysCanFail) →
        formatCall true v (args.map Passed.call) = .result (formatStr s (args.map Passed.farg)) ∧
        formattedSizeCall cache true v (args.map Passed.call) = .result (formattedSize cache s (args.map Passed.farg)) ∧
        printCall cache io true v (args.map Passed.call) = .result (vprint cache (some io) s (args.map Passed.farg)) ∧
        printlnCall cache io true v (args.map Passed.call) =
          .result (vprintln cache (some io) s (args.map Passed.farg))) ∧
      ((∃ a ∈ args, a.SaysCanFail) → (∃ a ∈ args, ¬ a.SaysCanFail) →
        formatCall true v (args.map Passed.call) = .noOverload ∧
        formattedSizeCall cache true v (args.map Passed.call) = .noOverload ∧
        printCall cache io true v (args.map Passed.call) = .noOverload ∧
        printlnCall cache io true v (args.map Passed.call) = .noOverload) := by
  obtain ⟨s, h1, h2, h3⟩ := C67_valid_is_accepted _ v h
  obtain ⟨o1, o2, o3, _⟩ := C84_overload args
  obtain ⟨p1, p2⟩ := printRun_eq cache io h3
  have f1 := vformatRun_eq _ _ _ h3
  have f2 := sizeRun_eq cache _ _ _ h3
  refine ⟨s, h1, h2, fun hs => ?_, fun hne hs => ?_, fun ha hb => ?_⟩
  · simp only [formatCall, formattedSizeCall, printCall, printlnCall, Call.of, o1.2 hs, calls_farg, formatValid_run,
      printValid, printlnValid, formattedSizeValid_eq _ _ _ _ h3, f1, p1, p2]
    exact ⟨trivial, trivial, trivial, trivial⟩
  · simp only [formatCall, formattedSizeCall, printCall, printlnCall, Call.of, o2.2 ⟨hne, hs⟩, calls_farg, f1, f2, p1, p2]
    exact ⟨trivial, trivial, trivial, trivial⟩
  · simp only [formatCall, formattedSizeCall, printCall, printlnCall, Call.of, o3.2 ⟨ha, hb⟩]
    exact ⟨trivial, trivial, trivial, trivial⟩

/-- A formatter of the user that keeps to what it says: it reports errors of its own only if it says that it can fail. -/
def Spec.Passed.Honest : Passed → Prop
  | .custom f v => Spec.Decent f v fun _ => f.formatCanFail = some true
  | .builtin _ => False

theorem Spec.Decent.mono {α : Type} {f : UserFormatter α} {v : α} {errs errs' : Err → Prop} (h : Spec.Decent f v errs)
    (he : ∀ e, errs e → errs' e) : Spec.Decent f v errs' := by
  refine ⟨h.ends, h.agrees, fun s ops => ?_⟩
  obtain ⟨new, h1, h2 | ⟨e, h2, h3⟩⟩ := h.writes s ops
  · exact ⟨new, h1, Or.inl h2⟩
  · exact ⟨new, h1, Or.inr ⟨e, he e h2, h3⟩⟩

/-- With formatters that keep to what they say, and a valid format string, `format` returns the text whenever it returns a
plain value: it does not throw.  The other three return as well, or throw `eof`; `print` and `println` have then written a
beginning of the text. -/
theorem C84_honest (args : List Passed) (hn : args.length ≤ 128) (honest : ∀ a ∈ args, a.Honest)
    (plain : ∀ a ∈ args, ¬ a.SaysCanFail) (v : VStr) (h : StringObject (args.map Passed.farg) true v) :
    ∃ text, formatCall true v (args.map Passed.call) = .value (.returns text) ∧
      ∀ cache : Str, cache ≠ [] →
        (formattedSizeCall cache true v (args.map Passed.call) = .value (.returns text.length) ∨
          formattedSizeCall cache true v (args.map Passed.call) = .value (.throws "eof")) ∧
        ∀ io,
          (printRun cache io v (args.map Passed.farg) = .ok text () ∧
              printCall cache io true v (args.map Passed.call) = .value (.returns ()) ∨
            (∃ out, out <+: text ∧ printRun cache io v (args.map Passed.farg) = .err out .eof) ∧
              printCall cache io true v (args.map Passed.call) = .value (.throws "eof")) ∧
          (printlnRun cache io v (args.map Passed.farg) = .ok (text ++ ['\n']) () ∧
              printlnCall cache io true v (args.map Passed.call) = .value (.returns ()) ∨
            (∃ out, out <+: text ++ ['\n'] ∧ printlnRun cache io v (args.map Passed.farg) = .err out .eof) ∧
              printlnCall cache io true v (args.map Passed.call) = .value (.throws "eof")) := by
  obtain ⟨s, h1, h2, h3⟩ := C67_valid_is_accepted _ v h
  obtain ⟨acc, text, fail, g1, g2, g3⟩ := C72_any_string s args (fun _ => False) hn (by
    intro a ha
    have h4 := honest a ha
    have h5 := plain a ha
    cases a with
    | builtin b => exact h4.elim
    | custom f v => exact Spec.Decent.mono h4 fun _ he => h5 he)
  obtain rfl : acc = true := by
    rw [h2] at g1
    cases g1
    rfl
  obtain rfl : fail = none := by
    cases fail with
    | none => rfl
    | some e => exact (g3 e rfl).elim
  refine ⟨text, ?_, fun cache hc => ⟨?_, fun io => ?_⟩⟩
  · obtain ⟨s', e1, _, e2, _⟩ := C84_calls args v h [] []
    rw [h1] at e1
    cases e1
    rw [(e2 plain).1, g2.format]
    rfl
  · obtain ⟨s', e1, _, e2, _⟩ := C84_calls args v h cache []
    rw [h1] at e1
    cases e1
    rw [(e2 plain).2.1]
    rcases g2.size cache hc with hx | hx
    · left; rw [hx]; rfl
    · right; rw [hx]; rfl
  · obtain ⟨s', e1, _, e2, _⟩ := C84_calls args v h cache io
    rw [h1] at e1
    cases e1
    rw [(e2 plain).2.2.1, (e2 plain).2.2.2]
    obtain ⟨p1, p2⟩ := printRun_eq cache io h3
    rw [p1, p2]
    constructor
    · have hx := g2.print cache hc io
      generalize vprint cache (some io) s (args.map Passed.farg) = x at hx
      cases hx with
      | done h => exact Or.inl ⟨rfl, rfl⟩
      | refused h _ => cases h
      | cut hb => exact Or.inr ⟨⟨_, hb, rfl⟩, rfl⟩
    · have hx := g2.println cache hc io
      generalize vprintln cache (some io) s (args.map Passed.farg) = x at hx
      cases hx with
      | done h => exact Or.inl ⟨rfl, rfl⟩
      | refused h _ => cases h
      | cut hb => exact Or.inr ⟨⟨_, hb, rfl⟩, rfl⟩

/-- With arguments of any kind: where a plain value is returned and formatting reports an error, the error is thrown, by its
name.  `formatted_size`, `print` and `println` throw it too, unless they throw `eof`. -/
theorem C84_throws (args : List Passed) (proper : ∀ a ∈ args, a.Proper) (plain : ∀ a ∈ args, ¬ a.SaysCanFail) (v : VStr)
    (h : StringObject (args.map Passed.farg) true v) (s : Str) (hs : v.get = Res.ofValue s) (e : Err)
    (hf : formatStr s (args.map Passed.farg) = .err () e) :
    formatCall true v (args.map Passed.call) = .value (.throws (Err.name (some e))) ∧
    ∀ cache : Str, cache ≠ [] →
      (∃ x, (x = e ∨ x = .eof) ∧
        formattedSizeCall cache true v (args.map Passed.call) = .value (.throws (Err.name (some x)))) ∧
      ∀ io,
        (∃ x, (x = e ∨ x = .eof) ∧ printCall cache io true v (args.map Passed.call) = .value (.throws (Err.name (some x)))) ∧
        ∃ x, (x = e ∨ x = .eof) ∧ printlnCall cache io true v (args.map Passed.call) = .value (.throws (Err.name (some x))) := by
  obtain ⟨fail, text, hfail, hd⟩ : ∃ fail text, fail = some e ∧ Delivers s (args.map Passed.farg) text fail := by
    rcases C71_every_argument s args proper with ⟨b, hb⟩ | ⟨text, fail, hd⟩
    · rw [hb.format] at hf
      cases hf
    · refine ⟨fail, text, ?_, hd⟩
      have := hd.format
      rw [hf] at this
      cases fail with
      | none => cases this
      | some e' => cases this; rfl
  subst hfail
  refine ⟨?_, fun cache hc => ⟨?_, fun io => ?_⟩⟩
  · obtain ⟨s', e1, _, e2, _⟩ := C84_calls args v h [] []
    rw [hs] at e1
    cases e1
    rw [(e2 plain).1, hf]
    rfl
  · obtain ⟨s', e1, _, e2, _⟩ := C84_calls args v h cache []
    rw [hs] at e1
    cases e1
    rw [(e2 plain).2.1]
    rcases hd.size cache hc with hx | hx
    · exact ⟨e, Or.inl rfl, by rw [hx]; rfl⟩
    · exact ⟨.eof, Or.inr rfl, by rw [hx]; rfl⟩
  · obtain ⟨s', e1, _, e2, _⟩ := C84_calls args v h cache io
    rw [hs] at e1
    cases e1
    rw [(e2 plain).2.2.1, (e2 plain).2.2.2]
    constructor
    · have hx := hd.print cache hc io
      generalize vprint cache (some io) s (args.map Passed.farg) = x at hx
      cases hx with
      | done h => cases h
      | refused h _ => cases h; exact ⟨e, Or.inl rfl, rfl⟩
      | cut hb => exact ⟨.eof, Or.inr rfl, rfl⟩
    · have hx := hd.println cache hc io
      generalize vprintln cache (some io) s (args.map Passed.farg) = x at hx
      cases hx with
      | done h => cases h
      | refused h _ => cases h; exact ⟨e, Or.inl rfl, rfl⟩
      | cut hb => exact ⟨.eof, Or.inr rfl, rfl⟩

/-- A formatter that inherits from another one makes calls mean the same as the value it formats with it: the same overload,
the same text and the same errors, among any other arguments. -/
theorem C84_inherited {α β : Type} (f : UserFormatter α) (part : β → α) (v : β) (before behind : List Passed) (valid : Bool)
    (s : VStr) (cache : Str) (io : List Nat) :
    formatCall valid s ((before ++ .custom (f.inherit part) v :: behind).map Passed.call) =
      formatCall valid s ((before ++ .custom f (part v) :: behind).map Passed.call) ∧
    formattedSizeCall cache valid s ((before ++ .custom (f.inherit part) v :: behind).map Passed.call) =
      formattedSizeCall cache valid s ((before ++ .custom f (part v) :: behind).map Passed.call) ∧
    printCall cache io valid s ((before ++ .custom (f.inherit part) v :: behind).map Passed.call) =
      printCall cache io valid s ((before ++ .custom f (part v) :: behind).map Passed.call) ∧
    printlnCall cache io valid s ((before ++ .custom (f.inherit part) v :: behind).map Passed.call) =
      printlnCall cache io valid s ((before ++ .custom f (part v) :: behind).map Passed.call) := by
  have h : (Passed.custom (f.inherit part) v).call = (Passed.custom f (part v)).call := rfl
  simp only [List.map_append, List.map_cons, h, and_self]

/-! ### Examples -/

/-- `sulkyFormatter`, which always reports an error, and says so. -/
def frankFormatter : UserFormatter Unit := { sulkyFormatter with formatCanFail := some true }

/-- With the formatter that does not say so, `format` throws; with the frank one, there is a result; with one of each, or
with a frank one and a number, there is no overload. -/
example :
    formatCall true ⟨false, some "{}".toList⟩ ([.custom sulkyFormatter ()].map Passed.call) = .value (.throws "out of range") ∧
    formatCall true ⟨false, some "{}".toList⟩ ([.custom frankFormatter ()].map Passed.call) = .result (.err () .outOfRange) ∧
    formatCall true ⟨false, some "{}{}".toList⟩
      ([.custom frankFormatter (), .builtin (.value .int (.int 5))].map Passed.call) = .noOverload :=
  by decide +kernel

/-- The hypotheses of `C84_honest` for the formatter of docs/API.md. -/
example : ∃ text, formatCall true ⟨false, some "{}".toList⟩ ([.custom fooFormatter 5].map Passed.call) = .value (.returns text) := by
  obtain ⟨text, h, _⟩ := C84_honest [.custom fooFormatter 5] (by decide)
    (by
      intro a ha
      obtain rfl := List.mem_singleton.1 ha
      exact foo_decent 5 (by decide) _)
    (by
      intro a ha
      obtain rfl := List.mem_singleton.1 ha
      simp [Passed.SaysCanFail, fooFormatter])
    ⟨false, some "{}".toList⟩ (.literal (s := "{}".toList) (by decide +kernel))
  exact ⟨text, h⟩

/-- The hypotheses of `C84_throws` for the formatter that always reports an error. -/
example : formatCall true ⟨false, some "{}".toList⟩ ([.custom sulkyFormatter ()].map Passed.call) =
    .value (.throws "out of range") :=
  (C84_throws [.custom sulkyFormatter ()] (by
      intro a ha
      obtain rfl := List.mem_singleton.1 ha
      exact fun s ops => Or.inr ⟨[.char '<'], by simp [WOp.Fine], Or.inr ⟨.outOfRange, rfl⟩⟩)
    (by
      intro a ha
      obtain rfl := List.mem_singleton.1 ha
      simp [Passed.SaysCanFail, sulkyFormatter])
    ⟨false, some "{}".toList⟩ (.literal (s := "{}".toList) (by decide +kernel)) "{}".toList rfl .outOfRange (by decide +kernel)).1

end Emio
