import Verif.Lemmas.Dynamic
/-
Properties of widths and precisions given at run time (C60) and of nested format strings (C62).  The specification is in
`Verif.Spec.Dynamic`.
-/
namespace Emio
open Spec

/-! ### C60 a dynamic width or precision acts as if written in the format string -/

/-- Formatting with `format_spec{width, precision}` is the same as formatting with that width and precision written into
the replacement field: on any buffer, with the same result and the same errors. -/
theorem C60_dynamic_is_written (width precision : Option Int) (hw : Given width) (hp : Given precision) (ty : FTy)
    (s s' : Str) (h : Overwritten width precision ty false s s') (v : FVal) {σ : Type} [BufferImpl σ] (b : σ) :
    formatTo (fieldText s) [(AnyArg.dynamic ty v width precision).farg] b =
      formatTo (fieldText s') [(AnyArg.value ty v).farg] b :=
  dynamic_alone hw hp h v b

/-- In particular the text is the same. -/
theorem C60_dynamic_text (width precision : Option Int) (hw : Given width) (hp : Given precision) (ty : FTy)
    (s s' : Str) (h : Overwritten width precision ty false s s') (v : FVal) :
    formatStr (fieldText s) [(AnyArg.dynamic ty v width precision).farg] =
      formatStr (fieldText s') [(AnyArg.value ty v).farg] :=
  formatStr_congr (dynamic_alone hw hp h v)

/-- The least number but one stands for none: with it the value is formatted as the format string says, whatever that is,
whatever else is formatted and on any buffer. -/
theorem C60_none_given (str : Str) (before behind : List FArg) (ty : FTy) (v : FVal) {σ : Type} [BufferImpl σ] (b : σ) :
    formatTo str (before ++ v.dynamic ty (-2147483647) (-2147483647) :: behind) b =
      formatTo str (before ++ v.farg ty :: behind) b := by
  have e : ∀ f : Fmtr, f.overwrite (-2147483647) (-2147483647) = f := by
    intro f
    induction f using Fmtr.rec (motive_2 := fun _ => True) with
    | core t s => simp [Fmtr.overwrite, notDefined]
    | range o c sep f ih => rw [Fmtr.overwrite, ih]
    | nil => trivial
    | cons => trivial
    | _ => rw [Fmtr.overwrite] <;> simp
  have h : v.dynamic ty (-2147483647) (-2147483647) = v.farg ty := by
    unfold FVal.dynamic FVal.farg
    simp only [e]
  rw [h]

/-- `{:*>4.1f}` with width 6 and precision 2 is `{:*>6.2f}`: the hypotheses are met. -/
example : Overwritten (some 6) (some 2) (.core .double) false "*>4.1f".toList "*>6.2f".toList := by
  have h := Overwritten.core (width := some 6) (precision := some 2) (t := .double)
    (sp := { fill := some '*', align := some '>', width := ['4'], prec := some ['1'], type := some 'f' })
    ⟨by simp, by simp, by simp, by simp, by simp, by simp, by simp⟩ ⟨by decide, by decide⟩ ⟨by decide, by simp⟩ ⟨by decide, by decide⟩
    ⟨by decide, by simp [SpecText.withNumbers]⟩
  exact h

/-- `{:n}` of strings with width 5 is `{:n:5?}`. -/
example : Overwritten (some 5) none (.seq .string) false "n".toList "n:5?".toList := by
  have h : Overwritten (some 5) none (.core .string) true [] "5?".toList :=
    Overwritten.quoted (width := some 5) (precision := none) (t := .string) ⟨by decide, by decide⟩
      ⟨by simp [SpecText.TextOnly, SpecText.withNumbers, quotedSpec], by simp [SpecText.withNumbers, quotedSpec],
        by simp [SpecText.withNumbers, quotedSpec]⟩
  exact Overwritten.range (n := true) (elem := none) h

/-- In a format string with any other text and fields: every field is replaced by what `{:spec}` makes of its argument,
and everything else is as it was. -/
theorem C60_in_format_string (t : FormatText) (args : List AnyArg) (texts : List Str) (suits : t.Suits args)
    (alone : t.Alone args texts) (noTuple : ∀ a ∈ args, ¬ a.HasTuple) :
    formatStr t.text (args.map AnyArg.farg) = .ok () (t.output texts) :=
  (any_format suits alone (fun _ _ _ _ ha hn => absurd hn (noTuple _ (List.mem_of_getElem? ha)))).str

/-- A precision given for integers, characters, pointers or truth values has no effect. -/
theorem C60_precision_without_effect (width : Option Int) (p : Int) (t : CoreTy)
    (ht : t ≠ .string ∧ t ≠ .double) (sp : SpecText) (wf : sp.WellFormed) (fits : sp.Fits)
    (allows : CoreTy.Allows t sp) (a : CoreArg) (ha : a.ty = t) {σ : Type} [BufferImpl σ] (b : σ) :
    formatTo (fieldText sp.text) [(AnyArg.dynamic (.core t) (.core a) width (some p)).farg] b =
      formatTo (fieldText sp.text) [(AnyArg.dynamic (.core t) (.core a) width none).farg] b := by
  have act : ∀ w : Int, (FVal.core a).format ((Fmtr.core t sp.meaning).overwrite w p) =
      (FVal.core a).format ((Fmtr.core t sp.meaning).overwrite w notDefined) := by
    intro w
    have e : ∀ s : Specs, ∀ q : Int, a.write { s with precision := q } = a.write s := by
      intro s q
      cases a with
      | string x => exact absurd ha.symm ht.1
      | double x => exact absurd ha.symm ht.2
      | bool x => simp only [CoreArg.write, writeArgBool, padded_precision, int_precision]
      | char x => simp only [CoreArg.write, writeArgChar, padded_precision, int_precision]
      | int t n => exact int_precision s q t n
      | pointer x => exact int_precision { s with alternateForm := true, type := 'x' } q u64 x
    simp only [Fmtr.overwrite, format_core, ne_eq, not_true_eq_false, if_false]
    by_cases hp : p = notDefined
    · rw [if_neg (by simp [hp])]
    · rw [if_pos hp]
      exact e _ _
  have hx : ∀ p, formatTo (fieldText sp.text) [(FVal.core a).dynamic (.core t) (width.getD notDefined) p] b =
      runAct ((FVal.core a).format ((Fmtr.core t sp.meaning).overwrite (width.getD notDefined) p)) b := by
    intro p
    refine field_exact (colon := true) (by simp) (fun r hat => validates_alone (.core wf fits allows) r hat)
      (fun r hat => ?_) b
    show (do let f ← (FTy.core t).fresh.parse; return (FVal.core a).format (f.overwrite _ _)) r = _
    rw [Fmtr.parse, M.bind_ok (core_parse_exact wf fits r [] hat)]
    rfl
  show formatTo _ [(FVal.core a).dynamic _ _ p] b = formatTo _ [(FVal.core a).dynamic _ _ notDefined] b
  rw [hx, hx, act]

example : (∃ t : CoreTy, t ≠ .string ∧ t ≠ .double) := ⟨.bool, by decide, by decide⟩

/-- What the precision asks for: this many digits behind the point.  (In a format string at most 1100.) -/
def DynamicPrecisionIsKept : Prop :=
  ∀ (bits : Nat) (p : Int), 0 < p → p < 2147483648 → ∀ text,
    formatStr "{:f}".toList [(AnyArg.dynamic (.core .double) (.core (.double bits)) none (some p)).farg] = .ok () text →
    p ≤ text.length

/-- It is cut to 16 bits: 1.5 with a precision of 65536 is `2.`. -/
theorem C60_precision_is_kept_violated : ¬ DynamicPrecisionIsKept := by
  intro h
  exact absurd (h 0x3ff8000000000000 65536 (by decide) (by decide) ['2', '.'] (by decide +kernel)) (by decide)

/-- No dynamic precision terminates the program. -/
def DynamicPrecisionReturns : Prop :=
  ∀ (bits : Nat) (p : Int), 0 ≤ p → p < 2147483648 →
    formatStr "{:e}".toList [(AnyArg.dynamic (.core .double) (.core (.double bits)) none (some p)).farg] ≠ .bad .terminate

/-- 1.5 with a precision of 32767 does. -/
theorem C60_precision_terminates_violated : ¬ DynamicPrecisionReturns := by
  intro h
  exact h 0x3ff8000000000000 32767 (by decide) (by decide) (by decide +kernel)

/-! ### C62 nested format arguments render the nested text -/

/-- `{}` with nested format arguments does what formatting the nested string does, whatever string and arguments are: on
any buffer, with the same result and the same errors. -/
theorem C62_nested (str : Str) (args : List FArg) {σ : Type} [BufferImpl σ] (b : σ) :
    formatTo "{}".toList [formatArgs str args] b = formatTo str args b :=
  nested_alone false str args b

/-- In particular the text is the same. -/
theorem C62_nested_text (str : Str) (args : List FArg) : formatStr "{}".toList [formatArgs str args] = formatStr str args :=
  formatStr_congr (nested_alone false str args)

/-- Nesting twice. -/
theorem C62_nested_twice (str : Str) (args : List FArg) :
    formatStr "{}".toList [formatArgs "{}".toList [formatArgs str args]] = formatStr str args := by
  rw [C62_nested_text, C62_nested_text]

/-- In a format string with other text and other fields, values and nested format strings in any order, every nested
format string is replaced by its text. -/
theorem C62_in_format_string (t : FormatText) (args : List AnyArg) (texts : List Str) (suits : t.Suits args)
    (length : texts.length = t.fields.length)
    (nested : ∀ (i : Nat) (f : Field) (text : Str), t.fields[i]? = some f → texts[i]? = some text →
      ∃ a, args[f.argument i]? = some a ∧
        ((∃ str as, a = .nested str as ∧ formatStr str (as.map fun a => a.2.farg a.1) = .ok () text) ∨
          formatStr ('{' :: ':' :: f.body) [a.farg] = .ok () text))
    (noTuple : ∀ a ∈ args, ¬ a.HasTuple) :
    formatStr t.text (args.map AnyArg.farg) = .ok () (t.output texts) := by
  refine C60_in_format_string t args texts suits ⟨length, ?_⟩ noTuple
  intro i f text hf ht
  obtain ⟨a, ha, h⟩ := nested i f text hf ht
  refine ⟨a, ha, ?_⟩
  rcases h with ⟨str, as, rfl, h⟩ | h
  · obtain ⟨a', ha', s, hb, hs, hta⟩ := suits.taken i f hf
    rw [ha] at ha'
    obtain rfl := Option.some.inj ha'
    have hs0 : s = [] := hta
    rw [hb, hs0, ← h]
    exact formatStr_congr (nested_alone true str _)
  · exact h

/-- `<{}|{:3}>` with a nested string and a number with width 5: the hypotheses are met. -/
example : formatStr "<{}|{:3}>".toList [formatArgs "{}!".toList [(FVal.int 1).farg .int],
    (FVal.int 7).dynamic .int 5 notDefined] = .ok () "<1!|    7>".toList := by
  refine C62_in_format_string ⟨[(['<'], ⟨[], false, ['}']⟩), (['|'], ⟨[], true, ['3', '}']⟩)], ['>']⟩
    [.nested "{}!".toList [(.int, .int 1)], .dynamic .int (.int 7) (some 5) none] ["1!".toList, "    7".toList]
    ⟨by decide, ?_, ?_, ?_, ?_, ?_⟩ rfl ?_ ?_
  · intro a ha
    simp only [List.mem_cons, List.not_mem_nil, or_false] at ha
    rcases ha with rfl | rfl
    · refine ⟨?_, ?_⟩
      · intro a ha
        simp only [List.mem_cons, List.not_mem_nil, or_false] at ha
        subst ha
        exact HasType.core ⟨by decide, by decide⟩
      · intro a ha
        simp only [List.mem_cons, List.not_mem_nil, or_false] at ha
        subst ha
        trivial
    · exact ⟨HasType.core ⟨by decide, by decide⟩, by simp [Given], by simp [Given]⟩
  · intro f hf; simp [FormatText.fields] at hf; rcases hf with rfl | rfl <;> simp
  · exact Or.inl (by intro f hf; simp [FormatText.fields] at hf; rcases hf with rfl | rfl <;> rfl)
  · intro k; simp [FormatText.arguments, FormatText.fields, Field.argument]; omega
  · intro i f hf
    rcases i with _ | _ | i
    · simp [FormatText.fields] at hf
      subst hf
      exact ⟨_, rfl, [], rfl, fun _ => rfl, rfl⟩
    · simp [FormatText.fields] at hf
      subst hf
      refine ⟨_, rfl, ['3'], rfl, by simp, ['5'], ?_⟩
      exact Overwritten.core (width := some 5) (precision := none) (t := .int i32) (sp := { width := ['3'] })
        ⟨by simp, by simp, by simp, by simp, by simp, by simp, by simp⟩ ⟨by decide, by decide⟩
        ⟨⟨rfl, by simp⟩, Or.inl rfl⟩ ⟨by decide, by decide⟩ ⟨⟨rfl, by simp [SpecText.withNumbers]⟩, Or.inl rfl⟩
    · simp [FormatText.fields] at hf
  · intro i f text hf ht
    rcases i with _ | _ | i
    · simp [FormatText.fields] at hf
      subst hf; cases ht
      exact ⟨_, rfl, Or.inl ⟨_, _, rfl, by decide +kernel⟩⟩
    · simp [FormatText.fields] at hf
      subst hf; cases ht
      exact ⟨_, rfl, Or.inr (by decide +kernel)⟩
    · simp [FormatText.fields] at hf
  · intro a ha
    simp only [List.mem_cons, List.not_mem_nil, or_false] at ha
    rcases ha with rfl | rfl <;> exact id

end Emio
