import Verif.Lemmas.ValuesArg
import Verif.Props.Parser
/-
Properties C53 to C55 and C61: ranges, tuples, optionals and variants.

`FTy` are the types, `FVal` the values, and `v.farg ty` is a value as the parser sees it.  `fieldText s` is the format
string `{:s}`.  Each theorem says how a value is formatted if its parts, formatted alone, are formatted as given texts.
-/
namespace Emio
open Spec

theorem element_iff {t : FTy} {v : FVal} {elem : Option Str} {text : Str} (hv : HasType v t)
    (ht : Spec.Takes t (elem.getD [])) : formatStr (elementField t elem) [v.farg t] = .ok () text ↔
      Renders Written t v elem.isNone (elem.getD []) text := by
  cases elem with
  | some s => exact alone_iff hv ht
  | none =>
    simp only [Option.isNone_none, Option.getD_none]
    have hrest : (∀ c, v ≠ .core (.char c)) → (∀ c, v ≠ .core (.string c)) →
        (formatStr "{}".toList [v.farg t] = .ok () text ↔ Renders Written t v true [] text) := by
      intro h1 h2
      rw [show "{}".toList = ['{', '}'] from rfl, alone_plain_iff hv]
      exact ⟨fun h => renders_quoted h rfl h1 h2, fun h => renders_unquoted h (fun _ => rfl) h1 h2⟩
    cases hv with
    | @core a valid =>
      cases a with
      | char c => exact debug_iff valid (Or.inl rfl)
      | string c => exact debug_iff valid (Or.inr rfl)
      | _ => exact hrest (by simp) (by simp)
    | _ => exact hrest (by simp) (by simp)

/-! ### C53 ranges are rendered element by element -/

/-- A range is rendered as its elements, separated by `, `, between brackets unless `n` is given: `[...]` for sequences
and `{...}` for sets and maps. -/
theorem C53_range (curly n : Bool) (t : FTy) (elem : Option Str) (takes : Spec.Takes t (elem.getD [])) (vs : List FVal)
    (typed : ∀ v ∈ vs, HasType v t) (texts : List Str) (number : texts.length = vs.length)
    (each : ∀ (i : Nat) (v : FVal) (text : Str), vs[i]? = some v → texts[i]? = some text →
      formatStr (elementField t elem) [v.farg t] = .ok () text) :
    formatStr (fieldText (rangeSpec n elem)) [(FVal.range vs).farg (.range curly t)] =
      .ok () (bracketed n (if curly then "{".toList else "[".toList) (if curly then "}".toList else "]".toList)
        (", ".toList.intercalate texts)) := by
  refine (alone_iff (.range typed) (.range takes)).2 ?_
  have := Renders.range (R := Written) (curly := curly) (t := t) (vs := vs) (texts := texts) (q := false) (n := n)
    (elem := elem) number (fun i v text hv ht =>
      (element_iff (typed v (List.mem_of_getElem? hv)) takes).1 (each i v text hv ht))
  exact this

/-- Numbers in hexadecimal: the hypotheses are met. -/
example : formatStr "{:n:x}".toList [(FVal.range [.int 10, .int 255]).farg (.seq .int)] = .ok () "a, ff".toList := by
  refine C53_range false true .int (some "x".toList) ?_ [.int 10, .int 255] ?_ ["a".toList, "ff".toList] rfl ?_
  · exact Takes.core (sp := { type := some 'x' }) ⟨by simp, by simp, by simp, by simp, by simp, by simp, by simp⟩
      ⟨by decide, by decide⟩ ⟨⟨rfl, by simp [integerTypes]⟩, Or.inl rfl⟩
  · intro v hv
    simp only [List.mem_cons, List.not_mem_nil, or_false] at hv
    rcases hv with rfl | rfl <;> exact HasType.core ⟨by decide, by decide⟩
  · intro i v text hv ht
    rcases i with _ | _ | i
    · cases hv; cases ht; decide +kernel
    · cases hv; cases ht; decide +kernel
    · simp at hv

/-- Every range can be rendered, unless its elements cannot (see C22 for `O`). -/
theorem C53_range_total (curly n : Bool) (t : FTy) (elem : Option Str) (takes : Spec.Takes t (elem.getD []))
    (hO : 'O' ∉ elem.getD []) (vs : List FVal) (typed : ∀ v ∈ vs, HasType v t) :
    ∃ texts, texts.length = vs.length ∧
      (∀ (i : Nat) (v : FVal) (text : Str), vs[i]? = some v → texts[i]? = some text →
        formatStr (elementField t elem) [v.farg t] = .ok () text) ∧
      formatStr (fieldText (rangeSpec n elem)) [(FVal.range vs).farg (.range curly t)] =
        .ok () (bracketed n (if curly then "{".toList else "[".toList) (if curly then "}".toList else "]".toList)
          (", ".toList.intercalate texts)) := by
  rcases first_failing (P := fun i text => ∀ v, vs[i]? = some v → formatStr (elementField t elem) [v.farg t] = .ok () text)
    (Q := fun _ => False) vs.length (fun i hi => by
      left
      have hty := typed _ (List.getElem_mem hi)
      obtain ⟨text, h⟩ := value_renders hty takes hO (q := elem.isNone) (by cases elem <;> simp)
      refine ⟨text, fun v hv => ?_⟩
      rw [List.getElem?_eq_getElem hi] at hv
      cases hv
      exact (element_iff hty takes).2 h) with ⟨texts, h1, h2⟩ | ⟨_, _, h, _⟩
  · exact ⟨texts, h1, fun i v text hv ht => h2 i text ht v hv,
      C53_range curly n t elem takes vs typed texts h1 (fun i v text hv ht => h2 i text ht v hv)⟩
  · exact h.elim

/-- If one element cannot be formatted, the range cannot be formatted either. -/
theorem C53_range_needs_elements (curly n : Bool) (t : FTy) (elem : Option Str) (takes : Spec.Takes t (elem.getD []))
    (vs : List FVal) (typed : ∀ v ∈ vs, HasType v t) (text : Str)
    (h : formatStr (fieldText (rangeSpec n elem)) [(FVal.range vs).farg (.range curly t)] = .ok () text) :
    ∃ texts : List Str, texts.length = vs.length ∧
      (∀ (i : Nat) (v : FVal) (text : Str), vs[i]? = some v → texts[i]? = some text →
        formatStr (elementField t elem) [v.farg t] = .ok () text) := by
  have hr := (alone_iff (.range typed) (.range takes)).1 h
  obtain ⟨vs', texts, n', elem', e1, hs, hl, he, _⟩ := renders_range hr _ _ rfl
  cases e1
  obtain ⟨rfl, rfl⟩ := rangeSpec_inj hs
  exact ⟨texts, hl, fun i v s hv ht => (element_iff (typed v (List.mem_of_getElem? hv)) takes).2 (he i v s hv ht)⟩

/-- In a format string with any other text and fields, every field is replaced by what `{:spec}` makes of its argument,
and everything else is as it was.  (For arguments without tuples: see C54.) -/
theorem C53_in_format_string (t : FormatText) (args : List (FTy × FVal)) (texts : List Str) (suits : t.SuitsValues args)
    (alone : t.AloneTexts args texts) (noTuple : ∀ a ∈ args, NoTuple a.1) :
    formatStr t.text (args.map fun a => a.2.farg a.1) = .ok () (t.output texts) :=
  (values_format suits alone (fun _ _ _ _ ha hn => absurd (noTuple _ (List.mem_of_getElem? ha)) hn)).str

/-! ### C54 formatting a tuple leaves the rest of the format string alone -/

/-- A tuple or pair is rendered as its elements, separated by `, `, in parentheses unless `n` is given; a pair of a map
as key and value separated by `: `. -/
theorem C54_tuple (entry n : Bool) (ts : List FTy) (elem : Option Str) (takes : ∀ t ∈ ts, Spec.Takes t (elem.getD []))
    (nonempty : elem ≠ none → ts ≠ []) (vs : List FVal) (typed : HasType (.tuple vs) (.tuple entry ts))
    (texts : List Str) (number : texts.length = vs.length)
    (each : ∀ (i : Nat) (t : FTy) (v : FVal) (text : Str), ts[i]? = some t → vs[i]? = some v → texts[i]? = some text →
      formatStr (elementField t elem) [v.farg t] = .ok () text) :
    formatStr (fieldText (rangeSpec n elem)) [(FVal.tuple vs).farg (.tuple entry ts)] =
      .ok () (if entry then ": ".toList.intercalate texts
        else bracketed n "(".toList ")".toList (", ".toList.intercalate texts)) := by
  refine (alone_iff typed (.tuple takes nonempty)).2 ?_
  have hty : ∀ (i : Nat) (v : FVal) (t : FTy), vs[i]? = some v → ts[i]? = some t → HasType v t := by
    cases typed with
    | tuple _ each => exact each
  have hr : ∀ (i : Nat) (t : FTy) (v : FVal) (text : Str), ts[i]? = some t → vs[i]? = some v → texts[i]? = some text →
      Renders Written t v elem.isNone (elem.getD []) text := fun i t v text ht hv hx =>
    (element_iff (hty i v t hv ht) (takes t (List.mem_of_getElem? ht))).1 (each i t v text ht hv hx)
  cases entry with
  | true => exact Renders.entry number hr
  | false => exact Renders.tuple number hr

/-- A pair of strings: the hypotheses are met. -/
example : formatStr "{:}".toList [(FVal.tuple [.string "a", .int 1]).farg (.tuple false [.string, .int])] =
    .ok () "(\"a\", 1)".toList := by
  refine C54_tuple false false [.string, .int] none ?_ (by simp) [.string "a", .int 1] ?_ ["\"a\"".toList, "1".toList] rfl ?_
  · exact takes_nil_each _
  · refine HasType.tuple rfl ?_
    intro i v t hv ht
    rcases i with _ | _ | i
    · cases hv; cases ht; exact HasType.core ⟨by decide, by decide⟩
    · cases hv; cases ht; exact HasType.core ⟨by decide, by decide⟩
    · simp at hv
  · intro i t v text ht hv hx
    rcases i with _ | _ | i
    · cases hv; cases ht; cases hx; decide +kernel
    · cases hv; cases ht; cases hx; decide +kernel
    · simp at hv

/-- The property: every field is replaced by what `{:spec}` makes of its argument, and everything else is as it was. -/
def FieldsAreReplaced : Prop :=
  ∀ (t : FormatText) (args : List (FTy × FVal)) (texts : List Str), t.SuitsValues args → t.AloneTexts args texts →
    formatStr t.text (args.map fun a => a.2.farg a.1) = .ok () (t.output texts)

/-- A pair. -/
def aPair : FTy × FVal := (.tuple false [.int, .int], .tuple [.int 1, .int 2])

theorem aPair_typed : HasType aPair.2 aPair.1 := by
  refine HasType.tuple rfl ?_
  intro i v t hv ht
  rcases i with _ | _ | i
  · cases hv; cases ht; exact HasType.core ⟨by decide, by decide⟩
  · cases hv; cases ht; exact HasType.core ⟨by decide, by decide⟩
  · simp at hv

/-- `{}!` with a pair suits... -/
theorem aPair_suits : FormatText.SuitsValues ⟨[([], ⟨[], false, ['}']⟩)], ['!']⟩ [aPair] where
  number := by decide
  typed := by intro a ha; simp at ha; subst ha; exact aPair_typed
  digits := by intro f hf; simp [FormatText.fields] at hf; subst hf; simp
  mode := Or.inl (by intro f hf; simp [FormatText.fields] at hf; subst hf; rfl)
  arguments := by intro k; simp [FormatText.arguments, FormatText.fields, Field.argument]
  taken := by
    intro i f hf
    rcases i with _ | i
    · simp [FormatText.fields] at hf
      subst hf
      exact ⟨aPair, rfl, [], rfl, fun _ => rfl, takes_nil _⟩
    · simp [FormatText.fields] at hf

/-- ... but the exclamation mark is lost. -/
theorem C54_rest_is_lost_violated : ¬ FieldsAreReplaced := by
  intro h
  have := h _ _ ["(1, 2)".toList] aPair_suits ⟨rfl, by
    intro i f text hf ht
    rcases i with _ | i
    · simp [FormatText.fields] at hf
      subst hf; cases ht
      exact ⟨aPair, rfl, by decide +kernel⟩
    · simp [FormatText.fields] at hf⟩
  have h2 : formatStr "{}!".toList [aPair.2.farg aPair.1] = .ok () "(1, 2)".toList := by decide +kernel
  have h3 : formatStr "{}!".toList [aPair.2.farg aPair.1] = .ok () "(1, 2)!".toList := this
  rw [h2] at h3
  exact absurd (ok_inj h3).2 (by decide)

/-- The weaker property: formatting does not have undefined behaviour. -/
def ValuesHaveNoUndefinedBehaviour : Prop :=
  ∀ (t : FormatText) (args : List (FTy × FVal)), t.SuitsValues args → ∀ b,
    formatStr t.text (args.map fun a => a.2.farg a.1) ≠ .bad b

/-- It does not hold either: with `{}{}` and two pairs the second field is read from behind the format string. -/
theorem C54_undefined_behaviour_violated : ¬ ValuesHaveNoUndefinedBehaviour := by
  intro h
  refine h ⟨[([], ⟨[], false, ['}']⟩), ([], ⟨[], false, ['}']⟩)], []⟩ [aPair, aPair] ⟨by decide, ?_, ?_, ?_, ?_, ?_⟩ .ub
    (by decide +kernel)
  · intro a ha; simp at ha; subst ha; exact aPair_typed
  · intro f hf; simp [FormatText.fields] at hf; subst hf; simp
  · exact Or.inl (by intro f hf; simp [FormatText.fields] at hf; subst hf; rfl)
  · intro k; simp [FormatText.arguments, FormatText.fields, Field.argument]; omega
  · intro i f hf
    rcases i with _ | _ | i
    · simp [FormatText.fields] at hf
      subst hf
      exact ⟨aPair, rfl, [], rfl, fun _ => rfl, takes_nil _⟩
    · simp [FormatText.fields] at hf
      subst hf
      exact ⟨aPair, rfl, [], rfl, fun _ => rfl, takes_nil _⟩
    · simp [FormatText.fields] at hf

/-- It holds if arguments with tuples are used at the very end of the format string only. -/
theorem C54_last_field_partial (t : FormatText) (args : List (FTy × FVal)) (texts : List Str) (suits : t.SuitsValues args)
    (alone : t.AloneTexts args texts) (last : t.TuplesLast args) :
    formatStr t.text (args.map fun a => a.2.farg a.1) = .ok () (t.output texts) :=
  (values_format suits alone last).str

/-- `!{}`. -/
example : formatStr "!{}".toList [aPair.2.farg aPair.1] = .ok () "!(1, 2)".toList := by
  refine C54_last_field_partial ⟨[(['!'], ⟨[], false, ['}']⟩)], []⟩ [aPair] ["(1, 2)".toList] ?_ ?_ ?_
  · refine ⟨by decide, ?_, ?_, ?_, ?_, ?_⟩
    · intro a ha; simp at ha; subst ha; exact aPair_typed
    · intro f hf; simp [FormatText.fields] at hf; subst hf; simp
    · exact Or.inl (by intro f hf; simp [FormatText.fields] at hf; subst hf; rfl)
    · intro k; simp [FormatText.arguments, FormatText.fields, Field.argument]
    · intro i f hf
      rcases i with _ | i
      · simp [FormatText.fields] at hf
        subst hf
        exact ⟨aPair, rfl, [], rfl, fun _ => rfl, takes_nil _⟩
      · simp [FormatText.fields] at hf
  · refine ⟨rfl, ?_⟩
    intro i f text hf ht
    rcases i with _ | i
    · simp [FormatText.fields] at hf
      subst hf; cases ht
      exact ⟨aPair, rfl, by decide +kernel⟩
    · simp [FormatText.fields] at hf
  · intro i f a hf _ _
    rcases i with _ | i
    · exact ⟨rfl, rfl⟩
    · simp [FormatText.fields] at hf

/-! ### C55 optional and variant render their content -/

/-- An optional value is rendered as `optional(...)` around what the same specification makes of its content. -/
theorem C55_optional_some (t : FTy) (s : Str) (takes : Spec.Takes t s) (v : FVal) (typed : HasType v t) (text : Str)
    (content : formatStr (fieldText s) [v.farg t] = .ok () text) :
    formatStr (fieldText s) [(FVal.some v).farg (.optional t)] = .ok () ("optional(".toList ++ text ++ ")".toList) :=
  (alone_iff (.some typed) (.optional takes)).2 (.some ((alone_iff typed takes).1 content))

/-- An empty optional value is rendered as `none`. -/
theorem C55_optional_none (t : FTy) (s : Str) (takes : Spec.Takes t s) :
    formatStr (fieldText s) [FVal.none.farg (.optional t)] = .ok () "none".toList :=
  (alone_iff .none (.optional takes)).2 .none

/-- An optional value cannot be formatted if its content cannot. -/
theorem C55_optional_needs_content (t : FTy) (s : Str) (takes : Spec.Takes t s) (v : FVal) (typed : HasType v t)
    (text : Str) (h : formatStr (fieldText s) [(FVal.some v).farg (.optional t)] = .ok () text) :
    ∃ text, formatStr (fieldText s) [v.farg t] = .ok () text := by
  have := (alone_iff (.some typed) (.optional takes)).1 h
  generalize false = q at this
  cases this with
  | some content => exact ⟨_, (alone_iff typed takes).2 content⟩

/-- `std::monostate`. -/
theorem C55_monostate : formatStr "{}".toList [FVal.monostate.farg .monostate] = .ok () "monostate".toList := by
  decide +kernel

/-- A variant is rendered as `variant(...)` around what is made of the current alternative; characters and strings are
quoted. -/
theorem C55_variant (ts : List FTy) (t : FTy) (mem : t ∈ ts) (v : FVal) (typed : HasType v t) (text : Str)
    (content : formatStr (elementField t none) [v.farg t] = .ok () text) :
    formatStr "{}".toList [(FVal.variant t v).farg (.variant ts)] = .ok () ("variant(".toList ++ text ++ ")".toList) :=
  (alone_plain_iff (.variant mem typed)).2 (.variant mem ((element_iff (elem := none) typed (takes_nil t)).1 content))

/-- A variant can always be formatted. -/
theorem C55_variant_total (ts : List FTy) (t : FTy) (mem : t ∈ ts) (v : FVal) (typed : HasType v t) :
    ∃ text, formatStr (elementField t none) [v.farg t] = .ok () text ∧
      formatStr "{}".toList [(FVal.variant t v).farg (.variant ts)] = .ok () ("variant(".toList ++ text ++ ")".toList) := by
  obtain ⟨text, h⟩ := value_renders typed (takes_nil t) (by simp) (q := true) (fun _ => rfl)
  have h' := (element_iff (elem := none) typed (takes_nil t)).2 h
  exact ⟨text, h', C55_variant ts t mem v typed text h'⟩

/-- A variant without a value. -/
theorem C55_valueless (ts : List FTy) : formatStr "{}".toList [FVal.valueless.farg (.variant ts)] =
    .ok () "variant(valueless by exception)".toList :=
  (alone_plain_iff .valueless).2 .valueless

/-- A variant that holds a tuple. -/
example : formatStr "{}".toList [(FVal.variant aPair.1 aPair.2).farg (.variant [.int, aPair.1])] =
    .ok () "variant((1, 2))".toList :=
  C55_variant _ _ (by simp) _ aPair_typed "(1, 2)".toList (by decide +kernel)

/-! ### C61 accepted format strings succeed for all values without tuples -/

/-- The values as the parser sees them. -/
def vargs (args : List (FTy × FVal)) : List FArg := args.map fun a => a.2.farg a.1

theorem vargs_tame {args : List (FTy × FVal)} (hn : ∀ a ∈ args, NoTuple a.1) : ∀ a ∈ vargs args, a.Tame := by
  intro a ha
  obtain ⟨c, hc, rfl⟩ := List.mem_map.1 ha
  exact value_tame (hn c hc) c.2

theorem vargs_sound {args : List (FTy × FVal)} (hn : ∀ a ∈ args, NoTuple a.1) (hv : ∀ a ∈ args, HasType a.2 a.1)
    (str : Str) : ∀ a ∈ vargs args, a.Sound str 1421 ('O' ∈ str) := by
  intro a ha
  obtain ⟨c, hc, rfl⟩ := List.mem_map.1 ha
  exact value_sound (hn c hc) (hv c hc) str

/-- Validating always comes to a result. -/
theorem C61_validation_total (str : Str) (args : List (FTy × FVal)) (hlen : args.length ≤ 128)
    (hn : ∀ a ∈ args, NoTuple a.1) : ∃ b, validateStr str (vargs args) = .ok () b := by
  refine loop_total _ (fun a h => (vargs_tame hn a h).forward) (by simpa [vargs] using hlen) (str.length + 1) ⟨Reader.ofStr str, none, 0⟩
    (Bitset.new 128) [] (Bitset.rep_new 128) rfl (Reader.at_ofStr _).1 ?_
  rw [(Reader.at_ofStr str).2]
  simp

/-- Any accepted string without the letter `O` can be formatted. -/
theorem C61_accepted_succeeds_partial (str : Str) (args : List (FTy × FVal)) (hn : ∀ a ∈ args, NoTuple a.1)
    (hv : ∀ a ∈ args, HasType a.2 a.1) (hO : 'O' ∉ str) (h : validateStr str (vargs args) = .ok () true) :
    ∃ text, formatStr str (vargs args) = .ok () text := by
  obtain ⟨ops, h1, h2⟩ := formatTo_sound (vargs_sound hn hv str) (vargs_tame hn) h
  rcases h2 with h2 | ⟨hE, _⟩
  · have : Formats str (vargs args) (render ops) 1421 := ⟨ops, rfl, h1, h2⟩
    exact ⟨_, this.str⟩
  · exact absurd hE hO

theorem vargs_defined {str : Str} {args : List (FTy × FVal)} (hlen : args.length ≤ 128) (hn : ∀ a ∈ args, NoTuple a.1)
    (hv : ∀ a ∈ args, HasType a.2 a.1) {σ : Type} [BufferImpl σ] (L : Lawful σ) {s : σ} {t : Str} (hr : L.Rep s t) :
    (∃ s' p, formatTo str (vargs args) s = .ok s' () ∧ L.Rep s' (t ++ p)) ∨
    (∃ s' e p, formatTo str (vargs args) s = .err s' e ∧ L.Fail s' (t ++ p)) := by
  obtain ⟨b, hb⟩ := C61_validation_total str args hlen hn
  cases b with
  | false =>
    by_cases hp : (vargs args).length = 0 ∧ checkIfPlainString str = true
    · have h0 : vargs args = [] := List.eq_nil_of_length_eq_zero hp.1
      rw [h0, plain_validates str hp.2] at hb
      cases hb
    · right
      refine ⟨s, .invalidFormat, [], ?_, by simpa using L.rep_fail s t hr⟩
      unfold formatTo VStr.make
      rw [if_neg hp, hb]
      rfl
  | true =>
    obtain ⟨ops, h1, h2⟩ := formatTo_sound (vargs_sound hn hv str) (vargs_tame hn) hb
    have hw := execAll_wrote L ops (fun op ho => (h1 op ho).1) s t hr
    rcases h2 with h2 | ⟨_, e, _, h2⟩
    · rw [h2]
      cases hx : execAll ops s with
      | ok s' u => rw [hx] at hw; exact Or.inl ⟨s', _, rfl, hw⟩
      | err s' e =>
        rw [hx] at hw
        obtain ⟨_, p, _, hf⟩ := hw
        exact Or.inr ⟨s', e, p, rfl, hf⟩
      | bad b => rw [hx] at hw; exact hw.elim
    · rw [h2]
      cases hx : execAll ops s with
      | ok s' u =>
        rw [hx] at hw
        exact Or.inr ⟨s', e, _, by rw [M.bind_ok hx]; rfl, L.rep_fail _ _ hw⟩
      | err s' e' =>
        rw [hx] at hw
        obtain ⟨_, p, _, hf⟩ := hw
        exact Or.inr ⟨s', e', p, by rw [M.bind_err hx], hf⟩
      | bad b => rw [hx] at hw; exact hw.elim

/-- Whatever the string is: formatting has no undefined behaviour and does not run for ever, on a memory buffer with any
past and on a span buffer with any past; in either case the buffer keeps what it had. -/
theorem C61_no_undefined_behaviour_partial (str : Str) (args : List (FTy × FVal)) (hlen : args.length ≤ 128)
    (hn : ∀ a ∈ args, NoTuple a.1) (hv : ∀ a ∈ args, HasType a.2 a.1) :
    (∀ (n : Nat) (s : MemBuf) (t : Str), MemReach n s t → ∃ s', (formatTo str (vargs args) s).state? = some s' ∧
      t <+: s'.view) ∧
    (∀ (mem : Str) (ops : List ClientOp) (s : SpanBuf) (t : Str),
      client spanReset ops (SpanBuf.new mem, []) = some (s, t) →
      ∃ s', (formatTo str (vargs args) s).state? = some s' ∧ t <+: s'.view) := by
  constructor
  · intro n s t h
    rcases vargs_defined hlen hn hv (MemBuf.lawful n) h.rep with ⟨s', p, h1, h2⟩ | ⟨s', e, p, h1, h2⟩
    all_goals
      refine ⟨s', by rw [h1]; rfl, ?_⟩
      have : s'.view = t ++ p := h2.2.2.2.2.2.2.2
      rw [this]
      exact List.prefix_append _ _
  · intro mem ops s t h
    rcases vargs_defined hlen hn hv (SpanBuf.lawful mem.length) (span_reach h) with ⟨s', p, h1, h2⟩ | ⟨s', e, p, h1, h2⟩
    all_goals
      refine ⟨s', by rw [h1]; rfl, ?_⟩
      have : s'.view = t ++ p := h2.2.2.2.2.2
      rw [this]
      exact List.prefix_append _ _

/-- A sequence of sequences: the hypotheses are met. -/
example : ∃ text, formatStr "<{:n::x}>".toList (vargs [(.seq (.seq .int), .range [.range [.int 10], .range []])]) = .ok () text :=
  C61_accepted_succeeds_partial _ _ (by simp [NoTuple, FTy.seq, FTy.int]) (by
    intro a ha
    simp only [List.mem_cons, List.not_mem_nil, or_false] at ha
    subst ha
    refine HasType.range (fun v hv => ?_)
    simp only [List.mem_cons, List.not_mem_nil, or_false] at hv
    rcases hv with rfl | rfl
    · refine HasType.range (fun v hv => ?_)
      simp only [List.mem_cons, List.not_mem_nil, or_false] at hv
      subst hv
      exact HasType.core ⟨by decide, by decide⟩
    · exact HasType.range (by simp)) (by decide) (by decide +kernel)

end Emio
