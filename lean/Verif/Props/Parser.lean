import Verif.Lemmas.Numerals
import Verif.Lemmas.FormatApi
/-
Properties C22 to C26: format strings.

`CoreArg` are the values arguments of core types are stored as; `farg` is how the parser sees one.  `formatStr` is
`emio::format`.
-/
namespace Emio
open Spec BufferImpl

/-- The arguments as the parser sees them. -/
def fargs (args : List CoreArg) : List FArg := args.map CoreArg.farg


theorem fargs_tame (args : List CoreArg) : ∀ a ∈ fargs args, a.Tame := by
  intro a ha
  obtain ⟨c, _, rfl⟩ := List.mem_map.1 ha
  exact core_tame c

theorem fargs_sound {args : List CoreArg} (str : Str) (hv : ∀ a ∈ args, ValidArg a) :
    ∀ a ∈ fargs args, a.Sound str 1421 ('O' ∈ str) := by
  intro a ha
  obtain ⟨c, hc, rfl⟩ := List.mem_map.1 ha
  exact core_sound c str (hv c hc) fun r r' s _ hr h1 h2 => needs_any c s (specs_ok hr h1) h2

theorem invalid_formatTo {str : Str} {args : List FArg} (h : validateStr str args = .ok () false)
    (hp : ¬ (args.length = 0 ∧ checkIfPlainString str = true)) {σ : Type} [BufferImpl σ] (s : σ) :
    formatTo str args s = .err s .invalidFormat := by
  unfold formatTo VStr.make
  rw [if_neg hp, h]
  rfl

/-! ### C22 an accepted format string is processed without error or undefined behaviour -/

/-- Validating a format string always comes to a result, whatever the string and the (at most 128) arguments are. -/
theorem C22_validation_total (str : Str) (args : List CoreArg) (hn : args.length ≤ 128) :
    ∃ b, validateStr str (fargs args) = .ok () b := by
  refine loop_total _ (fun a h => (fargs_tame args a h).forward) (by simpa [fargs] using hn) (str.length + 1) ⟨Reader.ofStr str, none, 0⟩
    (Bitset.new 128) [] (Bitset.rep_new 128) rfl (Reader.at_ofStr _).1 ?_
  rw [(Reader.at_ofStr str).2]
  simp

/-- The property for `format`. -/
def AcceptedFormatsSucceed : Prop :=
  ∀ (str : Str) (args : List CoreArg), (∀ a ∈ args, ValidArg a) → validateStr str (fargs args) = .ok () true →
    ∃ text, formatStr str (fargs args) = .ok () text

/-- It does not hold: `{:O}` is accepted for integers, but cannot be formatted. -/
theorem C22_octal_violated : ¬ AcceptedFormatsSucceed := by
  intro h
  obtain ⟨text, ht⟩ := h "{:O}".toList [.int i32 1] (by simp [ValidArg]; decide) (by decide +kernel)
  have : (formatStr "{:O}".toList (fargs [.int i32 1])).err? = some .invalidFormat := by decide +kernel
  rw [ht] at this
  simp [Run.err?] at this

theorem formats_of_accepted {str : Str} {args : List CoreArg} (hv : ∀ a ∈ args, ValidArg a)
    (hO : 'O' ∉ str) (h : validateStr str (fargs args) = .ok () true) : ∃ text, Formats str (fargs args) text 1421 := by
  obtain ⟨ops, h1, h2⟩ := formatTo_sound (fargs_sound str hv) (fargs_tame args) h
  rcases h2 with h2 | ⟨hE, _⟩
  · exact ⟨render ops, ops, rfl, h1, h2⟩
  · exact absurd hE hO

/-- Without the letter `O` in the format string it holds. -/
theorem C22_accepted_formats_succeed_partial (str : Str) (args : List CoreArg) (hv : ∀ a ∈ args, ValidArg a)
    (hO : 'O' ∉ str) (h : validateStr str (fargs args) = .ok () true) :
    ∃ text, formatStr str (fargs args) = .ok () text := by
  obtain ⟨text, hf⟩ := formats_of_accepted hv hO h
  exact ⟨text, hf.str⟩

theorem plain_validates (str : Str) (h : checkIfPlainString str = true) : validateStr str [] = .ok () true := by
  have hp := (plain_iff str).1 h
  have ht : FormatText.text ⟨[], str⟩ = str := by
    simp [FormatText.text, escBraces_plain hp.1 hp.2]
  obtain ⟨⟨b, hb, hb'⟩, _⟩ := loop_forward [] (by simp) 0 str [] [] (str.length + 1)
    ⟨Reader.ofStr str, none, 0⟩ (Bitset.new 128) [] [] (Bitset.rep_new 128) rfl
    (by rw [show segsText [] ++ escBraces str = str by simp [segsText, escBraces_plain hp.1 hp.2]]; exact Reader.at_ofStr _)
    (by simp) (by simp) (modeOk_nil _) (by simp) (by simp [argsFrom]) (by simp [ReadsAll])
  have : b = true := hb'.2 (by simp)
  subst this
  exact hb

/-- Formatting on any buffer: no undefined behaviour, whatever the format string is; the error is end of file or
invalid format, and a rejected format string leaves the buffer alone. -/
theorem formatTo_defined {str : Str} {args : List CoreArg} (hn : args.length ≤ 128) (hv : ∀ a ∈ args, ValidArg a)
    {σ : Type} [BufferImpl σ] (L : Lawful σ) {s : σ} {t : Str} (hr : L.Rep s t) :
    (∃ s' p, formatTo str (fargs args) s = .ok s' () ∧ L.Rep s' (t ++ p)) ∨
    (∃ s' e p, formatTo str (fargs args) s = .err s' e ∧ L.Fail s' (t ++ p)) := by
  obtain ⟨b, hb⟩ := C22_validation_total str args hn
  cases b with
  | false =>
    by_cases hp : (fargs args).length = 0 ∧ checkIfPlainString str = true
    · have h0 : fargs args = [] := List.eq_nil_of_length_eq_zero hp.1
      rw [h0, plain_validates str hp.2] at hb
      cases hb
    · right
      exact ⟨s, .invalidFormat, [], invalid_formatTo hb hp s, by simpa using L.rep_fail s t hr⟩
  | true =>
    obtain ⟨ops, h1, h2⟩ := formatTo_sound (fargs_sound str hv) (fargs_tame args) hb
    have hw := execAll_wrote L ops (fun op ho => (h1 op ho).1) s t hr
    rcases h2 with h2 | ⟨_, e, _, h2⟩
    · rw [h2]
      cases hx : execAll ops s with
      | ok s' u => rw [hx] at hw; exact Or.inl ⟨s', _, rfl, hw⟩
      | err s' e =>
        rw [hx] at hw
        obtain ⟨_, p, _, hf⟩ := hw
        exact Or.inr ⟨s', e, p, rfl, hf⟩
      | bad b => rw [hx] at hw; exact hw.elim
    · rw [h2]
      cases hx : execAll ops s with
      | ok s' u =>
        rw [hx] at hw
        exact Or.inr ⟨s', e, _, by rw [M.bind_ok hx]; rfl, L.rep_fail _ _ hw⟩
      | err s' e' =>
        rw [hx] at hw
        obtain ⟨_, p, _, hf⟩ := hw
        exact Or.inr ⟨s', e', p, by rw [M.bind_err hx], hf⟩
      | bad b => rw [hx] at hw; exact hw.elim

/-- Even with the letter `O`, and whether accepted or not: formatting has no undefined behaviour and does not run for
ever, on a memory buffer with any past and on a span buffer with any past; in either case the buffer keeps what it
had. -/
theorem C22_no_undefined_behaviour_partial (str : Str) (args : List CoreArg) (hn : args.length ≤ 128)
    (hv : ∀ a ∈ args, ValidArg a) :
    (∀ (n : Nat) (s : MemBuf) (t : Str), MemReach n s t → ∃ s', (formatTo str (fargs args) s).state? = some s' ∧
      t <+: s'.view) ∧
    (∀ (mem : Str) (ops : List ClientOp) (s : SpanBuf) (t : Str),
      client spanReset ops (SpanBuf.new mem, []) = some (s, t) →
      ∃ s', (formatTo str (fargs args) s).state? = some s' ∧ t <+: s'.view) := by
  constructor
  · intro n s t h
    rcases formatTo_defined hn hv (MemBuf.lawful n) h.rep with ⟨s', p, h1, h2⟩ | ⟨s', e, p, h1, h2⟩
    all_goals
      refine ⟨s', by rw [h1]; rfl, ?_⟩
      have : s'.view = t ++ p := h2.2.2.2.2.2.2.2
      rw [this]
      exact List.prefix_append _ _
  · intro mem ops s t h
    rcases formatTo_defined hn hv (SpanBuf.lawful mem.length) (span_reach h) with ⟨s', p, h1, h2⟩ | ⟨s', e, p, h1, h2⟩
    all_goals
      refine ⟨s', by rw [h1]; rfl, ?_⟩
      have : s'.view = t ++ p := h2.2.2.2.2.2
      rw [this]
      exact List.prefix_append _ _

/-- A rejected format string is invalid format, on every buffer, and nothing is written. -/
theorem C22_rejected_is_invalid_format (str : Str) (args : List CoreArg)
    (h : validateStr str (fargs args) = .ok () false) :
    formatStr str (fargs args) = .err () .invalidFormat ∧
    ∀ {σ : Type} [BufferImpl σ] (s : σ), formatTo str (fargs args) s = .err s .invalidFormat := by
  have hp : ¬ ((fargs args).length = 0 ∧ checkIfPlainString str = true) := by
    intro hp
    have h0 : fargs args = [] := List.eq_nil_of_length_eq_zero hp.1
    rw [h0, plain_validates str hp.2] at h
    cases h
  refine ⟨?_, fun s => invalid_formatTo h hp s⟩
  obtain ⟨s0, a, h0, _⟩ := MemBuf.rep_new defaultCacheSize 0
  unfold formatStr
  rw [h0]
  simp only
  rw [invalid_formatTo h hp]

example : (∀ a ∈ [CoreArg.int i32 (-5), .string "x{".toList], ValidArg a) ∧
    validateStr "a{{{1:>4}}}b{0:+#x}".toList (fargs [CoreArg.int i32 (-5), .string "x{".toList]) = .ok () true := by
  refine ⟨?_, by decide +kernel⟩
  simp [ValidArg]
  decide +kernel

example : validateStr "a{".toList (fargs []) = .ok () false := by decide +kernel

/-! ### C23 every argument is used and every index is in range -/

/-- The property: an accepted format string consists of literal text and replacement fields that refer to exactly the
given arguments, with automatic or with explicit numbers. -/
def AcceptedUsesArguments : Prop :=
  ∀ (str : Str) (args : List CoreArg), args.length ≤ 128 → validateStr str (fargs args) = .ok () true →
    ∃ t : FormatText, str = t.text ∧ (∀ f ∈ t.fields, f.WellFormed) ∧ (t.Automatic ∨ t.Explicit) ∧
      ∀ k, k ∈ t.arguments ↔ k < args.length

/-- A format string with a field for argument number 255. -/
def Mentions255 (str : Str) : Prop :=
  ∃ before ds after, str = before ++ '{' :: (ds ++ after) ∧ ds ≠ [] ∧ (∀ c ∈ ds, c.isDigit) ∧ numeralValue 10 ds = 255

/-- It does not hold: for no arguments, `{255}` is accepted. -/
theorem C23_argument_255_violated : ¬ AcceptedUsesArguments := by
  intro h
  obtain ⟨t, h1, h2, h3, h4⟩ := h "{255}".toList [] (by simp) (by decide +kernel)
  cases hs : t.segs with
  | nil =>
    have : escBraces t.last = "{255}".toList := by rw [h1]; simp [FormatText.text, hs]
    cases hl : t.last with
    | nil => rw [hl] at this; simp [escBraces] at this
    | cons c l =>
      rw [hl, escBraces_cons] at this
      split at this
      · simp at this
      · split at this <;> simp_all
  | cons s ss =>
    have : Field.argument 0 s.2 ∈ t.arguments := by
      simp [FormatText.arguments, FormatText.fields, hs]
    rw [h4] at this
    simp at this

/-- What holds for every accepted format string: it consists of literal text and replacement fields that refer to
exactly the given arguments, with automatic or with explicit numbers; anything behind it begins with a field for argument
255, and then the fields in front have explicit numbers. -/
theorem C23_accepted_strings_partial (str : Str) (args : List CoreArg) (hv : validateStr str (fargs args) = .ok () true) :
    ∃ (t : FormatText) (tail : Str), str = t.text ++ tail ∧ (∀ f ∈ t.fields, f.WellFormed) ∧ (t.Automatic ∨ t.Explicit) ∧
      (∀ k, k ∈ t.arguments ↔ k < args.length) ∧ (tail = [] ∨ Begins255 tail ∧ t.Explicit) := by
  obtain ⟨t, tail, g1, g2, g3, g4, g5, g6, g7⟩ := loop_backward _ (fargs_tame args) (str.length + 1)
    ⟨Reader.ofStr str, none, 0⟩ (Bitset.new 128) [] (Bitset.rep_new 128) rfl (Reader.at_ofStr _).1 (by simp) hv
  refine ⟨t, tail, by rw [← g1]; exact (Reader.at_ofStr _).2.symm, g2, ?_, fun k => ?_, g7.imp id fun h => ⟨h.1, h.2.1⟩⟩
  · rcases g3 with ⟨h, _⟩ | ⟨h, _⟩
    · exact Or.inl h
    · exact Or.inr h
  · rw [argsFrom_eq]
    simp only [fargs, List.length_map, List.not_mem_nil, false_or] at g4 g5
    exact ⟨g4 k, g5 k⟩

theorem mentions_of_begins {a tail : Str} (h : Begins255 tail) : Mentions255 (a ++ tail) := by
  obtain ⟨ds, c, rest, h, hne, hd, hval, _⟩ := h
  exact ⟨a, ds, c :: rest, by rw [h], hne, hd, hval⟩

/-- Unless a field asks for argument 255 the property holds. -/
theorem C23_accepted_uses_arguments_partial (str : Str) (args : List CoreArg) (h255 : ¬ Mentions255 str)
    (hv : validateStr str (fargs args) = .ok () true) :
    ∃ t : FormatText, str = t.text ∧ (∀ f ∈ t.fields, f.WellFormed) ∧ (t.Automatic ∨ t.Explicit) ∧
      ∀ k, k ∈ t.arguments ↔ k < args.length := by
  obtain ⟨t, tail, rfl, g2, g3, g4, g5⟩ := C23_accepted_strings_partial str args hv
  rcases g5 with rfl | ⟨h, _⟩
  · exact ⟨t, by simp, g2, g3, g4⟩
  · exact absurd (mentions_of_begins h) h255

example : Begins255 "{255}{".toList ∧ Begins255 "{00255:".toList ∧
    validateStr "a{0}{255}{".toList (fargs [.int i32 5]) = .ok () true ∧
    validateStr "a{}{255}{".toList (fargs [.int i32 5]) = .ok () false :=
  ⟨⟨"255".toList, '}', ['{'], by decide +kernel⟩, ⟨"00255".toList, ':', [], by decide +kernel⟩, by decide +kernel,
    by decide +kernel⟩

example : ¬ Mentions255 "{:x}".toList ∧ validateStr "{:x}".toList (fargs [.int i32 5]) = .ok () true := by
  refine ⟨?_, by decide +kernel⟩
  rintro ⟨before, ds, after, h, hne, hd, _⟩
  have hl := congrArg List.length h
  simp at hl
  cases ds with
  | nil => exact hne rfl
  | cons c ds =>
    have hc : c ∈ "{:x}".toList := by rw [h]; simp
    have := hd c (by simp)
    simp at hc
    rcases hc with rfl | rfl | rfl | rfl <;> revert this <;> decide

/-- Rejected: an unused argument, a missing argument, mixed numbering. -/
example : validateStr "{0}".toList (fargs [.int i32 5, .int i32 6]) = .ok () false ∧
    validateStr "{}{}".toList (fargs [.int i32 5]) = .ok () false ∧
    validateStr "{0}{}".toList (fargs [.int i32 5, .int i32 6]) = .ok () false := by decide +kernel

/-! ### C24 literal text is reproduced exactly -/

/-- The text of a template with suitable arguments is formatted to its literal text with the fields replaced by the text
specified for their arguments. -/
theorem C24_output_partial (t : Template) (args : List CoreArg) (texts : List Str) (suits : t.Suits args)
    (hv : ∀ a ∈ args, ValidArg a) (ht : t.Texts args texts)
    (hd : ∀ x ∈ t.format.arguments.zip t.segs, ∀ a, args[x.1]? = some a → ¬ Deviates a x.2.2.specs) :
    formatStr t.text (fargs args) = .ok () (t.output texts) :=
  (formats_template t args texts suits hv ht hd).str

theorem hole_reads_some (a : CoreArg) (h : Hole) (hg : ∀ sp ∈ h.spec, sp.WellFormed ∧ sp.Fits)
    (hal : CoreTy.Allows a.ty (h.spec.getD {})) (ha : ValidArg a) (hO : ¬ OctalO a h.specs) :
    ∃ text, a.farg.Reads h.field.body text 1421 := by
  have hwf : (h.spec.getD {}).WellFormed ∧ (h.spec.getD {}).Fits := by
    cases hs : h.spec with
    | none => exact noSpec_ok
    | some sp => exact hg sp hs
  have hb : h.field.body = (h.spec.getD {}).text ++ ['}'] := by
    unfold Hole.field
    cases hs : h.spec <;> rfl
  rw [hb]
  have hc := (allows_iff a.ty hwf.1).2 hal
  obtain ⟨text, he⟩ := core_emits_some a _ (meaning_ok hwf.2) ha hc hO (needs_any a _ (meaning_ok hwf.2) hc)
  exact ⟨text, core_reads a _ hwf.1 hwf.2 hc he⟩

theorem field_wellFormed {h : Hole} (hd : ∀ c ∈ h.idx, c.isDigit) : h.field.WellFormed := by
  refine ⟨hd, fun hcol => ?_⟩
  unfold Hole.field at hcol ⊢
  simp only at hcol ⊢
  cases hsp : h.spec with
  | none => rfl
  | some sp => rw [hsp] at hcol; simp at hcol

/-- A field on its own. -/
theorem formats_single {a : FArg} {spec : Option SpecText} {text : Str} {k : Nat}
    (h : a.Reads (Hole.field ⟨[], spec⟩).body text k) : Formats (Template.single spec).text [a] text k := by
  have := formats_text (Template.single spec).format [a] [text] k (by simp)
    (fun f hf => by
      rw [template_fields] at hf
      simp only [Template.single, List.map_cons, List.map_nil, List.mem_singleton] at hf
      subst hf
      exact field_wellFormed (by simp))
    (Or.inl (by
      intro f hf
      rw [template_fields] at hf
      simp only [Template.single, List.map_cons, List.map_nil, List.mem_singleton] at hf
      subst hf
      rfl))
    (fun k => by
      simp [FormatText.arguments, template_fields, Template.single, Field.argument, Hole.field])
    (by
      rw [template_fields]
      refine ⟨⟨a, ?_, h⟩, trivial⟩
      simp [Field.argument, Hole.field])
  have he : (Template.single spec).format.output [text] = text := by
    simp [Template.format, Template.single, FormatText.output]
  rw [he] at this
  exact this

theorem exists_texts (P : Nat × (Str × Hole) → Str → Prop) : ∀ (l : List (Nat × (Str × Hole))),
    (∀ x ∈ l, ∃ text, P x text) → ∃ texts : List Str, texts.length = l.length ∧ ∀ y ∈ l.zip texts, P y.1 y.2 := by
  intro l
  induction l with
  | nil => intro _; exact ⟨[], rfl, by simp⟩
  | cons x l ih =>
    intro h
    obtain ⟨text, ht⟩ := h x (by simp)
    obtain ⟨texts, h1, h2⟩ := ih (fun y hy => h y (by simp [hy]))
    refine ⟨text :: texts, by simp [h1], ?_⟩
    simp only [List.zip_cons_cons, List.mem_cons, forall_eq_or_imp]
    exact ⟨ht, h2⟩

theorem arguments_length (t : Template) : t.format.arguments.length = t.segs.length := by
  simp [FormatText.arguments, template_fields]

theorem readsAll_template {t : Template} {args : List FArg} {texts : List Str} {k : Nat}
    (hl : texts.length = t.segs.length)
    (h : ∀ y ∈ (t.format.arguments.zip t.segs).zip texts, ∃ a, args[y.1.1]? = some a ∧ a.Reads y.1.2.2.field.body y.2 k) :
    ReadsAll args k 0 t.format.fields texts := by
  apply readsAll_of
  · rw [template_fields]; simpa using hl
  · rw [← argsFrom_eq, template_fields, zip_map_snd]
    intro x hx
    rw [List.zip_map_left, List.mem_map] at hx
    obtain ⟨y, hy, rfl⟩ := hx
    exact h y hy

/-- The fields of a template do not influence each other or the literal text: the result is the literal text with the
fields replaced by what formatting each of them alone yields. -/
theorem C24_fields_are_independent_partial (t : Template) (args : List CoreArg) (suits : t.Suits args)
    (hv : ∀ a ∈ args, ValidArg a)
    (hO : ∀ x ∈ t.format.arguments.zip t.segs, ∀ a, args[x.1]? = some a → ¬ OctalO a x.2.2.specs) :
    ∃ texts, texts.length = t.segs.length ∧
      (∀ y ∈ (t.format.arguments.zip t.segs).zip texts, ∃ a, args[y.1.1]? = some a ∧
        formatStr (Template.single y.1.2.2.spec).text [a.farg] = .ok () y.2) ∧
      formatStr t.text (fargs args) = .ok () (t.output texts) := by
  obtain ⟨texts, h1, h2⟩ := exists_texts (fun x text => ∃ a, args[x.1]? = some a ∧ a.farg.Reads x.2.2.field.body text 1421)
    (t.format.arguments.zip t.segs) (fun x hx => by
      obtain ⟨a, ha, hal⟩ := suits.allowed x hx
      obtain ⟨text, ht⟩ := hole_reads_some a x.2.2 (suits.grammar x.2 (mem_zip_of hx).2) hal
        (hv a (List.mem_of_getElem? ha)) (hO x hx a ha)
      exact ⟨text, a, ha, ht⟩)
  have hl : texts.length = t.segs.length := by
    rw [h1, List.length_zip, arguments_length]; simp
  refine ⟨texts, hl, fun y hy => ?_, ?_⟩
  · obtain ⟨a, ha, hr⟩ := h2 y hy
    refine ⟨a, ha, (formats_single (k := 1421) ?_).str⟩
    exact hr
  · refine (formats_text t.format (fargs args) texts 1421 (by simpa [fargs] using suits.number) ?_ suits.mode
      (by simpa [fargs] using suits.arguments) (readsAll_template hl fun y hy => ?_)).str
    · intro f hf
      rw [template_fields, List.mem_map] at hf
      obtain ⟨s, hs, rfl⟩ := hf
      exact field_wellFormed (suits.digits s hs)
    · obtain ⟨a, ha, hr⟩ := h2 y hy
      exact ⟨a.farg, by simp [fargs, ha], hr⟩

/-- Only templates with suitable arguments are accepted, perhaps with ignored text behind, which begins with a field
for argument number 255 (see C23): no format string is left out by the theorems above, except those with widths or
precisions of 2^31 or more (see C29). -/
theorem C24_only_templates_are_accepted (str : Str) (args : List CoreArg) (hn : args.length ≤ 128)
    (hv : validateStr str (fargs args) = .ok () true) :
    ∃ (t : Template) (tail : Str), str = t.text ++ tail ∧ (tail = [] ∨ Begins255 tail ∧ t.format.Explicit) ∧
      ((∀ s ∈ t.segs, ∀ sp ∈ s.2.spec, sp.Fits) → t.Suits args) := by
  obtain ⟨t, tail, h1, h2, h3, _⟩ := accepted_template hn hv
  exact ⟨t, tail, h1, h2, h3⟩

/-- `"a{{{:>4}b{}"`. -/
def templateExample : Template :=
  ⟨[(['a', '{'], ⟨[], some { align := '>', width := ['4'] }⟩), (['b'], ⟨[], none⟩)], []⟩

/-- Its arguments. -/
def templateArgs : List CoreArg := [.int i32 (-5), .string "x{".toList]

theorem templateExample_suits : templateExample.Suits templateArgs := by
  refine ⟨by decide, by simp [templateExample], ?_, ?_, ?_, ?_⟩
  · simp only [templateExample, List.mem_cons, List.not_mem_nil, or_false]
    rintro s (rfl | rfl) sp hsp
    · simp only [Option.mem_def, Option.some.injEq] at hsp
      subst hsp
      exact ⟨⟨by simp, by simp, by simp, by simp, by simp, by simp, by simp⟩, by decide +kernel, by decide +kernel⟩
    · simp at hsp
  · left
    simp [FormatText.Automatic, FormatText.fields, Template.format, templateExample, Hole.field]
  · intro k
    simp [FormatText.arguments, FormatText.fields, Template.format, templateExample, Hole.field, Field.argument,
      templateArgs]
    omega
  · simp [FormatText.arguments, FormatText.fields, Template.format, templateExample, Hole.field, Field.argument,
      templateArgs, CoreArg.ty, CoreTy.Allows, SpecText.ForInteger, SpecText.TextOnly]

example : templateExample.text = "a{{{:>4}b{}".toList ∧ templateExample.output ["  -5".toList, "x{".toList] =
    "a{  -5bx{".toList := by decide +kernel

example : templateExample.Texts templateArgs ["  -5".toList, "x{".toList] := by
  refine ⟨by decide, ?_⟩
  simp [FormatText.arguments, FormatText.fields, Template.format, templateExample, Hole.field, Field.argument,
      templateArgs, Hole.specs, argText]
  decide +kernel

/-! ### C25 plain strings -/

/-- A string without braces is formatted to itself, on every buffer that takes it and by the general path as well. -/
theorem C25_plain_string (str : Str) (h : '{' ∉ str ∧ '}' ∉ str) :
    formatStr str [] = .ok () str ∧ validateStr str [] = .ok () true ∧
    ∃ f, formatRun str [] = .ok f () ∧ (f.ops.flatMap fun op => op.text) = str := by
  have ht : FormatText.text ⟨[], str⟩ = str := by
    simp [FormatText.text, escBraces_plain h.1 h.2]
  have hp := (plain_iff str).2 h
  refine ⟨?_, plain_validates str hp, ?_⟩
  · have := formats_text ⟨[], str⟩ [] [] 0 (by simp) (by simp [FormatText.fields])
      (Or.inl (by simp [FormatText.Automatic, FormatText.fields])) (by simp [FormatText.arguments, FormatText.fields])
      (by simp [ReadsAll, FormatText.fields])
    rw [ht] at this
    simpa [FormatText.output] using this.str
  · obtain ⟨_, f, new, h1, h2, h3, h4⟩ := loop_forward [] (by simp) 0 str [] [] (str.length + 1)
      ⟨Reader.ofStr str, none, 0⟩ (Bitset.new 128) [] [] (Bitset.rep_new 128) rfl
      (by rw [show segsText [] ++ escBraces str = str by simp [segsText, escBraces_plain h.1 h.2]]; exact Reader.at_ofStr _)
      (by simp) (by simp) (modeOk_nil _) (by simp) (by simp [argsFrom]) (by simp [ReadsAll])
    refine ⟨f, h1, ?_⟩
    rw [h2]
    simpa [segsOut, render] using h3

/-- Literal text with doubled braces is formatted to the text. -/
theorem C25_escaped_text (str : Str) : formatStr (escBraces str) [] = .ok () str := by
  have := formats_text ⟨[], str⟩ [] [] 0 (by simp) (by simp [FormatText.fields])
    (Or.inl (by simp [FormatText.Automatic, FormatText.fields])) (by simp [FormatText.arguments, FormatText.fields])
    (by simp [ReadsAll, FormatText.fields])
  simpa [FormatText.output, FormatText.text] using this.str

example : formatStr "hello, world".toList [] = .ok () "hello, world".toList := by decide +kernel

end Emio
