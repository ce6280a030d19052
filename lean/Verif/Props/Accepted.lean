import Verif.Props.Parser
import Verif.Lemmas.ScanTemplate
/-
Property C63: exactly the well-formed format strings are accepted.
-/
namespace Emio
open Spec BufferImpl

/-- Same validation, nothing printed. -/
def CoreTy.silent (ty : CoreTy) : FArg := ⟨ty.validate, do let _ ← ty.validate; return (pure ())⟩

theorem core_silent_reads (ty : CoreTy) {sp : SpecText} (wf : sp.WellFormed) (fits : sp.Fits) (ha : CoreTy.Allows ty sp) :
    ty.silent.Reads (sp.text ++ ['}']) [] 0 := by
  intro r tail h
  have hrest : r.rest = sp.text ++ '}' :: tail := by simpa using h.2
  have hv := C28_type_check ty sp wf fits r h.1 tail hrest
  rw [if_pos ((allows_iff ty wf).2 ha)] at hv
  refine ⟨by simpa [CoreTy.silent, Reader.adv] using hv, pure (), ?_, ?_⟩
  · show (ty.validate >>= fun _ => pure (pure ())) r = _
    rw [M.bind_ok hv]
    simp [Reader.adv]
  · intro ops; exact ⟨[], by simp, rfl, by simp, by simp⟩

theorem hole_body (h : Hole) : h.field.body = (h.spec.getD {}).text ++ ['}'] := by
  unfold Hole.field
  cases h.spec <;> rfl

theorem template_tail_validates {t : Template} {args : List CoreArg} (hs : t.Suits args) {tail : Str}
    (htail : tail = [] ∨ Begins255 tail ∧ t.format.Explicit) :
    validateStr (t.text ++ tail) (fargs args) = .ok () true := by
  unfold validateStr
  have hlen : (args.map fun a => a.ty.silent).length = args.length := by simp
  rw [validateLoop_congr (args' := args.map fun a => a.ty.silent) (by
    simp [fargs, CoreArg.farg, CoreTy.silent])]
  have hmode : ModeOk none t.format.fields := by
    rcases hs.mode with h | h
    · exact Or.inl ⟨h, by simp⟩
    · exact Or.inr ⟨h, by simp⟩
  have hreads : ReadsAll (args.map fun a => a.ty.silent) 0 0 t.format.fields (t.format.fields.map fun _ => []) := by
    apply readsAll_of _ _ _ (by simp)
    rw [← argsFrom_eq, template_fields]
    intro x hx
    have hx2 : x.2 = [] := by
      have := (mem_zip_of hx).2
      simp only [List.mem_map] at this
      obtain ⟨_, _, h⟩ := this
      exact h.symm
    have hx1 := (mem_zip_of hx).1
    rw [zip_map_snd, List.mem_map] at hx1
    obtain ⟨y, hy, hxy⟩ := hx1
    obtain ⟨a, ha, hal⟩ := hs.allowed y hy
    refine ⟨a.ty.silent, ?_, ?_⟩
    · rw [← hxy]; simp [ha]
    · rw [hx2, ← hxy]
      show a.ty.silent.Reads y.2.2.field.body [] 0
      rw [hole_body]
      have hg : (y.2.2.spec.getD {}).WellFormed ∧ (y.2.2.spec.getD {}).Fits := by
        cases hsp : y.2.2.spec with
        | none => exact noSpec_ok
        | some sp => exact hs.grammar y.2 (mem_zip_of hy).2 sp hsp
      exact core_silent_reads _ hg.1 hg.2 hal
  obtain ⟨⟨b, hb, hb'⟩, _⟩ := loop_forward_tail (args.map fun a => a.ty.silent) (by simpa using hs.number) 0 t.last tail
    t.format.segs (t.format.fields.map fun _ => []) ((t.text ++ tail).length + 1) ⟨Reader.ofStr (t.text ++ tail), none, 0⟩
    (Bitset.new 128) [] [] (Bitset.rep_new 128) rfl
    (by
      have := Reader.at_ofStr (t.text ++ tail)
      unfold Template.text FormatText.text at this ⊢
      rw [List.append_assoc] at this ⊢
      exact this)
    (by have := segs_length_le t.format; unfold Template.text; simp only [List.length_append]; omega)
    (by
      intro s h
      simp only [Template.format, List.mem_map] at h
      obtain ⟨s', h', rfl⟩ := h
      exact field_wellFormed (hs.digits s' h'))
    hmode (by simp)
    (fun k hk => by rw [hlen]; exact (hs.arguments k).1 (by rw [argsFrom_eq]; exact hk))
    (readsSegs_of_all _ _ _ hreads) (htail.imp id fun h => ⟨h.1, h.2, by simp⟩)
  have : b = true := hb'.2 fun k hk => Or.inr (by
    rw [hlen, ← hs.arguments k, argsFrom_eq] at hk
    exact hk)
  subst this
  exact hb

theorem template_validates {t : Template} {args : List CoreArg} (hs : t.Suits args) :
    validateStr t.text (fargs args) = .ok () true := by
  have := template_tail_validates hs (tail := []) (Or.inl rfl)
  simpa using this

theorem numbers_infix {t : Template} {s : Str × Hole} (hs : s ∈ t.segs) {sp : SpecText} (hsp : s.2.spec = some sp) :
    (∃ a b, t.text = a ++ sp.width ++ b) ∧ ∀ p ∈ sp.prec, ∃ a b, t.text = a ++ p ++ b := by
  obtain ⟨x, y, hxy⟩ := List.append_of_mem hs
  have key : ∃ a b, t.text = a ++ sp.text ++ b := by
    unfold Template.text Template.format FormatText.text
    rw [hxy]
    simp only [List.map_append, List.map_cons, List.flatMap_append, List.flatMap_cons]
    refine ⟨(List.flatMap (fun s => escBraces s.1 ++ s.2.text) (List.map (fun s => (s.1, s.2.field)) x)) ++
      escBraces s.1 ++ '{' :: (s.2.idx ++ [':']), ?_, ?_⟩
    · exact ['}'] ++ List.flatMap (fun s => escBraces s.1 ++ s.2.text)
        (List.map (fun s => (s.1, s.2.field)) y) ++ escBraces t.last
    · simp [Field.text, Hole.field, hsp]
  obtain ⟨a, b, hab⟩ := key
  refine ⟨?_, fun p hp => ?_⟩
  · refine ⟨a ++ (sp.fill.toList ++ sp.align.toList ++ sp.sign.toList ++ (if sp.alt then ['#'] else []) ++
      (if sp.zero then ['0'] else [])),
      (match sp.prec with | some p => '.' :: p | none => []) ++ sp.type.toList ++ b, ?_⟩
    rw [hab]
    simp only [SpecText.text, List.append_assoc]
    rfl
  · refine ⟨a ++ (sp.fill.toList ++ sp.align.toList ++ sp.sign.toList ++ (if sp.alt then ['#'] else []) ++
      (if sp.zero then ['0'] else []) ++ sp.width ++ ['.']), sp.type.toList ++ b, ?_⟩
    rw [hab]
    have : sp.prec = some p := hp
    simp only [SpecText.text, this, List.append_assoc, List.cons_append, List.nil_append]

/-- The property: the accepted format strings are the texts of templates that suit the arguments. -/
def AcceptedAreTemplates : Prop :=
  ∀ (str : Str) (args : List CoreArg), args.length ≤ 128 →
    ((∃ t : Template, str = t.text ∧ t.Suits args) ↔ validateStr str (fargs args) = .ok () true)

/-- It does not hold: `{255}` is accepted (see C23; a width of 2^32 is another example, see C29). -/
theorem C63_accepted_violated : ¬ AcceptedAreTemplates := by
  intro h
  obtain ⟨t, ht, hs⟩ := (h "{255}".toList [] (by simp)).2 (by decide +kernel)
  cases hsg : t.segs with
  | nil =>
    have hl : escBraces t.last = "{255}".toList := by
      rw [ht]; simp [Template.text, Template.format, FormatText.text, hsg]
    cases hla : t.last with
    | nil => rw [hla] at hl; simp [escBraces] at hl
    | cons c l =>
      rw [hla, escBraces_cons] at hl
      split at hl
      · simp at hl
      · split at hl <;> simp_all
  | cons s ss =>
    have := (hs.arguments (Field.argument 0 s.2.field)).1 (by
      simp [FormatText.arguments, FormatText.fields, Template.format, hsg])
    simp at this

/-- A string without numbers of 2^32 or more is accepted exactly if it is the text of a template that suits the
arguments, perhaps followed by ignored text that begins with a field for argument number 255, in which case the numbering
is explicit.  All other strings are refused with `invalid_format`, and nothing is written. -/
theorem C63_accepted_strings_partial (str : Str) (args : List CoreArg) (hn : args.length ≤ 128) (hsm : SmallNumbers str) :
    ((∃ (t : Template) (tail : Str), str = t.text ++ tail ∧ t.Suits args ∧ (tail = [] ∨ Begins255 tail ∧ t.format.Explicit)) ↔
      validateStr str (fargs args) = .ok () true) ∧
    ((¬ ∃ (t : Template) (tail : Str), str = t.text ++ tail ∧ t.Suits args ∧
        (tail = [] ∨ Begins255 tail ∧ t.format.Explicit)) →
      formatStr str (fargs args) = .err () .invalidFormat ∧
      ∀ {σ : Type} [BufferImpl σ] (s : σ), formatTo str (fargs args) s = .err s .invalidFormat) := by
  have hiff : (∃ (t : Template) (tail : Str), str = t.text ++ tail ∧ t.Suits args ∧
      (tail = [] ∨ Begins255 tail ∧ t.format.Explicit)) ↔ validateStr str (fargs args) = .ok () true := by
    constructor
    · rintro ⟨t, tail, rfl, hs, htail⟩
      exact template_tail_validates hs htail
    · intro hv
      obtain ⟨t, tail, h1, h2, h3, h4⟩ := accepted_template hn hv
      refine ⟨t, tail, h1, h3 fun s hs sp hsp => ?_, h2⟩
      obtain ⟨⟨a, b, hab⟩, hp⟩ := numbers_infix hs hsp
      obtain ⟨wf, hf⟩ := h4 s hs sp hsp
      refine hf (hsm a _ (b ++ tail) (by rw [h1, hab]; simp) wf.width) ?_
      unfold SpecText.precValue
      cases hpr : sp.prec with
      | none => simp
      | some p =>
        obtain ⟨a, b, hab⟩ := hp p hpr
        have := hsm a p (b ++ tail) (by rw [h1, hab]; simp) (wf.prec p hpr).2
        simp only
        exact_mod_cast this
  refine ⟨hiff, fun hno => ?_⟩
  obtain ⟨b, hb⟩ := C22_validation_total str args hn
  cases b with
  | true => exact absurd (hiff.2 hb) hno
  | false => exact C22_rejected_is_invalid_format str args hb

/-- So the property holds for strings with neither argument number 255 nor numbers of 2^32 or more. -/
theorem C63_accepted_format_strings_partial (str : Str) (args : List CoreArg) (hn : args.length ≤ 128)
    (h255 : ¬ Mentions255 str) (hsm : SmallNumbers str) :
    ((∃ t : Template, str = t.text ∧ t.Suits args) ↔ validateStr str (fargs args) = .ok () true) ∧
    ((¬ ∃ t : Template, str = t.text ∧ t.Suits args) →
      formatStr str (fargs args) = .err () .invalidFormat ∧
      ∀ {σ : Type} [BufferImpl σ] (s : σ), formatTo str (fargs args) s = .err s .invalidFormat) := by
  have key : (∃ (t : Template) (tail : Str), str = t.text ++ tail ∧ t.Suits args ∧
      (tail = [] ∨ Begins255 tail ∧ t.format.Explicit)) ↔ ∃ t : Template, str = t.text ∧ t.Suits args := by
    constructor
    · rintro ⟨t, tail, h, hs, rfl | ⟨htail, _⟩⟩
      · exact ⟨t, by simpa using h, hs⟩
      · exact absurd (h ▸ mentions_of_begins htail) h255
    · rintro ⟨t, h, hs⟩
      exact ⟨t, [], by simpa using h, hs, Or.inl rfl⟩
  rw [← key]
  exact C63_accepted_strings_partial str args hn hsm

/-- Text that begins with a field for argument 255 is ignored behind explicit numbers, however it goes on: the result is
that of the template in front of it. -/
theorem C63_ignored_text (t : Template) (tail : Str) (args : List CoreArg) (suits : t.Suits args)
    (hex : t.format.Explicit) (htail : Begins255 tail) (hv : ∀ a ∈ args, ValidArg a)
    (hO : ∀ x ∈ t.format.arguments.zip t.segs, ∀ a, args[x.1]? = some a → ¬ OctalO a x.2.2.specs) :
    ∃ text, formatStr t.text (fargs args) = .ok () text ∧ formatStr (t.text ++ tail) (fargs args) = .ok () text := by
  obtain ⟨texts, h1, h2⟩ := exists_texts (fun x text => ∃ a, args[x.1]? = some a ∧ a.farg.Reads x.2.2.field.body text 1421)
    (t.format.arguments.zip t.segs) (fun x hx => by
      obtain ⟨a, ha, hal⟩ := suits.allowed x hx
      obtain ⟨text, ht⟩ := hole_reads_some a x.2.2 (suits.grammar x.2 (mem_zip_of hx).2) hal
        (hv a (List.mem_of_getElem? ha)) (hO x hx a ha)
      exact ⟨text, a, ha, ht⟩)
  have hl : texts.length = t.segs.length := by
    rw [h1, List.length_zip, arguments_length]; simp
  have hreads : ReadsAll (fargs args) 1421 0 t.format.fields texts := readsAll_template hl fun y hy => by
    obtain ⟨a, ha, hr⟩ := h2 y hy
    exact ⟨a.farg, by simp [fargs, ha], hr⟩
  have hwf : ∀ f ∈ t.format.fields, f.WellFormed := by
    intro f hf
    rw [template_fields, List.mem_map] at hf
    obtain ⟨s, hs, rfl⟩ := hf
    exact field_wellFormed (suits.digits s hs)
  have hlen : (fargs args).length ≤ 128 := by simpa [fargs] using suits.number
  have hargs : ∀ k, k ∈ t.format.arguments ↔ k < (fargs args).length := by simpa [fargs] using suits.arguments
  exact ⟨_, (formats_text t.format (fargs args) texts 1421 hlen hwf suits.mode hargs hreads).str,
    (formats_tail t.format tail (fargs args) texts 1421 hlen hwf suits.mode hargs (readsSegs_of_all _ _ _ hreads)
      (Or.inr ⟨htail, hex⟩)).str⟩

example : formatStr "{1}-{0}{255".toList (fargs templateArgs) = .err () .invalidFormat ∧
    formatStr "{1}-{0}{255:{{".toList (fargs templateArgs) = .ok () "x{--5".toList ∧
    formatStr "{1}-{0}".toList (fargs templateArgs) = .ok () "x{--5".toList := by decide +kernel

/-- The text of a template that suits the arguments is accepted whatever else holds. -/
theorem C63_templates_are_accepted (t : Template) (args : List CoreArg) (hs : t.Suits args) :
    validateStr t.text (fargs args) = .ok () true := template_validates hs

example : templateExample.Suits templateArgs ∧ validateStr templateExample.text (fargs templateArgs) = .ok () true :=
  ⟨templateExample_suits, C63_templates_are_accepted _ _ templateExample_suits⟩

end Emio
