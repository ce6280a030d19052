import Verif.Lemmas.WideNumbers
/-
Properties C29 and C63 for format strings with widths and precisions of any size.
-/
namespace Emio
open Spec BufferImpl

/-- Which strings are accepted, with no restriction on them: the texts of templates whose numbers pass and which suit the
arguments once the numbers are reduced modulo 2^32, perhaps followed by ignored text that begins with a field for argument
number 255, in which case the numbering is explicit.  All other strings are refused with `invalid_format`, and nothing is
written. -/
theorem C63_accepted_strings (str : Str) (args : List CoreArg) (hn : args.length ≤ 128) :
    ((∃ (t : Template) (tail : Str), str = t.text ++ tail ∧ t.NumbersPass ∧ t.reduced.Suits args ∧
        (tail = [] ∨ Begins255 tail ∧ t.format.Explicit)) ↔ validateStr str (fargs args) = .ok () true) ∧
    ((¬ ∃ (t : Template) (tail : Str), str = t.text ++ tail ∧ t.NumbersPass ∧ t.reduced.Suits args ∧
        (tail = [] ∨ Begins255 tail ∧ t.format.Explicit)) →
      formatStr str (fargs args) = .err () .invalidFormat ∧
      ∀ {σ : Type} [BufferImpl σ] (s : σ), formatTo str (fargs args) s = .err s .invalidFormat) := by
  have hiff : (∃ (t : Template) (tail : Str), str = t.text ++ tail ∧ t.NumbersPass ∧ t.reduced.Suits args ∧
      (tail = [] ∨ Begins255 tail ∧ t.format.Explicit)) ↔ validateStr str (fargs args) = .ok () true := by
    constructor
    · rintro ⟨t, tail, rfl, hp, hs, htail⟩
      exact template_tail_validates_wide hp hs htail
    · exact accepted_template_wide hn
  refine ⟨hiff, fun hno => ?_⟩
  obtain ⟨b, hb⟩ := C22_validation_total str args hn
  cases b with
  | true => exact absurd (hiff.2 hb) hno
  | false => exact C22_rejected_is_invalid_format str args hb

/-- An accepted string is formatted like the template with its numbers reduced modulo 2^32. -/
theorem C29_formatted_with_reduced_numbers (t : Template) (tail : Str) (args : List CoreArg) (pass : t.NumbersPass)
    (suits : t.reduced.Suits args) (htail : tail = [] ∨ Begins255 tail ∧ t.format.Explicit)
    (hv : ∀ a ∈ args, ValidArg a)
    (hO : ∀ x ∈ t.reduced.format.arguments.zip t.reduced.segs, ∀ a, args[x.1]? = some a → ¬ OctalO a x.2.2.specs) :
    ∃ text, formatStr t.reduced.text (fargs args) = .ok () text ∧ formatStr (t.text ++ tail) (fargs args) = .ok () text := by
  obtain ⟨texts, h1, h2⟩ := exists_texts
    (fun x text => ∃ a, args[x.1]? = some a ∧ a.farg.Reads x.2.2.reduced.field.body text 1421)
    (t.format.arguments.zip t.segs) (fun x hx => by
      obtain ⟨hm, _, _⟩ := wide_hole pass suits hx
      obtain ⟨a, ha, hal⟩ := suits.allowed _ hm
      obtain ⟨text, ht⟩ := hole_reads_some a x.2.2.reduced (suits.grammar _ (mem_zip_of hm).2) hal
        (hv a (List.mem_of_getElem? ha)) (hO _ hm a ha)
      exact ⟨text, a, ha, ht⟩)
  have hl : texts.length = t.segs.length := by
    rw [h1, List.length_zip, arguments_length]; simp
  have hl' : texts.length = t.reduced.segs.length := by
    rw [hl]; simp [Template.reduced]
  have hreads' : ReadsAll (fargs args) 1421 0 t.reduced.format.fields texts := readsAll_template hl' fun y hy => by
    rw [reduced_arguments] at hy
    simp only [Template.reduced] at hy
    rw [zip_map_snd, List.zip_map_left, List.mem_map] at hy
    obtain ⟨z, hz, rfl⟩ := hy
    obtain ⟨a, ha, hr⟩ := h2 z hz
    exact ⟨a.farg, by simp [fargs, ha], hr⟩
  have hreads : ReadsAll (fargs args) 1421 0 t.format.fields texts := readsAll_template hl fun y hy => by
    obtain ⟨a, ha, hr⟩ := h2 y hy
    refine ⟨a.farg, by simp [fargs, ha], ?_⟩
    obtain ⟨_, hg, _⟩ := wide_hole pass suits (mem_zip_of hy).1
    rw [hole_body]
    rw [hole_body, hole_reduced_spec] at hr
    exact core_reads_wide a hg.1 hg.2 hr
  have hwf : ∀ f ∈ t.format.fields, f.WellFormed := by
    intro f hf
    rw [template_fields, List.mem_map] at hf
    obtain ⟨s, hs, rfl⟩ := hf
    exact field_wellFormed (wide_digits suits s hs)
  have hwf' : ∀ f ∈ t.reduced.format.fields, f.WellFormed := by
    intro f hf
    rw [template_fields, List.mem_map] at hf
    obtain ⟨s, hs, rfl⟩ := hf
    exact field_wellFormed (suits.digits s hs)
  have hlen : (fargs args).length ≤ 128 := by simpa [fargs] using suits.number
  have hargs : ∀ k, k ∈ t.format.arguments ↔ k < (fargs args).length := by simpa [fargs] using wide_arguments suits
  have hargs' : ∀ k, k ∈ t.reduced.format.arguments ↔ k < (fargs args).length := by simpa [fargs] using suits.arguments
  have ho : t.reduced.format.output texts = t.format.output texts := by
    simp only [FormatText.output, Template.format, Template.reduced, List.map_map, List.zip_map_left, List.flatMap_map]
    rfl
  refine ⟨_, (formats_text t.reduced.format (fargs args) texts 1421 hlen hwf' suits.mode hargs' hreads').str, ?_⟩
  rw [ho]
  exact (formats_tail t.format tail (fargs args) texts 1421 hlen hwf (wide_mode suits) hargs
    (readsSegs_of_all _ _ _ hreads) htail).str

/-- `"{:x<.9999999999}"`, which asks for all of the string: what is left of 9999999999 is 1410065407. -/
def wideExample : Template := ⟨[(['<'], ⟨[], some { fill := 'x', align := '<', prec := some "9999999999".toList }⟩)], ['>']⟩

theorem wideExample_pass : wideExample.NumbersPass := by
  simp only [Template.NumbersPass, wideExample, List.mem_singleton]
  rintro s rfl sp hsp
  simp only [Option.mem_def, Option.some.injEq] at hsp
  subst hsp
  refine ⟨⟨by simp, by simp, by simp, by simp, by simp, by simp, by simp⟩, passes_small (by decide), ?_⟩
  intro p hp
  simp only [Option.mem_def, Option.some.injEq] at hp
  subst hp
  refine ⟨?_, by decide +kernel⟩
  rw [wrapsDown_iff _ _ _ (by decide +kernel)]; decide +kernel

theorem wideExample_suits : wideExample.reduced.Suits [.string "ab".toList] := by
  obtain ⟨h1, h2⟩ := wideExample_pass _ (List.mem_singleton.2 rfl) _ rfl
  refine ⟨by decide, by simp [wideExample, Template.reduced, Hole.reduced], ?_, ?_, ?_, ?_⟩
  · intro s hs sp hsp
    simp only [Template.reduced, wideExample, List.map_cons, List.map_nil, List.mem_singleton] at hs
    subst hs
    simp only [Hole.reduced, Option.map_some, Option.mem_def, Option.some.injEq] at hsp
    subst hsp
    exact ⟨reduced_wellFormed h1, reduced_fits h2⟩
  · left
    simp [FormatText.Automatic, FormatText.fields, Template.format, wideExample, Hole.field, Template.reduced, Hole.reduced]
  · intro k
    rw [reduced_arguments]
    simp [FormatText.arguments, FormatText.fields, Template.format, wideExample, Hole.field, Field.argument]
  · rw [reduced_arguments]
    simp [FormatText.arguments, FormatText.fields, Template.format, wideExample, Hole.field, Field.argument,
      Template.reduced, Hole.reduced, CoreArg.ty, CoreTy.Allows, SpecText.TextOnly, SpecText.reduced]

example : wideExample.text = "<{:x<.9999999999}>".toList ∧ wideExample.reduced.text = "<{:x<.1410065407}>".toList := by
  decide +kernel

example : validateStr wideExample.text (fargs [.string "ab".toList]) = .ok () true :=
  (C63_accepted_strings _ _ (by simp)).1.1 ⟨_, [], by simp, wideExample_pass, wideExample_suits, Or.inl rfl⟩

example : formatStr "<{:x<.9999999999}>".toList (fargs [.string "ab".toList]) = .ok () "<ab>".toList := by decide +kernel

/-- `{:4294967296}` does not pass. -/
example : ¬ Passes "4294967296".toList ∧ validateStr "{:4294967296}".toList (fargs [.string []]) = .ok () false := by
  refine ⟨fun h => h.1 ?_, by decide +kernel⟩
  rw [wrapsDown_iff _ _ _ (by decide +kernel)]; decide +kernel

end Emio
