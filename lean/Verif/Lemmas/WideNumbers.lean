import Verif.Lemmas.Dynamic
import Verif.Props.Accepted
/-
Format strings with widths and precisions of any size.
-/
namespace Emio
open Spec

theorem reduced_wellFormed {sp : SpecText} (wf : sp.WellFormed) : sp.reduced.WellFormed where
  fill := wf.fill
  align := wf.align
  sign := wf.sign
  width := by
    simp only [SpecText.reduced]
    split
    · simp
    · exact (numeral_digits _).2.1
  widthHead := by
    intro _
    simp only [SpecText.reduced]
    split
    · simp
    · exact numeral_head_ne 10 (by decide) (by decide) _ ‹_›
  prec := by
    intro x hx
    simp only [SpecText.reduced, Option.mem_def, Option.map_eq_some_iff] at hx
    obtain ⟨p, _, rfl⟩ := hx
    exact ⟨(numeral_digits _).1, (numeral_digits _).2.1⟩
  type := wf.type

theorem reduced_width (sp : SpecText) : sp.reduced.widthValue = sp.widthValue % 2 ^ 32 := by
  rw [SpecText.widthValue]
  simp only [SpecText.reduced]
  split
  · rename_i h; rw [h]; rfl
  · exact (numeral_digits _).2.2

theorem reduced_prec (sp : SpecText) : sp.reduced.precValue = sp.precLeft := by
  unfold SpecText.precValue SpecText.precLeft SpecText.reduced
  cases sp.prec with
  | none => rfl
  | some p => simp only [Option.map_some]; rw [(numeral_digits _).2.2]

theorem reduced_meaning (sp : SpecText) : sp.reduced.meaning = sp.taken := by
  unfold SpecText.taken
  rw [← reduced_width, ← reduced_prec]
  rfl

theorem reduced_fits {sp : SpecText} (h : sp.NumbersPass) : sp.reduced.Fits := by
  refine ⟨?_, ?_⟩
  · rw [reduced_width]; exact h.1.2
  · rw [reduced_prec]
    unfold SpecText.precLeft
    cases hp : sp.prec with
    | none => simp
    | some p =>
      have := (h.2 p hp).2
      simp only
      omega

theorem empty_reduced : ({} : SpecText).reduced = {} := by
  simp [SpecText.reduced, SpecText.widthValue, numeralValue, denote]

theorem hole_reduced_spec (h : Hole) : h.reduced.spec.getD {} = (h.spec.getD {}).reduced := by
  unfold Hole.reduced
  cases h.spec with
  | none => exact empty_reduced.symm
  | some sp => rfl

/-! ### Numbering is not affected -/

theorem argument_idx {f g : Field} (h : f.idx = g.idx) (i : Nat) : Field.argument i f = Field.argument i g := by
  unfold Field.argument; rw [h]

theorem argsFrom_idx : ∀ (l : List (Str × Hole)) (i : Nat),
    argsFrom i ((l.map fun s => (s.1, s.2.reduced)).map fun s => s.2.field) = argsFrom i (l.map fun s => s.2.field) := by
  intro l
  induction l with
  | nil => intro i; rfl
  | cons s l ih =>
    intro i
    simp only [List.map_cons, argsFrom]
    rw [ih, argument_idx (g := s.2.field) (by rfl)]

theorem reduced_arguments (t : Template) : t.reduced.format.arguments = t.format.arguments := by
  rw [argsFrom_eq, argsFrom_eq, template_fields, template_fields]
  exact argsFrom_idx _ _

theorem reduced_automatic (t : Template) : t.reduced.format.Automatic ↔ t.format.Automatic := by
  unfold FormatText.Automatic
  rw [template_fields, template_fields]
  simp only [Template.reduced, List.map_map, List.forall_mem_map]
  rfl

theorem reduced_explicit (t : Template) : t.reduced.format.Explicit ↔ t.format.Explicit := by
  unfold FormatText.Explicit
  rw [template_fields, template_fields]
  simp only [Template.reduced, List.map_map, List.forall_mem_map]
  rfl

/-! ### One field -/

theorem core_silent_wide (ty : CoreTy) {sp : SpecText} (wf : sp.WellFormed) (hp : sp.NumbersPass)
    (ha : CoreTy.Allows ty sp.reduced) : ty.silent.Reads (sp.text ++ ['}']) [] 0 := by
  intro r tail h
  have hrest : r.rest = sp.text ++ '}' :: tail := by simpa using h.2
  have hv := C29_type_check ty sp wf hp r h.1 tail hrest
  rw [if_pos (by rw [← reduced_meaning]; exact (allows_iff ty (reduced_wellFormed wf)).2 ha)] at hv
  refine ⟨by simpa [CoreTy.silent, Reader.adv] using hv, pure (), ?_, ?_⟩
  · show (ty.validate >>= fun _ => pure (pure ())) r = _
    rw [M.bind_ok hv]
    simp [Reader.adv]
  · intro ops; exact ⟨[], by simp, rfl, by simp, by simp⟩

/-- A specification is read like the reduced one. -/
theorem core_reads_wide (a : CoreArg) {sp : SpecText} (wf : sp.WellFormed) (hp : sp.NumbersPass) {text : Str} {k : Nat}
    (h : a.farg.Reads (sp.reduced.text ++ ['}']) text k) : a.farg.Reads (sp.text ++ ['}']) text k := by
  -- what the reduced one is read as
  have hat := Reader.at_ofStr (sp.reduced.text ++ ['}'])
  have hat' : (Reader.ofStr (sp.reduced.text ++ ['}'])).At ((sp.reduced.text ++ ['}']) ++ []) := by simpa using hat
  obtain ⟨h1, act, h2, h3⟩ := h _ [] hat'
  obtain ⟨s, g1, g2, g3⟩ := C27_formatter_parse_agrees_with_validate a _ _ hat.1 h1
  have hg := specs_forward (reduced_wellFormed wf) (reduced_fits hp) (u := Reader.ofStr (sp.reduced.text ++ ['}']))
    (tail := []) hat
  rw [hg] at g1
  obtain ⟨_, rfl⟩ := ok_inj g1
  rw [h2] at g3
  obtain ⟨_, rfl⟩ := ok_inj g3
  rw [reduced_meaning] at g2 h3
  intro r tail hat
  have hrest : r.rest = sp.text ++ '}' :: tail := by simpa using hat.2
  have hv := C29_type_check a.ty sp wf hp r hat.1 tail hrest
  rw [if_pos g2] at hv
  have hf := specs_forward_wide wf hp (u := r) ⟨hat.1, hrest⟩
  have hl : (sp.text ++ ['}']).length = sp.text.length + 1 := by simp
  rw [hl]
  refine ⟨hv, _, ?_, h3⟩
  show (do let s ← parseFormatSpecs {}; return a.write s : M Reader (Fmt Unit)) r = _
  rw [M.bind_ok (specs_agree hat.1 hf).1]
  rfl

theorem core_takes_wide (a : CoreArg) {body : Str} (h : a.farg.Takes body) :
    ∃ sp : SpecText, (sp.WellFormed ∧ sp.NumbersPass) ∧ body = sp.text ++ ['}'] ∧ CoreTy.Allows a.ty sp.reduced := by
  obtain ⟨r, tail, hat, hv⟩ := h
  obtain ⟨s, h1, h2, _⟩ := C27_formatter_parse_agrees_with_validate a r _ hat.1 hv
  obtain ⟨sp, tail', wf, hrest, hr', hp, hs⟩ := specs_backward_wide hat.1 h1
  refine ⟨sp, ⟨wf, hp⟩, ?_, ?_⟩
  · have hlen : body.length = (sp.text ++ ['}']).length := by
      have := congrArg Reader.pos hr'
      simp [Reader.adv] at this ⊢
      omega
    have he : body ++ tail = (sp.text ++ ['}']) ++ tail' := by
      rw [← hat.2, hrest]; simp
    exact (List.append_inj he hlen).1
  · rw [← allows_iff a.ty (reduced_wellFormed wf), reduced_meaning, ← hs]
    exact h2

theorem hole_of_field_wide (a : CoreArg) (f : Field) (wf : f.WellFormed) (h : a.farg.Takes f.body) :
    ∃ hole : Hole, hole.field = f ∧ (∀ sp ∈ hole.spec, sp.WellFormed ∧ sp.NumbersPass) ∧
      CoreTy.Allows a.ty (hole.spec.getD {}).reduced := by
  obtain ⟨sp, ⟨hwf, hsm⟩, hb, hc⟩ := core_takes_wide a h
  obtain ⟨idx, colon, body⟩ := f
  simp only at hb
  cases colon with
  | true => exact ⟨⟨idx, some sp⟩, by simp [Hole.field, hb], by simpa using ⟨hwf, hsm⟩, hc⟩
  | false =>
    have hn : sp.text = [] := by
      have := wf.body rfl
      simp only [hb] at this
      cases hs : sp.text with
      | nil => rfl
      | cons c l =>
        rw [hs] at this
        simp only [List.cons_append, List.head?_cons, Option.some.injEq] at this
        exact absurd (by rw [hs, this]; simp) (spec_text_no_brace hwf)
    obtain rfl := spec_text_nil hn
    exact ⟨⟨idx, none⟩, by simp [Hole.field, hb, hn], by simp, hc⟩

theorem holes_of_segs_wide (args : List CoreArg) : ∀ (segs : List (Str × Field)) (i : Nat),
    (∀ s ∈ segs, s.2.WellFormed) →
    (∀ x ∈ (argsFrom i (segs.map (·.2))).zip (segs.map (·.2)), ∃ a, (args.map CoreArg.farg)[x.1]? = some a ∧
      a.Takes x.2.body) →
    ∃ hs : List (Str × Hole), hs.map (fun s => (s.1, s.2.field)) = segs ∧
      (∀ s ∈ hs, ∀ sp ∈ s.2.spec, sp.WellFormed ∧ sp.NumbersPass) ∧
      ∀ x ∈ (argsFrom i (segs.map (·.2))).zip hs, ∃ a, args[x.1]? = some a ∧
        CoreTy.Allows a.ty (x.2.2.spec.getD {}).reduced := by
  intro segs
  induction segs with
  | nil => intro i _ _; exact ⟨[], rfl, by simp, by simp⟩
  | cons s segs ih =>
    intro i hwf h
    simp only [List.map_cons, argsFrom, List.zip_cons_cons, List.mem_cons, forall_eq_or_imp] at h hwf
    obtain ⟨⟨fa, hfa, htakes⟩, h⟩ := h
    obtain ⟨hs, g1, g2, g3⟩ := ih (i + 1) hwf.2 h
    rw [List.getElem?_map, Option.map_eq_some_iff] at hfa
    obtain ⟨a, ha, rfl⟩ := hfa
    obtain ⟨hole, h1, h2, h3⟩ := hole_of_field_wide a s.2 hwf.1 htakes
    refine ⟨(s.1, hole) :: hs, by simp [g1, h1], ?_, ?_⟩
    · simp only [List.mem_cons, forall_eq_or_imp]
      exact ⟨h2, g2⟩
    · simp only [List.map_cons, argsFrom, List.zip_cons_cons, List.mem_cons, forall_eq_or_imp]
      exact ⟨⟨a, ha, h3⟩, g3⟩

/-! ### The format string -/

theorem accepted_template_wide {str : Str} {args : List CoreArg} (hlen : args.length ≤ 128)
    (hv : validateStr str (fargs args) = .ok () true) :
    ∃ (t : Template) (tail : Str), str = t.text ++ tail ∧ t.NumbersPass ∧ t.reduced.Suits args ∧
      (tail = [] ∨ Begins255 tail ∧ t.format.Explicit) := by
  have ht : ∀ a ∈ args.map CoreArg.farg, a.Tame := by
    intro a ha
    rw [List.mem_map] at ha
    obtain ⟨c, _, rfl⟩ := ha
    exact core_tame c
  obtain ⟨t, tail, g1, g2, g3, g4, g5, g6, g7⟩ := loop_backward _ ht (str.length + 1) ⟨Reader.ofStr str, none, 0⟩
    (Bitset.new 128) [] (Bitset.rep_new 128) rfl (Reader.at_ofStr _).1 (by simp) hv
  obtain ⟨hs, h1, h2, h3⟩ := holes_of_segs_wide args t.segs 0
    (fun s hs => g2 s.2 (List.mem_map_of_mem hs)) g6
  have hf : (Template.mk hs t.last).format = t := by
    unfold Template.format
    simp only [h1]
  refine ⟨⟨hs, t.last⟩, tail, ?_, h2, ⟨hlen, ?_, ?_, ?_, ?_, ?_⟩, g7.imp id fun h => ⟨h.1, by rw [hf]; exact h.2.1⟩⟩
  · unfold Template.text
    rw [hf, ← g1]
    exact (Reader.at_ofStr _).2.symm
  · intro s' hmem c hc
    simp only [Template.reduced, List.mem_map] at hmem
    obtain ⟨s, hmem, rfl⟩ := hmem
    have : s.2.field ∈ t.fields := by
      unfold FormatText.fields
      rw [← h1]
      simp only [List.map_map, List.mem_map]
      exact ⟨s, hmem, rfl⟩
    exact (g2 _ this).idx c hc
  · intro s' hmem sp' hsp
    simp only [Template.reduced, List.mem_map] at hmem
    obtain ⟨s, hmem, rfl⟩ := hmem
    simp only [Hole.reduced, Option.mem_def, Option.map_eq_some_iff] at hsp
    obtain ⟨sp, hsp, rfl⟩ := hsp
    obtain ⟨k1, k2⟩ := h2 s hmem sp hsp
    exact ⟨reduced_wellFormed k1, reduced_fits k2⟩
  · rw [reduced_automatic, reduced_explicit, hf]
    rcases g3 with ⟨h, _⟩ | ⟨h, _⟩
    · exact Or.inl h
    · exact Or.inr h
  · intro k
    rw [reduced_arguments, hf, argsFrom_eq]
    simp only [List.length_map, List.not_mem_nil, false_or] at g4 g5
    exact ⟨g4 k, g5 k⟩
  · intro x hx
    rw [reduced_arguments, hf, argsFrom_eq] at hx
    simp only [Template.reduced] at hx
    rw [zip_map_snd, List.mem_map] at hx
    obtain ⟨y, hy, rfl⟩ := hx
    obtain ⟨a, ha, hal⟩ := h3 y hy
    refine ⟨a, ha, ?_⟩
    simp only
    rw [hole_reduced_spec]
    exact hal

/-- What is known of the fields of a template whose reduced form suits the arguments. -/
theorem wide_hole {t : Template} {args : List CoreArg} (hp : t.NumbersPass) (hs : t.reduced.Suits args) {y : Nat × Str × Hole}
    (hy : y ∈ t.format.arguments.zip t.segs) :
    (y.1, y.2.1, y.2.2.reduced) ∈ t.reduced.format.arguments.zip t.reduced.segs ∧
    ((y.2.2.spec.getD {}).WellFormed ∧ (y.2.2.spec.getD {}).NumbersPass) ∧
    ∃ a, args[y.1]? = some a ∧ CoreTy.Allows a.ty (y.2.2.spec.getD {}).reduced := by
  have hm : (y.1, y.2.1, y.2.2.reduced) ∈ t.reduced.format.arguments.zip t.reduced.segs := by
    rw [reduced_arguments]
    simp only [Template.reduced]
    rw [zip_map_snd, List.mem_map]
    exact ⟨y, hy, rfl⟩
  refine ⟨hm, ?_, ?_⟩
  · cases hsp : y.2.2.spec with
    | none => exact ⟨noSpec_ok.1, (fits_pass noSpec_ok.2).1⟩
    | some sp => exact hp y.2 (mem_zip_of hy).2 sp hsp
  · obtain ⟨a, ha, hal⟩ := hs.allowed _ hm
    simp only [hole_reduced_spec] at hal
    exact ⟨a, ha, hal⟩

theorem wide_digits {t : Template} {args : List CoreArg} (hs : t.reduced.Suits args) :
    ∀ s ∈ t.segs, ∀ c ∈ s.2.idx, c.isDigit := by
  intro s h c hc
  refine hs.digits (s.1, s.2.reduced) ?_ c hc
  simp only [Template.reduced, List.mem_map]
  exact ⟨s, h, rfl⟩

theorem wide_mode {t : Template} {args : List CoreArg} (hs : t.reduced.Suits args) :
    t.format.Automatic ∨ t.format.Explicit := by
  rw [← reduced_automatic, ← reduced_explicit]; exact hs.mode

theorem wide_arguments {t : Template} {args : List CoreArg} (hs : t.reduced.Suits args) (k : Nat) :
    k ∈ t.format.arguments ↔ k < args.length := by
  rw [← reduced_arguments]; exact hs.arguments k

theorem template_tail_validates_wide {t : Template} {args : List CoreArg} (hp : t.NumbersPass) (hs : t.reduced.Suits args)
    {tail : Str} (htail : tail = [] ∨ Begins255 tail ∧ t.format.Explicit) :
    validateStr (t.text ++ tail) (fargs args) = .ok () true := by
  unfold validateStr
  have hlen : (args.map fun a => a.ty.silent).length = args.length := by simp
  rw [validateLoop_congr (args' := args.map fun a => a.ty.silent) (by
    simp [fargs, CoreArg.farg, CoreTy.silent])]
  have hmode : ModeOk none t.format.fields := by
    rcases wide_mode hs with h | h
    · exact Or.inl ⟨h, by simp⟩
    · exact Or.inr ⟨h, by simp⟩
  have hreads : ReadsAll (args.map fun a => a.ty.silent) 0 0 t.format.fields (t.format.fields.map fun _ => []) := by
    apply readsAll_of _ _ _ (by simp)
    rw [← argsFrom_eq, template_fields]
    intro x hx
    have hx2 : x.2 = [] := by
      have := (mem_zip_of hx).2
      simp only [List.mem_map] at this
      obtain ⟨_, _, h⟩ := this
      exact h.symm
    have hx1 := (mem_zip_of hx).1
    rw [zip_map_snd, List.mem_map] at hx1
    obtain ⟨y, hy, hxy⟩ := hx1
    obtain ⟨_, hg, a, ha, hal⟩ := wide_hole hp hs hy
    refine ⟨a.ty.silent, ?_, ?_⟩
    · rw [← hxy]; simp [ha]
    · rw [hx2, ← hxy]
      show a.ty.silent.Reads y.2.2.field.body [] 0
      rw [hole_body]
      exact core_silent_wide _ hg.1 hg.2 hal
  obtain ⟨⟨b, hb, hb'⟩, _⟩ := loop_forward_tail (args.map fun a => a.ty.silent) (by simpa using hs.number) 0 t.last tail
    t.format.segs (t.format.fields.map fun _ => []) ((t.text ++ tail).length + 1) ⟨Reader.ofStr (t.text ++ tail), none, 0⟩
    (Bitset.new 128) [] [] (Bitset.rep_new 128) rfl
    (by
      have := Reader.at_ofStr (t.text ++ tail)
      unfold Template.text FormatText.text at this ⊢
      rw [List.append_assoc] at this ⊢
      exact this)
    (by have := segs_length_le t.format; unfold Template.text; simp only [List.length_append]; omega)
    (by
      intro s h
      simp only [Template.format, List.mem_map] at h
      obtain ⟨s', h', rfl⟩ := h
      exact field_wellFormed (wide_digits hs s' h'))
    hmode (by simp)
    (fun k hk => by rw [hlen]; exact (wide_arguments hs k).1 (by rw [argsFrom_eq]; exact hk))
    (readsSegs_of_all _ _ _ hreads) (htail.imp id fun h => ⟨h.1, h.2, by simp⟩)
  have : b = true := hb'.2 fun k hk => Or.inr (by
    rw [hlen, ← wide_arguments hs k, argsFrom_eq] at hk
    exact hk)
  subst this
  exact hb

end Emio
