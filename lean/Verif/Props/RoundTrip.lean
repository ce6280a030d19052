import Verif.Spec.RoundTrip
import Verif.Props.Scan
/-
Property C76: what is formatted with a string is scanned with the same string.
-/
namespace Emio
open Reader Spec BufferImpl

/-- How a value is written by a field. -/
def pieceOf (h : ScanHole) : Plain → Str
  | .int _ n => (writtenNumber h.sp n).text
  | .char c => [c]
  | .str s => s

/-- The piece, the variable and the value of each field. -/
def plainFields (vals : List Plain) : Nat → List (Str × ScanHole) → List (Str × Nat × ScanVal)
  | _, [] => []
  | i, (_, h) :: segs =>
    (pieceOf h (vals.getD (h.field.argument i) (.str [])), h.field.argument i,
      (vals.getD (h.field.argument i) (.str [])).val) :: plainFields vals (i + 1) segs

theorem plainFields_args (vals : List Plain) : ∀ (segs : List (Str × ScanHole)) (i : Nat),
    (plainFields vals i segs).map (·.2.1) = argsFrom i (segs.map (·.2.field)) := by
  intro segs
  induction segs with
  | nil => intro i; rfl
  | cons s segs ih => intro i; simp [plainFields, argsFrom, ih]

theorem plainFields_values (vals : List Plain) : ∀ (segs : List (Str × ScanHole)) (i : Nat),
    ∀ x ∈ plainFields vals i segs, x.2.2 = (vals.getD x.2.1 (.str [])).val := by
  intro segs
  induction segs with
  | nil => intro i x hx; simp [plainFields] at hx
  | cons s segs ih =>
    intro i x hx
    rcases List.mem_cons.1 hx with rfl | hx
    · rfl
    · exact ih _ x hx

theorem plainFields_length (vals : List Plain) : ∀ (segs : List (Str × ScanHole)) (i : Nat),
    (plainFields vals i segs).length = segs.length := by
  intro segs
  induction segs with
  | nil => intro i; rfl
  | cons s segs ih => intro i; simp [plainFields, ih]

/-- The types of the variables. -/
theorem plain_get {vals : List Plain} {k : Nat} {ty : ScanTy} (h : (vals.map Plain.ty)[k]? = some ty) :
    ∃ v, vals[k]? = some v ∧ vals.getD k (.str []) = v ∧ v.ty = ty := by
  rw [List.getElem?_map] at h
  obtain ⟨v, hv, rfl⟩ := Option.map_eq_some_iff.1 h
  exact ⟨v, hv, by rw [List.getD_eq_getElem?_getD, hv]; rfl, rfl⟩

theorem written_plain {vals : List Plain} {t : ScanTemplate} (hv : ∀ v ∈ vals, ValidArg v.arg) (hback : CanBeReadBack t vals) :
    ∀ (segs a : List (Str × ScanHole)), t.segs = a ++ segs → SegsOk (vals.map Plain.ty) a.length segs →
      Written (vals.map Plain.ty) t.last [] a.length segs
        (((segs.zip ((plainFields vals a.length segs).map (·.1))).flatMap fun s => s.1.1 ++ s.2) ++ t.last)
        (plainFields vals a.length segs) [] := by
  intro segs
  induction segs with
  | nil =>
    intro a _ _
    have h := Written.done (tys := vals.map Plain.ty) (last := t.last) (tail := []) a.length []
    simpa [plainFields] using h
  | cons s segs ih =>
    intro a hseg hok
    obtain ⟨lit, hole⟩ := s
    obtain ⟨⟨ty, hn, hal⟩, wf, fits, hok'⟩ := hok.cons
    have hih := ih (a ++ [(lit, hole)]) (by rw [hseg]; simp) (by simpa using hok')
    simp only [List.length_append, List.length_singleton] at hih
    obtain ⟨v, h1, h2, rfl⟩ := plain_get hn
    simp only [plainFields, List.map_cons, List.zip_cons_cons, List.flatMap_cons, List.append_assoc, h2]
    refine Written.field (ty := v.ty) hn ?_ hih
    have hw := hback.noWidth (lit, hole) (by rw [hseg]; simp)
    have hsz : hole.sp.size = none := by simp [ScanSpec.size, hw]
    have hval := hv v (List.mem_of_getElem? h1)
    -- what follows begins with the literal text that follows
    have hrest : ∃ more, (((segs.zip ((plainFields vals (a.length + 1) segs).map (·.1))).flatMap fun s => s.1.1 ++ s.2) ++ t.last) =
        following t.last segs ++ more ∧ (segs = [] → more = []) := by
      cases segs with
      | nil => exact ⟨[], by simp [following], fun _ => rfl⟩
      | cons s' segs =>
        obtain ⟨lit', hole'⟩ := s'
        exact ⟨_, by
          simp only [plainFields, List.map_cons, List.zip_cons_cons, List.flatMap_cons, List.append_assoc, following]; rfl,
          by simp⟩
    obtain ⟨more, hmore, hmore0⟩ := hrest
    rw [hmore]
    cases v with
    | int ty n =>
      obtain ⟨g1, g2, g3⟩ := hback.integer a (lit, hole) segs ty n hseg h1
      refine writtenNumber_readable hval.1 hval.2 hal hw ?_ ?_
      · intro h0 ha
        obtain ⟨g4, g5⟩ := g3 h0 ha
        refine ⟨g4, fun ht => ?_⟩
        obtain ⟨rfl, g6⟩ := g5 ht
        rw [hmore0 rfl, following, g6]
        rfl
      · intro c hc
        by_cases hs : segs = []
        · rw [hmore0 hs, List.append_nil] at hc
          exact g2 c hc
        · have := g1 hs
          obtain ⟨d, ds, hd⟩ := List.exists_cons_of_ne_nil this
          rw [hd] at hc g2
          exact g2 c (by simpa using hc)
    | char c => exact ⟨c, rfl, rfl⟩
    | str x =>
      refine ⟨rfl, by simp [hsz], fun _ => ⟨?_, ?_⟩⟩
      · rintro ⟨rfl, hl, _⟩
        rw [hmore0 rfl, following, hl]
        rfl
      · intro hne
        have hne' : segs ≠ [] ∨ t.last ≠ [] := by
          by_contra h
          simp only [not_or, not_not] at h
          exact hne ⟨h.1, h.2, rfl⟩
        obtain ⟨g1, g2, g3, g4⟩ := hback.string a (lit, hole) segs x hseg h1 hne'
        exact ⟨g2, g3, g4, by simp [g1]⟩

theorem toHole_spec (h : ScanHole) : (h.toHole.spec.getD {}) = ({ alt := h.sp.alt, type := h.sp.type } : SpecText) := by
  obtain ⟨idx, spec⟩ := h
  cases spec <;> rfl

theorem toHole_specs (h : ScanHole) : h.toHole.specs = ({ alt := h.sp.alt, type := h.sp.type } : SpecText).meaning := by
  obtain ⟨idx, spec⟩ := h
  cases spec <;> rfl

theorem plain_type {sp : ScanSpec} {x : Char} (h : ∀ c ∈ sp.type, c = x) :
    ({ alt := sp.alt, type := sp.type } : SpecText).meaning.type = noChar ∨
    ({ alt := sp.alt, type := sp.type } : SpecText).meaning.type = x := by
  cases ht : sp.type with
  | none => exact Or.inl rfl
  | some c => exact Or.inr (h c (by simp [ht]))

/-- How a value is written. -/
theorem plain_text_of {h : ScanHole} {v : Plain} (hw : h.sp.width = []) (hal : ScanTy.Allows v.ty h.sp) :
    argText v.arg h.toHole.specs = pieceOf h v := by
  have hw0 : ({ alt := h.sp.alt, type := h.sp.type } : SpecText).meaning.width = 0 := rfl
  cases v with
  | int ty n => exact writtenNumber_text hw hal n
  | char c =>
    have ht := plain_type hal.2.2
    show charText _ c = [c]
    rw [toHole_specs]
    unfold charText
    rw [if_neg (by rcases ht with ht | ht <;> rw [ht] <;> decide), if_pos ht, padded_withoutWidth _ _ _ hw0]
  | str s =>
    have ht := plain_type hal.2
    show strText _ s = s
    rw [toHole_specs]
    unfold strText
    rw [if_neg (by rcases ht with ht | ht <;> rw [ht] <;> decide), padded_withoutWidth _ _ _ hw0, if_neg]
    show ¬ (0 : Int) ≤ -1
    decide

theorem plain_texts {vals : List Plain} :
    ∀ (segs : List (Str × ScanHole)) (i : Nat), SegsOk (vals.map Plain.ty) i segs → (∀ s ∈ segs, s.2.sp.width = []) →
    ∀ x ∈ ((argsFrom i (segs.map (·.2.field))).zip (segs.map fun s => (s.1, ScanHole.toHole s.2))).zip
      ((plainFields vals i segs).map (·.1)), ∃ a, (vals.map Plain.arg)[x.1.1]? = some a ∧ argText a x.1.2.2.specs = x.2 := by
  intro segs
  induction segs with
  | nil => intro i _ _ x hx; simp [argsFrom] at hx
  | cons s segs ih =>
    intro i hok hw x hx
    obtain ⟨lit, hole⟩ := s
    obtain ⟨⟨ty, hn, hal⟩, wf, fits, hok'⟩ := hok.cons
    simp only [List.map_cons, argsFrom, plainFields, List.zip_cons_cons, List.mem_cons] at hx
    rcases hx with rfl | hx
    · obtain ⟨v, h1, h2, rfl⟩ := plain_get hn
      refine ⟨v.arg, by simp [h1], ?_⟩
      simp only [h2]
      exact plain_text_of (hw (lit, hole) (by simp)) hal
    · exact ih (i + 1) hok' (fun s hs => hw s (by simp [hs])) x hx

theorem plain_allows {v : Plain} {h : ScanHole} (hal : ScanTy.Allows v.ty h.sp) :
    CoreTy.Allows v.arg.ty (h.toHole.spec.getD {}) ∧ ¬ Deviates v.arg h.toHole.specs := by
  rw [toHole_spec, toHole_specs]
  cases v with
  | int ty n =>
    constructor
    · refine ⟨⟨rfl, ?_⟩, Or.inr rfl⟩
      intro c hc
      have := hal c hc
      simp only [List.mem_cons, List.not_mem_nil, or_false] at this
      rcases this with rfl | rfl | rfl | rfl <;> decide
    · rintro (h' | h' | h')
      · have h3 := h'.1
        have h3 : h.sp.type.getD noChar = 'O' := h3
        cases ht : h.sp.type with
        | none => rw [ht] at h3; revert h3; decide
        | some c =>
          have hc := hal c (by simp [ht])
          rw [ht] at h3
          simp only [Option.getD_some] at h3
          subst h3
          revert hc
          decide
      · exact h'
      · exact h'
  | char c =>
    have ht := plain_type (sp := h.sp) hal.2.2
    constructor
    · exact ⟨rfl, Or.inl ⟨⟨rfl, hal.1, Or.inl rfl⟩, fun c hc => Or.inl (hal.2.2 c hc)⟩⟩
    · rintro (h' | h' | h')
      · rcases ht with ht | ht
        · have := h'.1; rw [ht] at this; revert this; decide
        · have := h'.1; rw [ht] at this; revert this; decide
      · rcases ht with ht | ht
        · have := h'.1; rw [ht] at this; revert this; decide
        · have := h'.1; rw [ht] at this; revert this; decide
      · exact h'
  | str s =>
    constructor
    · refine ⟨⟨rfl, hal.1, Or.inl rfl⟩, fun c hc => Or.inl (hal.2 c hc), fun _ => rfl⟩
    · rintro (h' | h' | h')
      · exact h'.2
      · exact h'
      · exact h'

theorem plain_suits {vals : List Plain} {t : ScanTemplate} (hs : t.Suits (vals.map Plain.ty))
    (hw : ∀ s ∈ t.segs, s.2.sp.width = []) : (ScanTemplate.toTemplate t).Suits (vals.map Plain.arg) := by
  have hf := toTemplate_format hw
  refine ⟨by have := hs.number; simpa using this, ?_, ?_, by rw [hf]; exact hs.mode, ?_, ?_⟩
  · intro s hs'
    simp only [ScanTemplate.toTemplate, List.mem_map] at hs'
    obtain ⟨s0, h0, rfl⟩ := hs'
    exact hs.digits s0 h0
  · intro s hs' sp hsp
    simp only [ScanTemplate.toTemplate, List.mem_map] at hs'
    obtain ⟨s0, h0, rfl⟩ := hs'
    simp only [ScanHole.toHole, Option.mem_def, Option.map_eq_some_iff] at hsp
    obtain ⟨sp0, h1, rfl⟩ := hsp
    have hsp0 : s0.2.sp = sp0 := by simp [ScanHole.sp, h1]
    have hg := (hs.grammar s0 h0).1
    rw [hsp0] at hg
    refine ⟨⟨by simp, by simp, by simp, by simp, by simp, by simp, ?_⟩, ?_⟩
    · intro c hc
      exact Or.inl (hg.type c hc)
    · exact ⟨by simp [SpecText.widthValue, numeralValue, denote], by simp [SpecText.precValue]⟩
  · intro k
    rw [hf]
    simpa using hs.arguments k
  · intro x hx
    rw [hf] at hx
    simp only [ScanTemplate.toTemplate] at hx
    rw [zip_map_snd] at hx
    obtain ⟨y, hy, rfl⟩ := List.mem_map.1 hx
    obtain ⟨ty, h1, h2⟩ := hs.allowed y hy
    obtain ⟨v, g1, _, rfl⟩ := plain_get h1
    exact ⟨v.arg, by simp [g1], (plain_allows h2).1⟩

/-- Integers, characters and strings are written by a string and read back by the same string. -/
theorem C76_round_trip (t : ScanTemplate) (vals : List Plain) (vars : List ScanVal) (hl : vars.length = vals.length)
    (hv : ∀ v ∈ vals, ValidArg v.arg) (hs : t.Suits (vals.map Plain.ty)) (hback : CanBeReadBack t vals) :
    ∃ text, formatStr t.text (fargs (vals.map Plain.arg)) = .ok () text ∧
      scanStr text t.text (vals.map Plain.ty) vars = .ok (vals.map Plain.val) () := by
  have hw := hback.noWidth
  have hf := toTemplate_format hw
  have hok := suits_segsOk hs
  have htext : (ScanTemplate.toTemplate t).text = t.text := by unfold Template.text ScanTemplate.text; rw [hf]
  refine ⟨t.input ((plainFields vals 0 t.segs).map (·.1)), ?_, ?_⟩
  · have h := C24_output_partial (ScanTemplate.toTemplate t) (vals.map Plain.arg) ((plainFields vals 0 t.segs).map (·.1))
      (plain_suits hs hw) ?_ ?_ ?_
    · rw [htext] at h
      rw [h]
      unfold Template.output ScanTemplate.input
      rw [hf]
    · intro a ha
      obtain ⟨v, hv', rfl⟩ := List.mem_map.1 ha
      exact hv v hv'
    · refine ⟨by simp [plainFields_length, ScanTemplate.toTemplate], ?_⟩
      rw [hf, scan_args]
      exact plain_texts t.segs 0 hok hw
    · intro x hx a ha
      rw [hf] at hx
      simp only [ScanTemplate.toTemplate] at hx
      rw [zip_map_snd] at hx
      obtain ⟨y, hy, rfl⟩ := List.mem_map.1 hx
      obtain ⟨ty, h1, h2⟩ := hs.allowed y hy
      obtain ⟨v, g1, _, rfl⟩ := plain_get h1
      simp only [List.getElem?_map, g1, Option.map_some, Option.some.injEq] at ha
      subst ha
      exact (plain_allows h2).2
  · have hwr := written_plain hv hback t.segs [] rfl hok
    obtain ⟨used, h1, h2⟩ := scanSegs_fwd (vals.map Plain.ty) t.last stop_nil hwr
      ⟨ofStr (t.input ((plainFields vals 0 t.segs).map (·.1))), vars⟩ hok (by
        simp only [List.length_nil]
        rw [← scan_input_eq]
        exact at_ofStr _) (by simp; omega)
    unfold scanStr
    rw [scan_eq hs]
    simp only [List.length_nil, List.append_nil] at h1 h2
    rw [h2]
    simp only
    rw [if_pos]
    · congr 1
      refine store_eq (by simpa using hl) ?_ ?_
      · intro x hx
        obtain ⟨y, hy, rfl⟩ := List.mem_map.1 hx
        have hval := plainFields_values vals t.segs 0 y hy
        have hmem : y.2.1 ∈ t.format.arguments := by
          rw [scan_args, ← plainFields_args vals]
          exact List.mem_map.2 ⟨y, hy, rfl⟩
        have hk := (hs.arguments y.2.1).1 hmem
        simp only [List.length_map] at hk
        rw [List.getElem?_map, List.getElem?_eq_getElem (by omega), hval, List.getD_eq_getElem?_getD,
          List.getElem?_eq_getElem (by omega)]
        rfl
      · intro k hk
        simp only [List.length_map] at hk
        have := (hs.arguments k).2 (by simpa using by omega)
        rw [scan_args, ← plainFields_args vals] at this
        obtain ⟨y, hy, rfl⟩ := List.mem_map.1 this
        exact ⟨y.2, List.mem_map.2 ⟨y, hy, rfl⟩, rfl⟩
    · have : used.length = (t.input ((plainFields vals 0 t.segs).map (·.1))).length := by
        rw [← h1, scan_input_eq]
      simp [Reader.eof, adv, ofStr, this]

/-- `{}={:#x}{}; {}` for a name, a number, a character and the rest. -/
def mixedTemplate : ScanTemplate :=
  ⟨[([], ⟨[], none⟩), (['='], ⟨[], some { alt := true, type := 'x' }⟩), (" ".toList, ⟨[], none⟩), ("; ".toList, ⟨[], none⟩)], []⟩

def mixedVals : List Plain := [.str "key".toList, .int i32 (-255), .char '{', .str "a; b = c".toList]

/-- It meets the conditions. -/
example : mixedTemplate.text = "{}={:#x} {}; {}".toList ∧ mixedTemplate.Suits (mixedVals.map Plain.ty) ∧
    (∀ v ∈ mixedVals, ValidArg v.arg) ∧ CanBeReadBack mixedTemplate mixedVals ∧
    formatStr mixedTemplate.text (fargs (mixedVals.map Plain.arg)) = .ok () "key=-0xff {; a; b = c".toList ∧
    scanStr "key=-0xff {; a; b = c".toList mixedTemplate.text (mixedVals.map Plain.ty) [.str [], .int 0, .char 'x', .str []] =
      .ok (mixedVals.map Plain.val) () := by
  refine ⟨by decide +kernel, ⟨by decide, by decide, ?_, Or.inl (by unfold FormatText.Automatic; decide), ?_, ?_⟩, ?_, ⟨?_, ?_, ?_⟩, by decide +kernel, by decide +kernel⟩
  · intro s hs
    simp only [mixedTemplate, List.mem_cons, List.not_mem_nil, or_false] at hs
    rcases hs with rfl | rfl | rfl | rfl <;> exact ⟨⟨by decide, by decide⟩, by unfold ScanSpec.Fits; decide⟩
  · intro k
    have : mixedTemplate.format.arguments = [0, 1, 2, 3] := by decide
    rw [this]
    simp [mixedVals]
    omega
  · intro x hx
    have : mixedTemplate.format.arguments.zip mixedTemplate.segs = [(0, ([], ⟨[], none⟩)),
      (1, (['='], ⟨[], some { alt := true, type := 'x' }⟩)), (2, (" ".toList, ⟨[], none⟩)), (3, ("; ".toList, ⟨[], none⟩))] := rfl
    rw [this] at hx
    simp only [List.mem_cons, List.not_mem_nil, or_false] at hx
    rcases hx with rfl | rfl | rfl | rfl
    · exact ⟨.string, rfl, by unfold ScanTy.Allows; decide⟩
    · exact ⟨.int i32, rfl, by unfold ScanTy.Allows; decide⟩
    · exact ⟨.char, rfl, by unfold ScanTy.Allows; decide⟩
    · exact ⟨.string, rfl, by unfold ScanTy.Allows; decide⟩
  · intro v hv
    simp only [mixedVals, List.mem_cons, List.not_mem_nil, or_false] at hv
    rcases hv with rfl | rfl | rfl | rfl
    · unfold ValidArg Plain.arg; decide
    · unfold ValidArg Plain.arg; exact ⟨by simp [IntTy.Std], by decide⟩
    · unfold ValidArg Plain.arg; decide
    · unfold ValidArg Plain.arg; decide
  · decide
  · intro a s b ty n h hn
    rcases a with _ | ⟨x0, _ | ⟨x1, _ | ⟨x2, _ | ⟨x3, a⟩⟩⟩⟩
    all_goals simp only [mixedTemplate, List.nil_append, List.cons_append, List.cons.injEq] at h
    · obtain ⟨rfl, rfl⟩ := h; simp [mixedVals, ScanHole.field, Field.argument] at hn
    · obtain ⟨rfl, rfl, rfl⟩ := h
      refine ⟨by decide, by decide, ?_⟩
      intro h0
      subst h0
      revert hn
      simp [mixedVals, ScanHole.field, Field.argument]
    · obtain ⟨rfl, rfl, rfl, rfl⟩ := h; simp [mixedVals, ScanHole.field, Field.argument] at hn
    · obtain ⟨rfl, rfl, rfl, rfl, rfl⟩ := h; simp [mixedVals, ScanHole.field, Field.argument] at hn
    · simp at h
  · intro a s b x h hn hne
    rcases a with _ | ⟨x0, _ | ⟨x1, _ | ⟨x2, _ | ⟨x3, a⟩⟩⟩⟩
    all_goals simp only [mixedTemplate, List.nil_append, List.cons_append, List.cons.injEq] at h
    · obtain ⟨rfl, rfl⟩ := h
      simp [mixedVals, ScanHole.field, Field.argument] at hn
      subst hn
      refine ⟨by decide, by decide, by decide, by unfold EndsBefore following; decide⟩
    · obtain ⟨rfl, rfl, rfl⟩ := h; simp [mixedVals, ScanHole.field, Field.argument] at hn
    · obtain ⟨rfl, rfl, rfl, rfl⟩ := h; simp [mixedVals, ScanHole.field, Field.argument] at hn
    · obtain ⟨rfl, rfl, rfl, rfl, rfl⟩ := h
      simp [mixedTemplate] at hne
    · simp at h

/-- The conditions are needed: without text between them, two numbers are read as one. -/
example : formatStr "{}{}!".toList (fargs [.int i32 1, .int i32 2]) = .ok () "12!".toList ∧
    scanStr "12!".toList "{}{}!".toList [.int i32, .int i32] [.int 0, .int 0] = .err [.int 12, .int 0] .invalidData := by
  decide +kernel

end Emio
