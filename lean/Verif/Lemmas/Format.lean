import Verif.Lemmas.CoreArg
import Verif.Spec.Template
import Verif.Model.Format
/-
Format strings with arguments of core types; formatting on any buffer.
-/
namespace Emio
open Reader Spec BufferImpl

/-! ### The specifications a type allows -/

theorem noChar_eq : noChar = Char.ofNat 0 := rfl

theorem meaning_sign_none {sp : SpecText} (wf : sp.WellFormed) : sp.meaning.sign = noChar ↔ sp.sign = none := by
  unfold SpecText.meaning
  simp only [noChar_eq]
  cases h : sp.sign with
  | none => simp
  | some c =>
    have := wf.sign c (by simp [h])
    simp at this
    rcases this with rfl | rfl | rfl <;> simp

theorem meaning_prec_none (sp : SpecText) : sp.meaning.precision = noPrecision ↔ sp.prec = none := by
  unfold SpecText.meaning SpecText.precValue noPrecision
  simp only
  cases h : sp.prec with
  | none => simp
  | some p => simp

theorem meaning_type_some {sp : SpecText} (wf : sp.WellFormed) (c : Char) (hc : c ≠ noChar) :
    sp.meaning.type = c ↔ sp.type = some c := by
  unfold SpecText.meaning
  simp only
  cases h : sp.type with
  | none =>
    simp only [Option.getD_none, reduceCtorEq, iff_false]
    exact fun h => hc h.symm
  | some d => simp

theorem meaning_type_none {sp : SpecText} (wf : sp.WellFormed) : sp.meaning.type = noChar ↔ sp.type = none := by
  unfold SpecText.meaning
  simp only
  cases h : sp.type with
  | none => simp [noChar_eq]
  | some d =>
    have := wf.type d (by simp [h])
    simp only [Option.getD_some, reduceCtorEq, iff_false]
    rintro rfl
    revert this
    decide

theorem zero_meaning (sp : SpecText) : sp.meaning.zeroFlag = false ↔ (sp.zero = false ∨ sp.align.isSome) := by
  unfold SpecText.meaning
  simp only
  cases sp.zero <;> cases sp.align <;> simp

theorem textOnly_iff {sp : SpecText} (wf : sp.WellFormed) :
    (!(sp.meaning.alternateForm || sp.meaning.sign != noChar || sp.meaning.zeroFlag)) = true ↔ sp.TextOnly := by
  have h1 := meaning_sign_none wf
  have h2 := zero_meaning sp
  unfold SpecText.TextOnly
  rw [← h1, ← h2]
  have : sp.meaning.alternateForm = sp.alt := rfl
  rw [this]
  simp
  tauto

theorem forInteger_iff {sp : SpecText} (wf : sp.WellFormed) : checkIntegralSpecs sp.meaning = true ↔ sp.ForInteger := by
  unfold checkIntegralSpecs SpecText.ForInteger
  simp only [Bool.and_eq_true, Bool.or_eq_true, beq_iff_eq, meaning_prec_none, meaning_type_none wf]
  rw [meaning_type_some wf 'd' (by decide), meaning_type_some wf 'x' (by decide), meaning_type_some wf 'X' (by decide),
    meaning_type_some wf 'b' (by decide), meaning_type_some wf 'B' (by decide), meaning_type_some wf 'c' (by decide),
    meaning_type_some wf 'o' (by decide), meaning_type_some wf 'O' (by decide)]
  cases sp.type with
  | none => simp
  | some c =>
    simp [integerTypes, or_assoc]

theorem allows_iff (ty : CoreTy) {sp : SpecText} (wf : sp.WellFormed) :
    ty.check sp.meaning = true ↔ CoreTy.Allows ty sp := by
  cases ty with
  | int t =>
    show (checkIntegralSpecs sp.meaning && (t.signed || checkUnsignedSpecs sp.meaning)) = true ↔ _
    unfold CoreTy.Allows
    rw [Bool.and_eq_true, forInteger_iff wf, Bool.or_eq_true]
    unfold checkUnsignedSpecs
    rw [beq_iff_eq, meaning_sign_none wf]
  | bool =>
    show checkBoolSpecs sp.meaning = true ↔ _
    unfold checkBoolSpecs CoreTy.Allows
    simp only [ne_eq, meaning_type_none wf, meaning_type_some wf 's' (by decide)]
    split
    · rename_i h
      rw [forInteger_iff wf]
      unfold SpecText.ForInteger
      refine and_congr_right fun _ => ⟨fun g c hc => Or.inr (g c hc), fun g c hc => (g c hc).resolve_left ?_⟩
      rintro rfl
      exact h.2 hc
    · rename_i h
      rw [beq_iff_eq, meaning_prec_none]
      cases ht : sp.type with
      | none => simp
      | some c => simp [ht] at h; simp [h]
  | char =>
    show checkCharSpecs sp.meaning = true ↔ _
    unfold checkCharSpecs CoreTy.Allows
    simp only [ne_eq, meaning_type_none wf, meaning_type_some wf 'c' (by decide), meaning_type_some wf '?' (by decide)]
    split
    · rename_i h
      rw [forInteger_iff wf]
      unfold SpecText.ForInteger
      refine and_congr_right fun _ => ?_
      cases ht : sp.type with
      | none => simp [ht] at h
      | some c =>
        simp [ht] at h
        simp [h]
    · rename_i h
      have h1 := textOnly_iff wf
      have h2 := meaning_prec_none sp
      simp only [Bool.or_eq_true, Bool.not_eq_true', Bool.or_eq_false_iff, bne_eq_false_iff_eq] at *
      rw [h1, h2]
      cases ht : sp.type with
      | none => simp; tauto
      | some c =>
        simp [ht] at h
        have : c = 'c' ∨ c = '?' := by tauto
        rcases this with rfl | rfl
        · simp only [Option.mem_def, Option.some.injEq, forall_eq', exists_eq_left', ne_eq, not_true, false_and, or_false,
            true_or, and_true]
          exact and_comm
        · simp only [Option.mem_def, Option.some.injEq, forall_eq', exists_eq_left', or_true, and_true]
          have : '?' ∉ integerTypes := by decide
          simp only [this, and_false, or_false]
          exact and_comm
  | pointer =>
    show checkPointerSpecs sp.meaning = true ↔ _
    unfold checkPointerSpecs CoreTy.Allows
    simp only [ne_eq, meaning_type_none wf, meaning_type_some wf 'p' (by decide)]
    split
    · rename_i h
      cases ht : sp.type with
      | none => simp [ht] at h
      | some c => simp [ht] at h; simp [h]
    · rename_i h
      have h1 := textOnly_iff wf
      have h2 := meaning_prec_none sp
      simp only [Bool.or_eq_true, Bool.not_eq_true', Bool.or_eq_false_iff, bne_eq_false_iff_eq] at *
      rw [h1, h2]
      cases ht : sp.type with
      | none => simp; tauto
      | some c =>
        simp [ht] at h
        simp [h]
        tauto
  | double =>
    show checkFloatingPointSpecs sp.meaning = true ↔ _
    unfold checkFloatingPointSpecs CoreTy.Allows
    have hp : sp.meaning.precision = sp.precValue := rfl
    simp only [Bool.and_eq_true, Bool.or_eq_true, beq_iff_eq, meaning_type_none wf, hp]
    rw [meaning_type_some wf 'f' (by decide), meaning_type_some wf 'F' (by decide), meaning_type_some wf 'e' (by decide),
      meaning_type_some wf 'E' (by decide), meaning_type_some wf 'g' (by decide), meaning_type_some wf 'G' (by decide)]
    cases sp.type with
    | none => simp
    | some c =>
      simp
      tauto
  | string =>
    show checkStringSpecs sp.meaning = true ↔ _
    unfold checkStringSpecs CoreTy.Allows
    have h1 := textOnly_iff wf
    have h2 := meaning_prec_none sp
    have h3 := meaning_type_none wf
    have h4 := meaning_type_some wf 's' (by decide)
    have h5 := meaning_type_some wf '?' (by decide)
    simp only
    rw [← h1]
    cases ht : sp.type with
    | none =>
      simp [ht] at h3 h4 h5
      simp [h3, noChar]
    | some c =>
      rw [← ht, ← h5, ← h2]
      have e : sp.meaning.type = c := by unfold SpecText.meaning; simp [ht]
      have hc : c ≠ noChar := by
        intro h
        rw [h] at e
        simp [h3, ht] at e
      clear h1 h2 h3 h4 h5
      by_cases q : c = '?'
      · subst q
        simp [e, ht, noChar, and_assoc]
      · by_cases q' : c = 's'
        · subst q'
          simp [e, ht, noChar, and_assoc]
        · simp [e, ht, hc, q, q']

/-! ### Formatting -/

/-- On every buffer, formatting performs certain calls, which write `text` and ask for at most `k` contiguous
characters. -/
def Formats (str : Str) (args : List FArg) (text : Str) (k : Nat) : Prop :=
  ∃ ops, render ops = text ∧ (∀ op ∈ ops, op.Fine ∧ op.need ≤ k) ∧
    ∀ {σ : Type} [BufferImpl σ] (s : σ), formatTo str args s = execAll ops s

theorem execAll_single {σ : Type} [BufferImpl σ] (op : WOp) (s : σ) : execAll [op] s = op.exec s := by
  unfold execAll
  cases h : op.exec s with
  | ok s' u => rw [M.bind_ok h]; rfl
  | err s' e => rw [M.bind_err h]
  | bad b => rw [M.bind_bad h]

theorem escBraces_mem_left {l : Str} (h : '{' ∉ escBraces l) : '{' ∉ l := by
  intro hl
  apply h
  unfold escBraces
  rw [List.mem_flatMap]
  exact ⟨'{', hl, by simp⟩

theorem escBraces_mem_right {l : Str} (h : '}' ∉ escBraces l) : '}' ∉ l := by
  intro hl
  apply h
  unfold escBraces
  rw [List.mem_flatMap]
  exact ⟨'}', hl, by simp⟩

theorem escBraces_plain : ∀ {l : Str}, '{' ∉ l → '}' ∉ l → escBraces l = l := by
  intro l
  induction l with
  | nil => intros; rfl
  | cons c l ih =>
    intro h1 h2
    simp only [List.mem_cons, not_or] at h1 h2
    have := ih h1.2 h2.2
    unfold escBraces at *
    rw [List.flatMap_cons, this, if_neg (Ne.symm h1.1), if_neg (Ne.symm h2.1)]
    rfl

theorem plain_iff (str : Str) : checkIfPlainString str = true ↔ '{' ∉ str ∧ '}' ∉ str := by
  unfold checkIfPlainString
  simp

theorem plain_text {t : FormatText} (h : checkIfPlainString t.text = true) : t.segs = [] ∧ t.text = t.last := by
  rw [plain_iff] at h
  have hs : t.segs = [] := by
    cases hs : t.segs with
    | nil => rfl
    | cons s ss =>
      exfalso
      apply h.1
      unfold FormatText.text
      rw [hs]
      simp [Field.text]
  refine ⟨hs, ?_⟩
  unfold FormatText.text at *
  rw [hs] at h ⊢
  simp only [List.flatMap_nil, List.nil_append] at *
  exact escBraces_plain (escBraces_mem_left h.1) (escBraces_mem_right h.2)

theorem segs_length_le (t : FormatText) : t.segs.length ≤ t.text.length := by
  unfold FormatText.text
  induction t.segs with
  | nil => simp
  | cons s ss ih =>
    simp only [List.length_cons, List.flatMap_cons, List.length_append, Field.text] at *
    omega

/-- A format string whose fields are accepted by the arguments, and what may follow. -/
theorem formats_tail (t : FormatText) (tail : Str) (args : List FArg) (texts : List Str) (k : Nat) (hlen : args.length ≤ 128)
    (wf : ∀ f ∈ t.fields, f.WellFormed) (mode : t.Automatic ∨ t.Explicit)
    (hargs : ∀ k, k ∈ t.arguments ↔ k < args.length)
    (hreads : ReadsBehind args k (escBraces t.last ++ tail) 0 t.segs texts)
    (htail : tail = [] ∨ Begins255 tail ∧ t.Explicit) :
    Formats (t.text ++ tail) args (t.output texts) k := by
  have hrep := Bitset.rep_new 128
  have hmode : ModeOk none t.fields := by
    rcases mode with h | h
    · exact Or.inl ⟨h, by simp⟩
    · exact Or.inr ⟨h, by simp⟩
  obtain ⟨⟨b, hb, hb'⟩, f, new, h1, h2, h3, h4⟩ := loop_forward_tail args hlen k t.last tail t.segs texts
    ((t.text ++ tail).length + 1)
    ⟨Reader.ofStr (t.text ++ tail), none, 0⟩ (Bitset.new 128) [] [] hrep rfl
    (by
      have := Reader.at_ofStr (t.text ++ tail)
      unfold FormatText.text at this ⊢
      rw [List.append_assoc] at this ⊢
      exact this)
    (by have := segs_length_le t; simp only [List.length_append]; omega)
    (fun s hs => wf s.2 (List.mem_map_of_mem hs)) hmode (by simp)
    (fun k hk => (hargs k).1 (by rw [argsFrom_eq]; exact hk)) hreads
    (htail.imp id fun h => ⟨h.1, h.2, by simp⟩)
  have hbt : b = true := hb'.2 fun k hk => Or.inr (by rw [← hargs k, argsFrom_eq] at hk; exact hk)
  subst hbt
  by_cases hp : args.length = 0 ∧ checkIfPlainString (t.text ++ tail) = true
  · have ht0 : tail = [] := by
      rcases htail with h | ⟨⟨ds, c, rest, h, _⟩, _⟩
      · exact h
      · have := ((plain_iff _).1 hp.2).1
        rw [h] at this
        simp at this
    subst ht0
    rw [List.append_nil] at hp ⊢
    obtain ⟨hs, ht⟩ := plain_text hp.2
    refine ⟨[.str t.text], ?_, ?_, ?_⟩
    · rw [ht]
      simp [render, FormatText.output, hs, WOp.text]
    · have := map_str_fine [t.text]
      simp only [List.map_cons, List.map_nil] at this
      exact fun op ho => ⟨(this op ho).1, by have := (this op ho).2; omega⟩
    · intro σ _ s
      rw [execAll_single]
      unfold formatTo VStr.make
      rw [if_pos hp]
      rfl
  · refine ⟨new, h3, h4, ?_⟩
    intro σ _ s
    unfold formatTo VStr.make validateStr
    rw [if_neg hp, hb]
    unfold vformatTo
    simp only [Bool.false_eq_true, if_false]
    unfold runOn formatRun
    rw [h1]
    simp only
    rw [h2]
    rfl

/-- A format string whose fields are accepted by the arguments. -/
theorem formats_segs (t : FormatText) (args : List FArg) (texts : List Str) (k : Nat) (hlen : args.length ≤ 128)
    (wf : ∀ f ∈ t.fields, f.WellFormed) (mode : t.Automatic ∨ t.Explicit)
    (hargs : ∀ k, k ∈ t.arguments ↔ k < args.length) (hreads : ReadsSegs args k t.last 0 t.segs texts) :
    Formats t.text args (t.output texts) k := by
  have := formats_tail t [] args texts k hlen wf mode hargs (by simpa using hreads) (Or.inl rfl)
  simpa using this

theorem formats_text (t : FormatText) (args : List FArg) (texts : List Str) (k : Nat) (hlen : args.length ≤ 128)
    (wf : ∀ f ∈ t.fields, f.WellFormed) (mode : t.Automatic ∨ t.Explicit)
    (hargs : ∀ k, k ∈ t.arguments ↔ k < args.length) (hreads : ReadsAll args k 0 t.fields texts) :
    Formats t.text args (t.output texts) k :=
  formats_segs t args texts k hlen wf mode hargs (readsSegs_of_all _ _ _ hreads)

/-- An accepted format string. -/
theorem formatTo_sound {str : Str} {args : List FArg} {k : Nat} {E : Prop} (hs : ∀ a ∈ args, a.Sound str k E)
    (ht : ∀ a ∈ args, a.Tame) (hv : validateStr str args = .ok () true) :
    ∃ ops, (∀ op ∈ ops, op.Fine ∧ op.need ≤ k) ∧
      ((∀ {σ : Type} [BufferImpl σ] (s : σ), formatTo str args s = execAll ops s) ∨
        E ∧ ∃ e, e = Err.invalidFormat ∧ ∀ {σ : Type} [BufferImpl σ] (s : σ), formatTo str args s =
          (do execAll ops; M.throw e : M σ Unit) s) := by
  by_cases hp : args.length = 0 ∧ checkIfPlainString str = true
  · refine ⟨[.str str], ?_, Or.inl ?_⟩
    · have := map_str_fine [str]
      simp only [List.map_cons, List.map_nil] at this
      exact fun op ho => ⟨(this op ho).1, by have := (this op ho).2; omega⟩
    · intro σ _ s
      rw [execAll_single]
      unfold formatTo VStr.make
      rw [if_pos hp]
      rfl
  · obtain ⟨f, new, h1, h2, h3⟩ := loop_sound args str k E hs ht (str.length + 1) ⟨Reader.ofStr str, none, 0⟩
      (Bitset.new 128) [] (Reader.at_ofStr _).1 rfl hv
    refine ⟨new, h2, ?_⟩
    have hto : ∀ {σ : Type} [BufferImpl σ] (s : σ), formatTo str args s = runOn (formatRun str args) s := by
      intro σ _ s
      unfold formatTo VStr.make
      rw [if_neg hp, hv]
      rfl
    rcases h3 with h3 | ⟨hE, e, he, h3⟩
    · left
      intro σ _ s
      rw [hto]
      unfold runOn formatRun
      rw [h3]
      simp only
      rw [h1]
      rfl
    · right
      refine ⟨hE, e, he, ?_⟩
      intro σ _ s
      rw [hto]
      unfold runOn formatRun
      rw [h3]
      simp only
      rw [h1]
      simp only [List.nil_append]
      cases hx : execAll new s with
      | ok s' u => rw [M.bind_ok hx]; rfl
      | err s' e => rw [M.bind_err hx]
      | bad b => rw [M.bind_bad hx]

theorem readsAll_of {args : List FArg} {k : Nat} : ∀ (fs : List Field) (ts : List Str) (i : Nat),
    ts.length = fs.length →
    (∀ x ∈ ((argsFrom i fs).zip fs).zip ts, ∃ a, args[x.1.1]? = some a ∧ a.Reads x.1.2.body x.2 k) →
    ReadsAll args k i fs ts := by
  intro fs
  induction fs with
  | nil =>
    intro ts i hl _
    cases ts with
    | nil => trivial
    | cons => simp at hl
  | cons f fs ih =>
    intro ts i hl h
    cases ts with
    | nil => simp at hl
    | cons t ts =>
      simp only [argsFrom, List.zip_cons_cons, List.mem_cons, forall_eq_or_imp] at h
      exact ⟨h.1, ih ts (i + 1) (by simpa using hl) h.2⟩

/-! ### Templates -/

/-- The known deviations: presentation type `O`, the width of a character in debug form, and the zero a floating-point
number may lose in fixed notation. -/
def Deviates (a : CoreArg) (s : Specs) : Prop := OctalO a s ∨ LongDebugChar a s ∨ FixedLosesZero a s

theorem noSpec_ok : SpecText.WellFormed {} ∧ SpecText.Fits {} :=
  ⟨⟨by simp, by simp, by simp, by simp, by simp, by simp, by simp⟩, by decide, by decide⟩

theorem hole_reads (a : CoreArg) (h : Hole) (hg : ∀ sp ∈ h.spec, sp.WellFormed ∧ sp.Fits)
    (hal : CoreTy.Allows a.ty (h.spec.getD {})) (ha : ValidArg a) (hd : ¬ Deviates a h.specs) :
    a.farg.Reads h.field.body (argText a h.specs) 1421 := by
  have hwf : (h.spec.getD {}).WellFormed ∧ (h.spec.getD {}).Fits := by
    cases hs : h.spec with
    | none => exact noSpec_ok
    | some sp => exact hg sp hs
  have hb : h.field.body = (h.spec.getD {}).text ++ ['}'] := by
    unfold Hole.field
    cases hs : h.spec <;> rfl
  rw [hb]
  have hc := (allows_iff a.ty hwf.1).2 hal
  refine core_reads a _ hwf.1 hwf.2 hc ?_
  unfold Hole.specs at *
  exact core_emits a _ (meaning_ok hwf.2) ha hc (fun h => hd (Or.inl h)) (fun h => hd (Or.inr (Or.inl h)))
    (fun h => hd (Or.inr (Or.inr h))) (needs_any a _ (meaning_ok hwf.2) hc)

theorem template_fields (t : Template) : t.format.fields = t.segs.map fun s => s.2.field := by
  simp [Template.format, FormatText.fields]

theorem zip_map_snd {α β γ : Type} (f : β → γ) (l : List α) (m : List β) :
    l.zip (m.map f) = (l.zip m).map fun x => (x.1, f x.2) := by
  rw [List.zip_map_right]
  rfl

theorem mem_zip_of {α β : Type} {l : List α} {m : List β} {x : α × β} (h : x ∈ l.zip m) : x.1 ∈ l ∧ x.2 ∈ m := by
  obtain ⟨a, b⟩ := x
  exact List.of_mem_zip h

theorem formats_template (t : Template) (args : List CoreArg) (texts : List Str) (suits : t.Suits args)
    (hv : ∀ a ∈ args, ValidArg a) (ht : t.Texts args texts)
    (hd : ∀ x ∈ t.format.arguments.zip t.segs, ∀ a, args[x.1]? = some a → ¬ Deviates a x.2.2.specs) :
    Formats t.text (args.map CoreArg.farg) (t.output texts) 1421 := by
  refine formats_text t.format _ texts 1421 (by simpa using suits.number) ?_ suits.mode (by simpa using suits.arguments) ?_
  · intro f hf
    rw [template_fields, List.mem_map] at hf
    obtain ⟨s, hs, rfl⟩ := hf
    refine ⟨fun c hc => suits.digits s hs c hc, fun hcol => ?_⟩
    unfold Hole.field at hcol ⊢
    simp only at hcol ⊢
    cases hsp : s.2.spec with
    | none => rfl
    | some sp => rw [hsp] at hcol; simp at hcol
  · apply readsAll_of
    · rw [template_fields]; simpa using ht.1
    · rw [← argsFrom_eq, template_fields, zip_map_snd]
      intro x hx
      rw [List.zip_map_left, List.mem_map] at hx
      obtain ⟨y, hy, rfl⟩ := hx
      obtain ⟨a, h1, h2⟩ := ht.2 y hy
      have hy1 := (mem_zip_of hy).1
      have hy2 := (mem_zip_of hy1).2
      obtain ⟨a', h1', h3⟩ := suits.allowed y.1 hy1
      rw [h1] at h1'
      obtain rfl := Option.some.inj h1'
      refine ⟨a.farg, by simp [h1], ?_⟩
      show a.farg.Reads y.1.2.2.field.body y.2 1421
      rw [← h2]
      exact hole_reads a y.1.2.2 (suits.grammar y.1.2 hy2) h3 (hv a (List.mem_of_getElem? h1)) (hd y.1 hy1 a h1)

/-! ### Only templates are accepted -/

theorem spec_text_no_brace {sp : SpecText} (wf : sp.WellFormed) : '}' ∉ sp.text := by
  intro h
  unfold SpecText.text at h
  simp only [List.mem_append, Option.mem_toList] at h
  rcases h with ((((((h | h) | h) | h) | h) | h) | h) | h
  · exact (wf.fill _ h).2.2 rfl
  · have := wf.align _ h; revert this; decide
  · have := wf.sign _ h; revert this; decide
  · split at h <;> simp at h
  · split at h <;> simp at h
  · have := wf.width _ h; revert this; decide
  · cases hp : sp.prec with
    | none => rw [hp] at h; simp at h
    | some p =>
      rw [hp] at h
      simp only [List.mem_cons] at h
      rcases h with h | h
      · revert h; decide
      · have := (wf.prec p (by simp [hp])).2 _ h; revert this; decide
  · have := wf.type _ h; revert this; decide

theorem spec_text_nil {sp : SpecText} (h : sp.text = []) : sp = {} := by
  obtain ⟨f, a, s, al, z, w, p, t⟩ := sp
  unfold SpecText.text at h
  simp only [List.append_eq_nil_iff, Option.toList_eq_nil_iff] at h
  obtain ⟨⟨⟨⟨⟨⟨⟨h1, h2⟩, h3⟩, h4⟩, h5⟩, h6⟩, h7⟩, h8⟩ := h
  subst h1 h2 h3 h6 h8
  cases al <;> cases z <;> cases p <;> simp_all

theorem core_takes (a : CoreArg) {body : Str} (h : a.farg.Takes body) :
    ∃ sp : SpecText, (sp.WellFormed ∧ (sp.widthValue < 2 ^ 32 → sp.precValue < 2 ^ 32 → sp.Fits)) ∧
      body = sp.text ++ ['}'] ∧ (sp.Fits → a.ty.check sp.meaning = true) := by
  obtain ⟨r, tail, hat, hv⟩ := h
  obtain ⟨s, h1, h2, _⟩ := C27_formatter_parse_agrees_with_validate a r _ hat.1 hv
  obtain ⟨sp, tail', wf, hrest, hr', hs⟩ := specs_backward hat.1 h1
  refine ⟨sp, ⟨wf, fun hw hp => ?_⟩, ?_, fun fits => by rw [← hs fits]; exact h2⟩
  · by_contra hf
    obtain ⟨r'', he⟩ := specs_reject wf hw hp hf ⟨hat.1, hrest⟩
    rw [he] at h1
    cases h1
  have hlen : body.length = (sp.text ++ ['}']).length := by
    have := congrArg Reader.pos hr'
    simp [Reader.adv] at this ⊢
    omega
  have he : body ++ tail = (sp.text ++ ['}']) ++ tail' := by
    rw [← hat.2, hrest]; simp
  exact (List.append_inj he hlen).1

theorem hole_of_field (a : CoreArg) (f : Field) (wf : f.WellFormed) (h : a.farg.Takes f.body) :
    ∃ hole : Hole, hole.field = f ∧
      (∀ sp ∈ hole.spec, sp.WellFormed ∧ (sp.widthValue < 2 ^ 32 → sp.precValue < 2 ^ 32 → sp.Fits)) ∧
      ((hole.spec.getD {}).Fits → CoreTy.Allows a.ty (hole.spec.getD {})) := by
  obtain ⟨sp, ⟨hwf, hsm⟩, hb, hc⟩ := core_takes a h
  obtain ⟨idx, colon, body⟩ := f
  simp only at hb
  cases colon with
  | true =>
    refine ⟨⟨idx, some sp⟩, by simp [Hole.field, hb], by simpa using ⟨hwf, hsm⟩, fun fits => ?_⟩
    exact (allows_iff a.ty hwf).1 (hc fits)
  | false =>
    have hn : sp.text = [] := by
      have := wf.body rfl
      simp only [hb] at this
      cases hs : sp.text with
      | nil => rfl
      | cons c l =>
        rw [hs] at this
        simp only [List.cons_append, List.head?_cons, Option.some.injEq] at this
        exact absurd (by rw [hs, this]; simp) (spec_text_no_brace hwf)
    obtain rfl := spec_text_nil hn
    refine ⟨⟨idx, none⟩, by simp [Hole.field, hb, hn], by simp, fun fits => ?_⟩
    exact (allows_iff a.ty hwf).1 (hc fits)

theorem holes_of_segs (args : List CoreArg) : ∀ (segs : List (Str × Field)) (i : Nat),
    (∀ s ∈ segs, s.2.WellFormed) →
    (∀ x ∈ (argsFrom i (segs.map (·.2))).zip (segs.map (·.2)), ∃ a, (args.map CoreArg.farg)[x.1]? = some a ∧
      a.Takes x.2.body) →
    ∃ hs : List (Str × Hole), hs.map (fun s => (s.1, s.2.field)) = segs ∧
      (∀ s ∈ hs, ∀ sp ∈ s.2.spec, sp.WellFormed ∧ (sp.widthValue < 2 ^ 32 → sp.precValue < 2 ^ 32 → sp.Fits)) ∧
      ∀ x ∈ (argsFrom i (segs.map (·.2))).zip hs, ∃ a, args[x.1]? = some a ∧
        ((x.2.2.spec.getD {}).Fits → CoreTy.Allows a.ty (x.2.2.spec.getD {})) := by
  intro segs
  induction segs with
  | nil => intro i _ _; exact ⟨[], rfl, by simp, by simp⟩
  | cons s segs ih =>
    intro i hwf h
    simp only [List.map_cons, argsFrom, List.zip_cons_cons, List.mem_cons, forall_eq_or_imp] at h hwf
    obtain ⟨⟨fa, hfa, htakes⟩, h⟩ := h
    obtain ⟨hs, g1, g2, g3⟩ := ih (i + 1) hwf.2 h
    rw [List.getElem?_map, Option.map_eq_some_iff] at hfa
    obtain ⟨a, ha, rfl⟩ := hfa
    obtain ⟨hole, h1, h2, h3⟩ := hole_of_field a s.2 hwf.1 htakes
    refine ⟨(s.1, hole) :: hs, by simp [g1, h1], ?_, ?_⟩
    · simp only [List.mem_cons, forall_eq_or_imp]
      exact ⟨h2, g2⟩
    · simp only [List.map_cons, argsFrom, List.zip_cons_cons, List.mem_cons, forall_eq_or_imp]
      exact ⟨⟨a, ha, h3⟩, g3⟩

theorem accepted_template {str : Str} {args : List CoreArg} (hlen : args.length ≤ 128)
    (hv : validateStr str (args.map CoreArg.farg) = .ok () true) :
    ∃ (t : Template) (tail : Str), str = t.text ++ tail ∧
      (tail = [] ∨ Begins255 tail ∧ t.format.Explicit) ∧
      ((∀ s ∈ t.segs, ∀ sp ∈ s.2.spec, sp.Fits) → t.Suits args) ∧
      ∀ s ∈ t.segs, ∀ sp ∈ s.2.spec, sp.WellFormed ∧ (sp.widthValue < 2 ^ 32 → sp.precValue < 2 ^ 32 → sp.Fits) := by
  have ht : ∀ a ∈ args.map CoreArg.farg, a.Tame := by
    intro a ha
    rw [List.mem_map] at ha
    obtain ⟨c, _, rfl⟩ := ha
    exact core_tame c
  obtain ⟨t, tail, g1, g2, g3, g4, g5, g6, g7⟩ := loop_backward _ ht (str.length + 1) ⟨Reader.ofStr str, none, 0⟩
    (Bitset.new 128) [] (Bitset.rep_new 128) rfl (Reader.at_ofStr _).1 (by simp) hv
  obtain ⟨hs, h1, h2, h3⟩ := holes_of_segs args t.segs 0
    (fun s hs => g2 s.2 (List.mem_map_of_mem hs)) g6
  have hf : (Template.mk hs t.last).format = t := by
    unfold Template.format
    simp only [h1]
  refine ⟨⟨hs, t.last⟩, tail, ?_, g7.imp id fun h => ⟨h.1, by rw [hf]; exact h.2.1⟩, fun hfit => ⟨hlen, ?_, ?_, ?_, ?_, ?_⟩, h2⟩
  · unfold Template.text
    rw [hf, ← g1]
    exact (Reader.at_ofStr _).2.symm
  · intro s hmem c hc
    have : s.2.field ∈ t.fields := by
      unfold FormatText.fields
      rw [← h1]
      simp only [List.map_map, List.mem_map]
      exact ⟨s, hmem, rfl⟩
    exact (g2 _ this).idx c hc
  · exact fun s hmem sp hsp => ⟨(h2 s hmem sp hsp).1, hfit s hmem sp hsp⟩
  · rw [hf]
    rcases g3 with ⟨h, _⟩ | ⟨h, _⟩
    · exact Or.inl h
    · exact Or.inr h
  · intro k
    rw [hf, argsFrom_eq]
    simp only [List.length_map, List.not_mem_nil, false_or] at g4 g5
    exact ⟨g4 k, g5 k⟩
  · intro x hx
    rw [hf, argsFrom_eq] at hx
    obtain ⟨a, ha, hal⟩ := h3 x hx
    refine ⟨a, ha, hal ?_⟩
    cases hsp : x.2.2.spec with
    | none => exact noSpec_ok.2
    | some sp => exact hfit x.2 (mem_zip_of hx).2 sp hsp

end Emio
