import Verif.Lemmas.Values
import Verif.Lemmas.FormatApi
/-
Ranges, tuples, optionals and variants as arguments.
-/
namespace Emio
open Reader Spec

/-! ### What core values are rendered as -/

/-- The text a core value is written as. -/
def Written (a : CoreArg) (sp : SpecText) (text : Str) : Prop := Emits (a.write sp.meaning) text 1421

theorem coreEmits_written : CoreEmits Written 1421 := fun _ _ _ _ _ _ _ h => h

theorem coreTotal_written : CoreTotal Written 1421 := by
  intro a sp wf fits allows valid
  by_cases hO : OctalO a sp.meaning
  · right
    refine ⟨hO.1, fun ops => ?_⟩
    obtain ⟨new, e, g1, g2, g3⟩ := core_octal a _ hO ops
    exact ⟨new, e, g1, g2, fun op ho => ⟨(g3 op ho).1, by have := (g3 op ho).2; omega⟩⟩
  · left
    have hc := (allows_iff a.ty wf).2 allows
    exact core_emits_some a _ (meaning_ok fits) valid hc hO (needs_any a _ (meaning_ok fits) hc)

theorem coreEmits_argText : CoreEmits (fun a sp text => argText a sp.meaning = text ∧ ¬ Deviates a sp.meaning) 1421 := by
  rintro a sp text wf fits allows valid ⟨rfl, hd⟩
  have hc := (allows_iff a.ty wf).2 allows
  exact core_emits a _ (meaning_ok fits) valid hc (fun h => hd (Or.inl h)) (fun h => hd (Or.inr (Or.inl h)))
    (fun h => hd (Or.inr (Or.inr h))) (needs_any a _ (meaning_ok fits) hc)

/-! ### Types take the empty specification -/

mutual
theorem takes_nil : ∀ ty : FTy, Spec.Takes ty []
  | .core t => .core (sp := {}) noSpec_ok.1 noSpec_ok.2 (noSpec_allows t)
  | .range curly t => .range (n := false) (elem := none) (takes_nil t)
  | .tuple entry ts => .tuple (n := false) (elem := none) (takes_nil_each ts) (by simp)
  | .optional t => .optional (takes_nil t)
  | .monostate => .monostate
  | .variant ts => .variant (takes_nil_each ts)

theorem takes_nil_each : ∀ ts : List FTy, ∀ t ∈ ts, Spec.Takes t []
  | [] => by simp
  | t :: ts => by
    intro u hu
    rcases List.mem_cons.1 hu with e | hu
    · rw [e]; exact takes_nil t
    · exact takes_nil_each ts u hu
end

/-! ### Values in format strings -/

theorem value_readsBefore {R : CoreArg → SpecText → Str → Prop} {k : Nat} (hR : CoreEmits R k) (hk : 1 ≤ k) {ty : FTy}
    {v : FVal} {s text tail : Str} (hv : HasType v ty) (hs : Spec.Takes ty s) (ht : Renders R ty v false s text)
    (hb : Behind ty tail) : (v.farg ty).ReadsBefore (s ++ ['}']) text k tail := by
  obtain ⟨h1, h2⟩ := works hR hk hs
  obtain ⟨f, h3, h4, _⟩ := h2 none (by simp)
  intro r hat
  have hat' : r.At (s ++ '}' :: tail) := by simpa using hat
  have hl : (s ++ ['}']).length = s.length + 1 := by simp
  rw [hl]
  refine ⟨h1 r tail hb hat', _, ?_, h4 v text hv ht⟩
  show (do let f ← ty.fresh.parse; return v.format f) r = _
  rw [Fmtr.parse, M.bind_ok (h3 r tail hb hat')]
  rfl

theorem value_formats {R : CoreArg → SpecText → Str → Prop} {k : Nat} (hR : CoreEmits R k) (hk : 1 ≤ k) {ty : FTy}
    {v : FVal} {s text : Str} (hv : HasType v ty) (hs : Spec.Takes ty s) (ht : Renders R ty v false s text) :
    Formats (fieldText s) [v.farg ty] text k := by
  have h := formats_segs ⟨[([], ⟨[], true, s ++ ['}']⟩)], []⟩ [v.farg ty] [text] k (by simp)
    (by intro f hf; simp [FormatText.fields] at hf; subst hf; exact ⟨by simp, by simp⟩)
    (Or.inl (by intro f hf; simp [FormatText.fields] at hf; subst hf; rfl))
    (by intro k; simp [FormatText.arguments, FormatText.fields, Field.argument])
    (by
      refine ⟨⟨v.farg ty, rfl, ?_⟩, trivial⟩
      exact value_readsBefore hR hk hv hs ht (Or.inr rfl))
  simpa [FormatText.text, FormatText.output, Field.text, escBraces, fieldText] using h

theorem value_formats_plain {R : CoreArg → SpecText → Str → Prop} {k : Nat} (hR : CoreEmits R k) (hk : 1 ≤ k) {ty : FTy}
    {v : FVal} {text : Str} (hv : HasType v ty) (ht : Renders R ty v false [] text) :
    Formats ['{', '}'] [v.farg ty] text k := by
  have h := formats_segs ⟨[([], ⟨[], false, ['}']⟩)], []⟩ [v.farg ty] [text] k (by simp)
    (by intro f hf; simp [FormatText.fields] at hf; subst hf; exact ⟨by simp, by simp⟩)
    (Or.inl (by intro f hf; simp [FormatText.fields] at hf; subst hf; rfl))
    (by intro k; simp [FormatText.arguments, FormatText.fields, Field.argument])
    (by
      refine ⟨⟨v.farg ty, rfl, ?_⟩, trivial⟩
      exact value_readsBefore hR hk (s := []) hv (takes_nil ty) ht (Or.inr rfl))
  simpa [FormatText.text, FormatText.output, Field.text, escBraces] using h

/-- Without the presentation type `O`, every value has a rendering. -/
theorem value_renders {ty : FTy} {v : FVal} {s : Str} (hv : HasType v ty) (hs : Spec.Takes ty s) (hO : 'O' ∉ s)
    {q : Bool} (hq : q = true → s = []) : ∃ text, Renders Written ty v q s text := by
  obtain ⟨_, h2⟩ := works coreEmits_written (by decide) hs
  obtain ⟨f, _, _, h5⟩ := h2 (some q) (fun h => hq (Option.some.inj h))
  rcases h5 coreTotal_written v hv with h | ⟨h, _⟩
  · exact h
  · exact absurd h hO

/-! ### Validation -/

/-- The beginning of a specification is rejected, or it is `}`, `n}`, `:` or `n:`. -/
theorem validateHead_cases {r : Reader} (hr : r.Inv) : (∃ r' e, validateRangeHead r = .err r' e) ∨
    ∃ (n : Bool) (tail : Str), (validateRangeHead r = .ok (r.adv ((if n then 1 else 0) + 1)) false ∧
        r.At ((if n then ['n'] else []) ++ '}' :: tail)) ∨
      (validateRangeHead r = .ok (r.adv ((if n then 1 else 0) + 1)) true ∧
        r.At ((if n then ['n'] else []) ++ ':' :: tail)) := by
  have hsnd : ∀ (c : Char) (u : Reader), (∃ r' e, (if c = '}' then return false
      else if c = ':' then return true else M.throw .invalidFormat : M Reader Bool) u = .err r' e) ∨
      (c = '}' ∧ (if c = '}' then return false
      else if c = ':' then return true else M.throw .invalidFormat : M Reader Bool) u = .ok u false) ∨
      (c = ':' ∧ (if c = '}' then return false
      else if c = ':' then return true else M.throw .invalidFormat : M Reader Bool) u = .ok u true) := by
    intro c u
    by_cases h1 : c = '}'
    · right; left; exact ⟨h1, by rw [if_pos h1]; rfl⟩
    · by_cases h2 : c = ':'
      · right; right; exact ⟨h2, by rw [if_neg h1, if_pos h2]; rfl⟩
      · left; exact ⟨u, .invalidFormat, by rw [if_neg h1, if_neg h2]; rfl⟩
  unfold validateRangeHead
  cases hrest : r.rest with
  | nil =>
    left
    have hat : r.At [] := ⟨hr, hrest⟩
    exact ⟨r, _, M.bind_err hat.readChar_nil⟩
  | cons c l =>
    have hat : r.At (c :: l) := ⟨hr, hrest⟩
    rw [M.bind_ok hat.readChar]
    by_cases hn : c = 'n'
    · subst hn
      rw [if_pos rfl]
      cases l with
      | nil => exact Or.inl ⟨_, _, M.bind_err hat.adv1.readChar_nil⟩
      | cons c2 l2 =>
        rw [M.bind_ok hat.adv1.readChar, adv_adv]
        rcases hsnd c2 (r.adv (1 + 1)) with h | ⟨rfl, h⟩ | ⟨rfl, h⟩
        · exact Or.inl h
        · exact Or.inr ⟨true, l2, Or.inl ⟨h, hat⟩⟩
        · exact Or.inr ⟨true, l2, Or.inr ⟨h, hat⟩⟩
    · rw [if_neg hn, M.bind_ok (M.pure_run _ _)]
      rcases hsnd c (r.adv 1) with h | ⟨rfl, h⟩ | ⟨rfl, h⟩
      · exact Or.inl h
      · exact Or.inr ⟨false, l, Or.inl ⟨h, hat⟩⟩
      · exact Or.inr ⟨false, l, Or.inr ⟨h, hat⟩⟩

theorem matchBrace_cases {r : Reader} (hr : r.Inv) :
    (∃ r' e, readIfMatchChar '}' r = .err r' e) ∨ ∃ tail, r.At ('}' :: tail) := by
  cases hrest : r.rest with
  | nil =>
    left
    have hat : r.At [] := ⟨hr, hrest⟩
    have hp := hat.pos
    simp only [List.length_nil] at hp
    unfold readIfMatchChar
    rw [if_neg (by omega)]
    exact ⟨_, _, rfl⟩
  | cons c l =>
    by_cases hc : c = '}'
    · subst hc; exact Or.inr ⟨l, hr, hrest⟩
    · left
      have hat : r.At (c :: l) := ⟨hr, hrest⟩
      have hp := hat.pos
      simp only [List.length_cons] at hp
      have hget : r.src[r.pos]? = some c := by
        unfold Reader.rest at hrest
        have := congrArg List.head? hrest
        rw [List.head?_drop] at this
        simpa using this
      unfold readIfMatchChar
      rw [if_pos (by omega), hget]
      simp only
      rw [if_neg (by simpa using hc)]
      exact ⟨_, _, rfl⟩

/-- Validation of a tuple-free type ends with an error, or behind some text. -/
theorem validate_tame : ∀ ty : FTy, NoTuple ty → ∀ r : Reader, r.Inv → (∃ r' e, ty.validate r = .err r' e) ∨
    ∃ body tail, body ≠ [] ∧ r.At (body ++ tail) ∧ ty.validate r = .ok (r.adv body.length) ()
  | .core t, _, r, hr => by
    obtain ⟨a, ha⟩ : ∃ a : CoreArg, a.ty = t := by
      cases t with
      | int t => exact ⟨.int t 0, rfl⟩
      | bool => exact ⟨.bool true, rfl⟩
      | char => exact ⟨.char 'a', rfl⟩
      | double => exact ⟨.double 0, rfl⟩
      | pointer => exact ⟨.pointer 0, rfl⟩
      | string => exact ⟨.string [], rfl⟩
    have := core_tame a r hr
    rw [show a.farg.validate = a.ty.validate from rfl, ha] at this
    rw [FTy.validate]
    exact this
  | .range curly t, ht, r, hr => by
    rw [FTy.validate]
    rcases validateHead_cases hr with ⟨r', e, h⟩ | ⟨n, tail, ⟨h, hat⟩ | ⟨h, hat⟩⟩
    · exact Or.inl ⟨r', e, M.bind_err h⟩
    · right
      refine ⟨(if n then ['n'] else []) ++ ['}'], tail, by simp, by simpa using hat, ?_⟩
      rw [M.bind_ok h, if_neg (by simp), M.pure_run]
      cases n <;> rfl
    · have hat' : r.At (((if n then ['n'] else []) ++ [':']) ++ tail) := by simpa using hat
      have hl : ((if n then ['n'] else []) ++ [':']).length = (if n then 1 else 0) + 1 := by cases n <;> rfl
      have hat2 := hat'.adv
      rw [hl] at hat2
      rw [M.bind_ok h, if_pos rfl]
      rcases validate_tame t ht _ hat2.1 with ⟨r', e, h'⟩ | ⟨body, tail', hne, hat3, h'⟩
      · exact Or.inl ⟨r', e, h'⟩
      · right
        have htail : tail = body ++ tail' := hat2.unique hat3
        subst htail
        refine ⟨((if n then ['n'] else []) ++ [':']) ++ body, tail', by simp, by simpa using hat', ?_⟩
        rw [h', adv_adv, List.length_append, hl]
  | .tuple entry ts, ht, _, _ => ht.elim
  | .optional t, ht, r, hr => by
    rw [FTy.validate]
    exact validate_tame t ht r hr
  | .monostate, _, r, hr => by
    rw [FTy.validate]
    rcases matchBrace_cases hr with ⟨r', e, h⟩ | ⟨tail, h⟩
    · exact Or.inl ⟨r', e, M.bind_err h⟩
    · exact Or.inr ⟨['}'], tail, by simp, h, by rw [M.bind_ok (matchBrace h)]; rfl⟩
  | .variant ts, _, r, hr => by
    rw [FTy.validate]
    rcases matchBrace_cases hr with ⟨r', e, h⟩ | ⟨tail, h⟩
    · exact Or.inl ⟨r', e, M.bind_err h⟩
    · exact Or.inr ⟨['}'], tail, by simp, h, by rw [M.bind_ok (matchBrace h)]; rfl⟩

theorem value_tame {ty : FTy} (h : NoTuple ty) (v : FVal) : (v.farg ty).Tame := fun r hr => validate_tame ty h r hr

/-! ### What has been validated can be formatted -/

/-- The formatter of a type after parsing. -/
def Usable (ty : FTy) (E : Prop) (f : Fmtr) : Prop :=
  ∀ v, HasType v ty → (E ∧ Fails (v.format f) 1421) ∨ ∃ text, Emits (v.format f) text 1421

theorem usable_of_brace {ty : FTy} (hnt : NoTuple ty) (E : Prop) {r : Reader} {tail : Str} (hat : r.At ('}' :: tail))
    (d : Option Bool) : ∃ f, ty.fresh.parseWith d r = .ok (r.adv 1) f ∧ Usable ty E f := by
  obtain ⟨_, h2⟩ := works coreEmits_written (by decide) (takes_nil ty)
  obtain ⟨f, h3, h4, h5⟩ := h2 d (fun _ => rfl)
  refine ⟨f, h3 r tail (Or.inl hnt) hat, ?_⟩
  intro v hv
  right
  rcases h5 coreTotal_written v hv with ⟨text, h⟩ | ⟨h, _⟩
  · exact ⟨text, h4 v text hv h⟩
  · simp at h

theorem parseHead_more {r : Reader} {n : Bool} {tail : Str} (h : r.At ((if n then ['n'] else []) ++ ':' :: tail)) :
    parseRangeHead r = .ok (r.adv ((if n then 1 else 0) + 1)) (n, true) := by
  unfold parseRangeHead
  cases n with
  | true =>
    have h1 : r.At ('n' :: ':' :: tail) := h
    rw [M.bind_ok (assume_ok h1.peek)]
    have : (if decide True = true then (do M.modify (·.pop 1); assumeValue Reader.peek) else pure 'n' :
        M Reader Char) r = .ok (r.adv 1) ':' := by
      rw [if_pos (by decide), M.bind_ok (M.modify_run _ _), h1.pop1, assume_ok h1.adv1.peek]
    simp only
    rw [M.bind_ok this, if_neg (by decide), M.bind_ok (M.modify_run _ _), h1.adv1.pop1, adv_adv]
    rfl
  | false =>
    have h1 : r.At (':' :: tail) := h
    rw [M.bind_ok (assume_ok h1.peek)]
    rw [if_neg (by decide), M.bind_ok (M.pure_run _ _), if_neg (by decide), M.bind_ok (M.modify_run _ _), h1.pop1]
    rfl

theorem validate_sound (src : Str) : ∀ ty : FTy, NoTuple ty → ∀ r r' : Reader, r.src = src → r.Inv →
    ty.validate r = .ok r' () → ∃ f, ty.fresh.parseWith none r = .ok r' f ∧ Usable ty ('O' ∈ src) f
  | .core t, _, r, r', hsrc, hr, hv => by
    rw [FTy.validate] at hv
    obtain ⟨a, ha⟩ : ∃ a : CoreArg, a.ty = t := by
      cases t with
      | int t => exact ⟨.int t 0, rfl⟩
      | bool => exact ⟨.bool true, rfl⟩
      | char => exact ⟨.char 'a', rfl⟩
      | double => exact ⟨.double 0, rfl⟩
      | pointer => exact ⟨.pointer 0, rfl⟩
      | string => exact ⟨.string [], rfl⟩
    obtain ⟨s, h1, h2, h3⟩ := C27_formatter_parse_agrees_with_validate a r r' hr (by
      rw [show a.farg.validate = a.ty.validate from rfl, ha]; exact hv)
    have hp : parseFormatSpecs {} r = .ok r' s := (C27_parse_agrees_with_validate {} s r r' hr h1)
    refine ⟨.core t s, ?_, ?_⟩
    · rw [FTy.fresh, Fmtr.parseWith]
      exact M.bind_ok hp
    · intro v hty
      obtain ⟨b, rfl, rfl, valid⟩ := hasType_core hty t rfl
      rw [format_core]
      rw [ha] at h2
      by_cases hO : OctalO b s
      · left
        refine ⟨?_, fun ops => ?_⟩
        · rcases specs_type hr h1 with h | h
          · rw [hO.1] at h; exact absurd h (by decide)
          · rw [hO.1, hsrc] at h; exact h
        · obtain ⟨new, e, g1, g2, g3⟩ := core_octal b s hO ops
          exact ⟨new, e, g1, g2, fun op ho => ⟨(g3 op ho).1, by have := (g3 op ho).2; omega⟩⟩
      · right
        exact core_emits_some b s (specs_ok hr h1) valid h2 hO (needs_any b s (specs_ok hr h1) h2)
  | .range curly t, ht, r, r', hsrc, hr, hv => by
    rw [FTy.validate] at hv
    have main : ∃ n more f r1, parseRangeHead r = .ok r1 (n, more) ∧
        t.fresh.parseWith (if more then none else some true) r1 = .ok r' f ∧ Usable t ('O' ∈ src) f := by
      rcases validateHead_cases hr with ⟨r', e, h⟩ | ⟨n, tail, ⟨h, hat⟩ | ⟨h, hat⟩⟩
      · rw [M.bind_err h] at hv; cases hv
      · rw [M.bind_ok h, if_neg (by simp), M.pure_run] at hv
        obtain ⟨rfl, _⟩ := ok_inj hv
        have hat' : r.At (rangeSpec n none ++ '}' :: tail) := by simpa [rangeSpec] using hat
        have hh := head_at hat'
        simp only [Option.getD_none, List.nil_append] at hh
        obtain ⟨f, h1, h2⟩ := usable_of_brace (ty := t) ht ('O' ∈ src) hh (some true)
        refine ⟨n, false, f, _, parseHead hat', ?_, h2⟩
        rw [adv_adv] at h1
        simpa using h1
      · rw [M.bind_ok h, if_pos rfl] at hv
        have hat' : r.At (((if n then ['n'] else []) ++ [':']) ++ tail) := by simpa using hat
        have hl : ((if n then ['n'] else []) ++ [':']).length = (if n then 1 else 0) + 1 := by cases n <;> rfl
        have hat2 := hat'.adv
        rw [hl] at hat2
        obtain ⟨f, h1, h2⟩ := validate_sound src t ht (r.adv ((if n then 1 else 0) + 1)) r' hsrc hat2.1 hv
        exact ⟨n, true, f, _, parseHead_more hat, h1, h2⟩
    obtain ⟨n, more, f, r1, h1, h2, h3⟩ := main
    refine ⟨_, by rw [FTy.fresh, Fmtr.parseWith, M.bind_ok h1]; simp only; rw [M.bind_ok h2, M.pure_run], ?_⟩
    intro v hty
    cases hty with
    | @range _ _ vs each =>
      rw [format_range]
      rcases first_failing (P := fun i t => ∀ v, vs[i]? = some v → Emits (v.format f) t 1421)
        (Q := fun i => ∃ v, vs[i]? = some v ∧ 'O' ∈ src ∧ Fails (v.format f) 1421) vs.length (fun i hi => by
          rcases h3 vs[i] (each _ (List.getElem_mem hi)) with h | ⟨t, ht⟩
          · exact Or.inr ⟨vs[i], List.getElem?_eq_getElem hi, h⟩
          · left
            refine ⟨t, fun v hv => ?_⟩
            rw [List.getElem?_eq_getElem hi] at hv
            cases hv; exact ht) with ⟨ts, g1, g2⟩ | ⟨i, hi, ⟨v, hv, hO, hf⟩, hj⟩
      · right
        exact ⟨_, bracketed_emits (formatRange_emits vs ts true g1 (fun i v t hv ht => g2 i t ht v hv))⟩
      · left
        refine ⟨hO, (emits_str _ _).fails (Fails.bind (formatRange_fails vs true i v hv hf ?_))⟩
        intro j hji w hw
        obtain ⟨t, ht⟩ := hj j hji
        exact ⟨t, ht w hw⟩
  | .tuple entry ts, ht, _, _, _, _, _ => ht.elim
  | .optional t, ht, r, r', hsrc, hr, hv => by
    rw [FTy.validate] at hv
    obtain ⟨f, h1, h2⟩ := validate_sound src t ht r r' hsrc hr hv
    refine ⟨.optional f, by rw [FTy.fresh, Fmtr.parseWith, M.bind_ok h1]; rfl, ?_⟩
    intro v hty
    cases hty with
    | none => right; rw [format_none]; exact ⟨_, emits_str _ _⟩
    | some hc =>
      rw [format_some]
      rcases h2 _ hc with ⟨hO, h⟩ | ⟨text, h⟩
      · exact Or.inl ⟨hO, (emits_str _ _).fails (Fails.bind h)⟩
      · exact Or.inr ⟨_, Emits.seq (emits_str _ _) (Emits.seq h (emits_char _ (by decide)))⟩
  | .monostate, ht, r, r', hsrc, hr, hv => by
    rcases matchBrace_cases hr with ⟨u, e, h⟩ | ⟨tail, h⟩
    · rw [FTy.validate, M.bind_err h] at hv; cases hv
    · rw [FTy.validate, M.bind_ok (matchBrace h)] at hv
      obtain ⟨rfl, _⟩ := ok_inj hv
      exact usable_of_brace ht _ h none
  | .variant ts, ht, r, r', hsrc, hr, hv => by
    rcases matchBrace_cases hr with ⟨u, e, h⟩ | ⟨tail, h⟩
    · rw [FTy.validate, M.bind_err h] at hv; cases hv
    · rw [FTy.validate, M.bind_ok (matchBrace h)] at hv
      obtain ⟨rfl, _⟩ := ok_inj hv
      exact usable_of_brace ht _ h none

theorem value_sound {ty : FTy} (h : NoTuple ty) {v : FVal} (hv : HasType v ty) (src : Str) :
    (v.farg ty).Sound src 1421 ('O' ∈ src) := by
  intro r r' hsrc hr hval
  obtain ⟨f, h1, h2⟩ := validate_sound src ty h r r' hsrc hr hval
  refine ⟨v.format f, ?_, h2 v hv⟩
  show (do let f ← ty.fresh.parse; return v.format f) r = _
  rw [Fmtr.parse, M.bind_ok h1]
  rfl

/-! ### A field that fails -/

theorem formatRun_fails {a : FArg} {colon : Bool} {body : Str} {act : Fmt Unit} {k : Nat}
    (hb : colon = false → body.head? = some '}') (hp : ∀ r, r.At body → ∃ r', a.parse r = .ok r' act) (hf : Fails act k) :
    ∃ f e, formatRun ('{' :: ((if colon then [':'] else []) ++ body)) [a] = .err f e := by
  have hat : Reader.At (Reader.ofStr ('{' :: ((if colon then [':'] else []) ++ body)))
      (escBraces [] ++ '{' :: ([] ++ ((if colon then [':'] else []) ++ body))) := Reader.at_ofStr _
  obtain ⟨p', n, h1, hh, hu⟩ := parse_fwd (p := ⟨Reader.ofStr ('{' :: ((if colon then [':'] else []) ++ body)), none, 0⟩) hat (by simp) hb (Or.inl ⟨rfl, by simp⟩)
  obtain ⟨pieces, g1, _⟩ := hu []
  obtain ⟨hat2, _⟩ := parse_field_at hat hh
  have hn : n = 0 := by
    rcases hh.mode with ⟨_, _, _, _, h5⟩ | ⟨h1, _⟩
    · exact h5
    · exact absurd rfl h1
  subst hn
  obtain ⟨r', hpar⟩ := hp _ hat2
  obtain ⟨new, e, h2, _⟩ := hf ([] ++ pieces.map WOp.str)
  unfold formatRun
  rw [formatLoop, M.bind_ok g1, if_neg (by decide)]
  simp only [List.getElem?_cons_zero]
  have hpa : processArg a ⟨p', [] ++ pieces.map WOp.str⟩ =
      .err ⟨{ p' with rdr := r' }, [] ++ pieces.map WOp.str ++ new⟩ e := by
    unfold processArg
    simp only [hpar, h2]
  exact ⟨_, _, M.bind_err hpa⟩

theorem formatStr_fails {a : FArg} {colon : Bool} {body : Str} {act : Fmt Unit} {k : Nat}
    (hb : colon = false → body.head? = some '}') (hp : ∀ r, r.At body → ∃ r', a.parse r = .ok r' act) (hf : Fails act k)
    (text : Str) : formatStr ('{' :: ((if colon then [':'] else []) ++ body)) [a] ≠ .ok () text := by
  obtain ⟨f, e, hr⟩ := formatRun_fails hb hp hf
  obtain ⟨s0, u, h0, _⟩ := MemBuf.rep_new defaultCacheSize 0
  unfold formatStr
  rw [h0]
  simp only
  have hnot : ∀ s' u', formatTo ('{' :: ((if colon then [':'] else []) ++ body)) [a] s0 ≠ .ok s' u' := by
    intro s' u' h
    unfold formatTo at h
    cases hv : VStr.make ('{' :: ((if colon then [':'] else []) ++ body)) [a] with
    | bad b => rw [hv] at h; cases h
    | err _ e => rw [hv] at h; cases h
    | ok _ vs =>
      rw [hv] at h
      simp only at h
      have hvs : vs.str = none ∨ vs.plain = false ∧ vs.str = some ('{' :: ((if colon then [':'] else []) ++ body)) := by
        unfold VStr.make at hv
        rw [if_neg (by simp)] at hv
        cases hval : validateStr ('{' :: ((if colon then [':'] else []) ++ body)) [a] with
        | bad b => rw [hval] at hv; cases hv
        | err _ e => rw [hval] at hv; cases hv
        | ok _ b =>
          rw [hval] at hv
          cases b with
          | true => cases hv; exact Or.inr ⟨rfl, rfl⟩
          | false => cases hv; exact Or.inl rfl
      unfold vformatTo at h
      rcases hvs with hvs | ⟨hvs, hvs'⟩
      · rw [hvs] at h; cases h
      · rw [hvs'] at h
        simp only [hvs, Bool.false_eq_true, if_false] at h
        unfold runOn at h
        rw [hr] at h
        simp only at h
        cases hx : execAll f.ops s0 <;> rw [hx] at h <;> cases h
  cases h : formatTo ('{' :: ((if colon then [':'] else []) ++ body)) [a] s0 with
  | ok s' u' => exact absurd h (hnot s' u')
  | err => simp
  | bad => simp

/-! ### Values alone -/

theorem value_parses {ty : FTy} {s : Str} {v : FVal} {f : Fmtr}
    (h : ∀ (r : Reader) (tail : Str), Behind ty tail → r.At (s ++ '}' :: tail) →
      ty.fresh.parseWith none r = .ok (r.adv (s.length + 1)) f) :
    ∀ r, r.At (s ++ ['}']) → ∃ r', (v.farg ty).parse r = .ok r' (v.format f) := by
  intro r hat
  refine ⟨r.adv (s.length + 1), ?_⟩
  show (do let f ← ty.fresh.parse; return v.format f) r = _
  rw [Fmtr.parse, M.bind_ok (h r [] (Or.inr rfl) hat)]
  rfl

theorem renders_unique {ty : FTy} {v : FVal} {s : Str} {x y : Str} (hv : HasType v ty) (hs : Spec.Takes ty s)
    (hx : Renders Written ty v false s x) (hy : Renders Written ty v false s y) : x = y := by
  obtain ⟨_, h2⟩ := works coreEmits_written (by decide) hs
  obtain ⟨f, _, h4, _⟩ := h2 none (by simp)
  exact (h4 v x hv hx).unique (h4 v y hv hy)

/-- What a value with a specification is formatted as. -/
theorem alone_iff {ty : FTy} {v : FVal} {s text : Str} (hv : HasType v ty) (hs : Spec.Takes ty s) :
    formatStr (fieldText s) [v.farg ty] = .ok () text ↔ Renders Written ty v false s text := by
  constructor
  · intro h
    obtain ⟨_, h2⟩ := works coreEmits_written (by decide) hs
    obtain ⟨f, h3, h4, h5⟩ := h2 none (by simp)
    rcases h5 coreTotal_written v hv with ⟨text', hr⟩ | ⟨_, hf⟩
    · have := (value_formats coreEmits_written (by decide) hv hs hr).str
      rw [h] at this
      obtain ⟨_, rfl⟩ := ok_inj this
      exact hr
    · exact absurd h (formatStr_fails (colon := true) (by simp) (value_parses h3) hf text)
  · intro h
    exact (value_formats coreEmits_written (by decide) hv hs h).str

theorem alone_plain_iff {ty : FTy} {v : FVal} {text : Str} (hv : HasType v ty) :
    formatStr ['{', '}'] [v.farg ty] = .ok () text ↔ Renders Written ty v false [] text := by
  constructor
  · intro h
    obtain ⟨_, h2⟩ := works coreEmits_written (by decide) (takes_nil ty)
    obtain ⟨f, h3, h4, h5⟩ := h2 none (by simp)
    rcases h5 coreTotal_written v hv with ⟨text', hr⟩ | ⟨_, hf⟩
    · have := (value_formats_plain coreEmits_written (by decide) hv hr).str
      rw [h] at this
      obtain ⟨_, rfl⟩ := ok_inj this
      exact hr
    · exact absurd h (formatStr_fails (colon := false) (by simp) (value_parses h3) hf text)
  · intro h
    exact (value_formats_plain coreEmits_written (by decide) hv h).str

theorem debug_iff {a : CoreArg} (ha : ValidArg a) (hq : a.ty = .char ∨ a.ty = .string) {text : Str} :
    formatStr ['{', ':', '?', '}'] [(FVal.core a).farg (.core a.ty)] = .ok () text ↔
      Renders Written (.core a.ty) (.core a) true [] text := by
  have e : quotedSpec a.ty = { type := some '?' } := by
    rcases hq with h | h <;> rw [h] <;> rfl
  obtain ⟨h1, h2, h3⟩ := quotedSpec_ok a.ty
  have ht : Spec.Takes (.core a.ty) ['?'] := by
    have := Spec.Takes.core h1 h2 h3
    rw [e] at this
    exact this
  have := alone_iff (text := text) (HasType.core ha) ht
  rw [show fieldText ['?'] = ['{', ':', '?', '}'] from rfl] at this
  rw [this]
  constructor
  · intro h
    obtain ⟨sp, hs, wf, fits, allows, h⟩ := renders_core h a rfl
    refine .quoted ?_
    unfold Written at h ⊢
    rw [e, meaning_unique (b := sp) (e ▸ h1) (e ▸ h2) wf fits (by rw [← hs]; rfl)]
    exact h
  · intro h
    have := (renders_core h a rfl).2
    rw [e] at h1 h2 h3 this
    exact Renders.core (sp := { type := some '?' }) h1 h2 h3 this

/-! ### Format strings -/

theorem readsSegs_of {args : List FArg} {k : Nat} {behind : Str} : ∀ (segs : List (Str × Field)) (ts : List Str) (i : Nat),
    ts.length = segs.length →
    (∀ (j : Nat) (s : Str × Field) (text : Str), segs[j]? = some s → ts[j]? = some text →
      ∃ a, args[s.2.argument (i + j)]? = some a ∧
        a.ReadsBefore s.2.body text k (segsText (segs.drop (j + 1)) ++ behind)) →
    ReadsBehind args k behind i segs ts := by
  intro segs
  induction segs with
  | nil =>
    intro ts i hl _
    cases ts with
    | nil => trivial
    | cons => simp at hl
  | cons s segs ih =>
    intro ts i hl h
    cases ts with
    | nil => simp at hl
    | cons t ts =>
      refine ⟨?_, ih ts (i + 1) (by simpa using hl) ?_⟩
      · simpa using h 0 s t rfl rfl
      · intro j s' t' hs ht
        have := h (j + 1) s' t' (by simpa using hs) (by simpa using ht)
        rw [show i + 1 + j = i + (j + 1) by omega]
        simpa using this

theorem values_format {t : FormatText} {args : List (FTy × FVal)} {texts : List Str} (suits : t.SuitsValues args)
    (alone : t.AloneTexts args texts) (last : t.TuplesLast args) :
    Formats t.text (args.map fun a => a.2.farg a.1) (t.output texts) 1421 := by
  refine formats_segs t _ texts 1421 (by simpa using suits.number) ?_ suits.mode (by simpa using suits.arguments) ?_
  · intro f hf
    refine ⟨suits.digits f hf, fun hc => ?_⟩
    obtain ⟨i, hi⟩ := List.getElem?_of_mem hf
    obtain ⟨a, _, s, hb, hs, _⟩ := suits.taken i f hi
    rw [hb, hs hc]
    rfl
  · have hlen : t.fields.length = t.segs.length := by simp [FormatText.fields]
    refine readsSegs_of _ _ _ (by rw [alone.1, hlen]) ?_
    intro j sg text hj htext
    have hf : t.fields[j]? = some sg.2 := by simp [FormatText.fields, hj]
    obtain ⟨a, ha, s, hb, hs, hta⟩ := suits.taken j sg.2 hf
    obtain ⟨a', ha', hal⟩ := alone.2 j sg.2 text hf htext
    rw [ha] at ha'
    obtain rfl := Option.some.inj ha'
    have hty := suits.typed a (List.mem_of_getElem? ha)
    refine ⟨a.2.farg a.1, by simp [ha], ?_⟩
    rw [hb]
    refine value_readsBefore coreEmits_written (by decide) hty hta ?_ ?_
    · rw [hb] at hal
      exact (alone_iff hty hta).1 hal
    · by_cases hn : NoTuple a.1
      · exact Or.inl hn
      · right
        obtain ⟨h1, h2⟩ := last j sg.2 a hf ha hn
        rw [h2, List.drop_eq_nil_of_le (by omega)]
        rfl

end Emio
