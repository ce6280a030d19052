import Verif.Spec.Dynamic
import Verif.Lemmas.ValuesArg
import Verif.Props.Parser
import Verif.Props.Scan
/-
Dynamic widths and precisions, and nested format strings.
-/
namespace Emio
open Spec

/-! ### Dynamic widths and precisions -/

theorem core_parse_exact {t : CoreTy} {sp : SpecText} (wf : sp.WellFormed) (fits : sp.Fits) (r : Reader) (tail : Str)
    (h : r.At (sp.text ++ '}' :: tail)) :
    (FTy.core t).fresh.parseWith none r = .ok (r.adv (sp.text.length + 1)) (.core t sp.meaning) := by
  have hp := (C28_grammar_is_accepted sp wf fits r h.1 tail h.2).2
  rw [FTy.fresh, Fmtr.parseWith]
  exact (M.bind_ok hp)

theorem quoted_parse_exact {t : CoreTy} (r : Reader) (tail : Str) (h : r.At ('}' :: tail)) :
    (FTy.core t).fresh.parseWith (some true) r = .ok (r.adv 1) (.core t (quotedSpec t).meaning) := by
  have hp : ∀ s : Specs, parseFormatSpecs s r = .ok (r.adv 1) s := by
    intro s
    unfold parseFormatSpecs
    rw [M.bind_ok (assume_ok h.readChar), if_pos rfl]
    rfl
  rw [FTy.fresh, Fmtr.parseWith, M.bind_ok (hp _), quotedSpec_meaning]
  rfl

theorem withNumbers_wellFormed {sp : SpecText} (wf : sp.WellFormed) (w p : Option Int) :
    (sp.withNumbers w p).WellFormed where
  fill := wf.fill
  align := wf.align
  sign := wf.sign
  width := by
    cases w with
    | none => exact wf.width
    | some w =>
      simp only [SpecText.withNumbers]
      split
      · simp
      · exact (numeral_digits _).2.1
  widthHead := by
    intro hz
    cases w with
    | none => exact wf.widthHead hz
    | some w =>
      simp only [SpecText.withNumbers]
      split
      · simp
      · exact numeral_head_ne 10 (by decide) (by decide) _ (by omega)
  prec := by
    cases p with
    | none => exact wf.prec
    | some p =>
      intro x hx
      simp only [SpecText.withNumbers, Option.mem_def, Option.some.injEq] at hx
      subst hx
      exact ⟨(numeral_digits _).1, (numeral_digits _).2.1⟩
  type := wf.type

theorem withNumbers_meaning (sp : SpecText) {w p : Option Int} (hw : Given w) (hp : Given p) (t : CoreTy) :
    (Fmtr.core t sp.meaning).overwrite (w.getD notDefined) (p.getD notDefined) =
      .core t (sp.withNumbers w p).meaning := by
  have h1 : ∀ k : Int, k ≠ -2147483647 → k ≠ notDefined := by intro k hk; unfold notDefined; omega
  have h2 : ∀ k : Int, (max 0 k : Int) = (k.toNat : Int) := by intro k; omega
  have h3 : ∀ w : Int, (max 0 w : Int) = numeralValue 10 (if w ≤ 0 then [] else numeral false 10 w.toNat) := by
    intro w
    split
    · rw [max_eq_left ‹_›]; rfl
    · rw [(numeral_digits _).2.2, h2]
  cases w with
  | none =>
    cases p with
    | none => simp [Fmtr.overwrite, SpecText.withNumbers]
    | some p =>
      have := (hp p rfl).1
      simp [Fmtr.overwrite, SpecText.withNumbers, SpecText.meaning, SpecText.widthValue, SpecText.precValue, h1 p this,
        (numeral_digits _).2.2]
      exact ⟨rfl, rfl, max_comm _ _⟩
  | some w =>
    have hw := (hw w rfl).1
    cases p with
    | none =>
      simp [Fmtr.overwrite, SpecText.withNumbers, SpecText.meaning, SpecText.widthValue, SpecText.precValue, h1 w hw,
        h3]
      exact ⟨rfl, rfl⟩
    | some p =>
      have := (hp p rfl).1
      simp [Fmtr.overwrite, SpecText.withNumbers, SpecText.meaning, SpecText.widthValue, SpecText.precValue, h1 p this,
        h1 w hw, h3, (numeral_digits _).2.2]
      exact ⟨rfl, rfl, by rw [← h3]; exact max_comm _ _⟩

theorem overwritten_parses {w p : Option Int} (hw : Given w) (hp : Given p) {ty : FTy} {q : Bool} {s s' : Str}
    (h : Overwritten w p ty q s s') : ∃ f, NoTuple ty ∧ (q = true → s = [] ∨ ∃ c t, ty = .range c t) ∧
      Spec.Takes ty s ∧ Spec.Takes ty s' ∧
      (∀ (r : Reader) (tail : Str), r.At (s ++ '}' :: tail) →
        ty.fresh.parseWith (if q then some true else none) r = .ok (r.adv (s.length + 1)) f) ∧
      (∀ (r : Reader) (tail : Str), r.At (s' ++ '}' :: tail) →
        ty.fresh.parseWith none r = .ok (r.adv (s'.length + 1)) (f.overwrite (w.getD notDefined) (p.getD notDefined))) := by
  induction h with
  | @core t sp wf fits allows fits' allows' =>
    have wf' := withNumbers_wellFormed wf w p
    refine ⟨.core t sp.meaning, trivial, by simp, .core wf fits allows, .core wf' fits' allows', ?_, ?_⟩
    · intro r tail hat
      exact core_parse_exact wf fits r tail hat
    · intro r tail hat
      rw [withNumbers_meaning sp hw hp]
      exact core_parse_exact wf' fits' r tail hat
  | @quoted t fits allows =>
    obtain ⟨h1, h2, h3⟩ := quotedSpec_ok t
    have wf' := withNumbers_wellFormed h1 w p
    refine ⟨.core t (quotedSpec t).meaning, trivial, by simp, takes_nil _, .core wf' fits allows, ?_, ?_⟩
    · intro r tail hat
      exact quoted_parse_exact r tail hat
    · intro r tail hat
      rw [withNumbers_meaning _ hw hp]
      exact core_parse_exact wf' fits r tail hat
  | @range curly q n t elem e each ih =>
    obtain ⟨f, h1, h2, h3, h4, h5, h6⟩ := ih
    refine ⟨.range (if n then [] else if curly then ['{'] else ['[']) (if n then [] else if curly then ['}'] else [']'])
        [',', ' '] f, h1, fun _ => Or.inr ⟨_, _, rfl⟩, .range h3, .range (elem := some e) h4, ?_, ?_⟩
    · intro r tail hat
      have e0 : Fmtr.parseWith (if q then some true else none) (FTy.range curly t).fresh =
          Fmtr.parseWith none (FTy.range curly t).fresh := by
        rw [FTy.fresh, Fmtr.parseWith, Fmtr.parseWith]
      rw [e0, FTy.fresh, Fmtr.parseWith, M.bind_ok (parseHead hat)]
      simp only
      have := h5 _ tail (head_at hat)
      have e1 : (if elem.isNone then some true else none : Option Bool) = if elem.isSome then none else some true := by
        cases elem <;> rfl
      rw [e1] at this
      rw [M.bind_ok this, M.pure_run, Reader.adv_adv, rangeSpec_length]
      simp only [Nat.add_assoc]
    · intro r tail hat
      rw [FTy.fresh, Fmtr.parseWith, M.bind_ok (parseHead hat)]
      simp only
      have := h6 _ tail (head_at hat)
      simp only [Option.isSome_some, if_true] at this ⊢
      rw [M.bind_ok this, M.pure_run, Reader.adv_adv, rangeSpec_length]
      simp only [Nat.add_assoc]
      rfl

theorem padded_precision (d : Align) (s : Specs) (q : Int) (n : Nat) (f : Fmt Unit) :
    writePadded d { s with precision := q } n f = writePadded d s n f := by
  unfold writePadded
  by_cases h : s.align = .none
  · simp only [h, if_true]
    rfl
  · simp only [h, if_false]
    rfl

theorem int_precision (s : Specs) (q : Int) (t : IntTy) (n : Int) :
    writeArgInt { s with precision := q } t n = writeArgInt s t n := by
  unfold writeArgInt
  simp only [padded_precision]
  rfl

/-! ### A field on its own -/

/-- Perform the calls of a formatter. -/
def runAct {σ : Type} [BufferImpl σ] (act : Fmt Unit) : M σ Unit := fun s =>
  match act [] with
  | .bad b => .bad b
  | .ok ops _ => execAll ops s
  | .err ops e =>
    match execAll ops s with
    | .ok s' _ => .err s' e
    | .err s' e' => .err s' e'
    | .bad b => .bad b

theorem field_exact {a : FArg} {colon : Bool} {s : Str} {act : Fmt Unit} (hc : colon = false → s = [])
    (hv : ∀ r, r.At (s ++ ['}']) → a.validate r = .ok (r.adv (s.length + 1)) ())
    (hp : ∀ r, r.At (s ++ ['}']) → a.parse r = .ok (r.adv (s.length + 1)) act) {σ : Type} [BufferImpl σ] (b : σ) :
    formatTo ('{' :: ((if colon then [':'] else []) ++ (s ++ ['}']))) [a] b = runAct act b := by
  have hat : Reader.At (Reader.ofStr ('{' :: ((if colon then [':'] else []) ++ (s ++ ['}']))))
      (escBraces [] ++ '{' :: ([] ++ ((if colon then [':'] else []) ++ (s ++ ['}'])))) := Reader.at_ofStr _
  obtain ⟨p', n, h1, hh, hu⟩ := parse_fwd
    (p := ⟨Reader.ofStr ('{' :: ((if colon then [':'] else []) ++ (s ++ ['}']))), none, 0⟩) hat (by simp)
    (by intro h; rw [hc h]; rfl) (Or.inl ⟨rfl, by simp⟩)
  obtain ⟨pieces, g1, g2⟩ := hu []
  obtain ⟨hat2, _⟩ := parse_field_at hat hh
  have hn : n = 0 := by
    rcases hh.mode with ⟨_, _, _, _, h5⟩ | ⟨h1, _⟩
    · exact h5
    · exact absurd rfl h1
  subst hn
  have hend : (p'.rdr.adv (s.length + 1)).At (escBraces []) := by
    have := Reader.At.adv (a := s ++ ['}']) (b := []) (by simpa using hat2)
    simpa [escBraces] using this
  obtain ⟨e1, e2⟩ := parse_fwd_end (p := { p' with rdr := p'.rdr.adv (s.length + 1) }) (lit := []) hend
  obtain ⟨m, hm1, hm2⟩ : ∃ m, (Bitset.new 128).set 0 = some m ∧ m.allFirst 1 = true := by
    refine ⟨((Bitset.new 128).set 0).getD (Bitset.new 128), ?_, ?_⟩ <;> decide +kernel
  have hval : validateStr ('{' :: ((if colon then [':'] else []) ++ (s ++ ['}']))) [a] = .ok () true := by
    unfold validateStr
    rw [validateLoop, h1]
    simp only [List.length_cons, List.length_nil]
    rw [if_neg (by decide), if_neg (by decide), hm1]
    simp only [List.getElem?_cons_zero]
    rw [hv _ hat2]
    simp only
    rw [validateLoop, e1]
    simp only [if_true]
    rw [show [a].length = 1 from rfl, hm2]
  have hnil : ([] : List WOp) ++ pieces.map WOp.str = [] := by
    unfold Unchecked.parse at g1
    obtain ⟨d, tl, hdt, hne⟩ := field_head (idx := []) (rest := s ++ ['}']) (colon := colon) (by simp)
      (by intro h; rw [hc h]; rfl)
    have hsc : Unchecked.scan [] (Reader.ofStr ('{' :: ((if colon then [':'] else []) ++ (s ++ ['}'])))).rest 0 =
        some (1, true, []) := by
      rw [hat.2]
      simp only [List.nil_append] at hdt
      simp [escBraces, hdt, Unchecked.scan, hne]
    simp only at g1
    rw [hsc] at g1
    simp only [List.map_nil, Bool.not_true, Bool.false_eq_true, if_false] at g1
    split at g1
    · have := (ok_inj g1).1
      simp only [FSt.mk.injEq] at this
      exact this.2.symm
    · cases g1
    · cases g1
  rw [hnil] at g1
  have hlast : ∀ ops, ∃ f, Unchecked.parse (⟨{ p' with rdr := p'.rdr.adv (s.length + 1) }, ops⟩ : FSt) =
      .ok f noMoreArgs ∧ f.ops = ops := by
    intro ops
    obtain ⟨pieces', k1, k2⟩ := e2 ops
    refine ⟨_, k1, ?_⟩
    unfold Unchecked.parse at k1
    rw [hend.2] at k1
    simp only [escBraces, List.flatMap_nil, Unchecked.scan] at k1
    have := (ok_inj k1).1
    simp only [FSt.mk.injEq] at this
    rw [← this.2]
    simp
  have hrun : ∃ p'' : PSt, formatRun ('{' :: ((if colon then [':'] else []) ++ (s ++ ['}']))) [a] =
      match act [] with
      | .bad b => .bad b
      | .ok ops _ => .ok ⟨p'', ops⟩ ()
      | .err ops e => .err ⟨p'', ops⟩ e := by
    unfold formatRun
    rw [formatLoop, M.bind_ok g1, if_neg (by decide)]
    simp only [List.getElem?_cons_zero]
    cases hact : act [] with
    | bad b =>
      refine ⟨p', M.bind_bad ?_⟩
      unfold processArg
      simp only [hp _ hat2, hact]
    | err ops e =>
      refine ⟨{ p' with rdr := p'.rdr.adv (s.length + 1) }, M.bind_err ?_⟩
      unfold processArg
      simp only [hp _ hat2, hact]
    | ok ops u =>
      obtain ⟨f, k1, k2⟩ := hlast ops
      refine ⟨f.p, ?_⟩
      have : processArg a ⟨p', []⟩ = .ok ⟨{ p' with rdr := p'.rdr.adv (s.length + 1) }, ops⟩ () := by
        unfold processArg
        simp only [hp _ hat2, hact]
      rw [M.bind_ok this, List.length_cons, formatLoop, M.bind_ok k1, if_pos rfl, M.pure_run]
      simp only [← k2]
  obtain ⟨p'', hrun⟩ := hrun
  unfold formatTo VStr.make
  rw [if_neg (by simp), hval]
  unfold vformatTo
  simp only [Bool.false_eq_true, if_false]
  unfold runOn runAct
  rw [hrun]
  cases act [] <;> rfl

theorem validates_alone {ty : FTy} {s : Str} (h : Spec.Takes ty s) (r : Reader) (hat : r.At (s ++ ['}'])) :
    ty.validate r = .ok (r.adv (s.length + 1)) () :=
  (works coreEmits_written (by decide) h).1 r [] (Or.inr rfl) hat

/-- A dynamic width and precision is the same as one in the format string. -/
theorem dynamic_alone {w p : Option Int} (hw : Given w) (hp : Given p) {ty : FTy} {s s' : Str}
    (h : Overwritten w p ty false s s') (v : FVal) {σ : Type} [BufferImpl σ] (b : σ) :
    formatTo (fieldText s) [v.dynamic ty (w.getD notDefined) (p.getD notDefined)] b =
      formatTo (fieldText s') [v.farg ty] b := by
  obtain ⟨f, h1, _, h3, h4, h5, h6⟩ := overwritten_parses hw hp h
  simp only [Bool.false_eq_true, if_false] at h5
  have e1 := field_exact (a := v.dynamic ty (w.getD notDefined) (p.getD notDefined)) (colon := true) (s := s)
    (act := v.format (f.overwrite (w.getD notDefined) (p.getD notDefined))) (by simp)
    (fun r hat => validates_alone h3 r hat) (fun r hat => by
      show (do let f ← ty.fresh.parse; return v.format (f.overwrite _ _)) r = _
      rw [Fmtr.parse, M.bind_ok (h5 r [] hat)]
      rfl) b
  have e2 := field_exact (a := v.farg ty) (colon := true) (s := s')
    (act := v.format (f.overwrite (w.getD notDefined) (p.getD notDefined))) (by simp)
    (fun r hat => validates_alone h4 r hat) (fun r hat => by
      show (do let f ← ty.fresh.parse; return v.format f) r = _
      rw [Fmtr.parse, M.bind_ok (h6 r [] hat)]
      rfl) b
  exact e1.trans e2.symm

theorem formatStr_congr {str str' : Str} {args args' : List FArg}
    (h : ∀ s : MemBuf, formatTo str args s = formatTo str' args' s) : formatStr str args = formatStr str' args' := by
  unfold formatStr
  cases MemBuf.new defaultCacheSize 0 with
  | ok s u => simp only [h s]
  | err s e => rfl
  | bad b => rfl

theorem dynamic_readsBefore {w p : Option Int} (hw : Given w) (hp : Given p) {ty : FTy} {s s' text tail : Str}
    (h : Overwritten w p ty false s s') {v : FVal} (hv : HasType v ty)
    (ha : formatStr (fieldText s) [v.dynamic ty (w.getD notDefined) (p.getD notDefined)] = .ok () text) :
    (v.dynamic ty (w.getD notDefined) (p.getD notDefined)).ReadsBefore (s ++ ['}']) text 1421 tail := by
  rw [formatStr_congr (dynamic_alone hw hp h v)] at ha
  obtain ⟨f, h1, _, h3, h4, h5, h6⟩ := overwritten_parses hw hp h
  simp only [Bool.false_eq_true, if_false] at h5
  have hr := (alone_iff hv h4).1 ha
  obtain ⟨_, g2⟩ := works coreEmits_written (by decide) h4
  obtain ⟨f', k1, k2, _⟩ := g2 none (by simp)
  have hf : f' = f.overwrite (w.getD notDefined) (p.getD notDefined) := by
    have a1 := k1 (Reader.ofStr (s' ++ ['}'])) [] (Or.inr rfl) (Reader.at_ofStr _)
    rw [h6 (Reader.ofStr (s' ++ ['}'])) [] (Reader.at_ofStr _)] at a1
    exact (ok_inj a1).2.symm
  intro r hat
  have hat' : r.At (s ++ '}' :: tail) := by simpa using hat
  have hl : (s ++ ['}']).length = s.length + 1 := by simp
  rw [hl]
  refine ⟨(works coreEmits_written (by decide) h3).1 r tail (Or.inl h1) hat', _, ?_, k2 v text hv hr⟩
  show (do let f ← ty.fresh.parse; return v.format (f.overwrite _ _)) r = _
  rw [Fmtr.parse, M.bind_ok (h5 r tail hat'), hf]
  rfl

/-! ### Nested format strings -/

/-- The action of a nested format string. -/
def nestedAct (str : Str) (args : List FArg) : Fmt Unit := fun ops =>
  match VStr.make str args with
  | .bad b => .bad b
  | .err _ e => .err ops e
  | .ok _ vs =>
    match vs.str with
    | none => .err ops .invalidFormat
    | some str =>
      if vs.plain then emit (.str str) ops
      else
        match formatRun str args with
        | .ok f _ => .ok (ops ++ f.ops) ()
        | .err f e => .err (ops ++ f.ops) e
        | .bad b => .bad b

theorem nested_validate {str : Str} {args : List FArg} {tail : Str} (r : Reader) (hat : r.At ('}' :: tail)) :
    (formatArgs str args).validate r = .ok (r.adv 1) () := by
  show (do let _ ← Reader.readIfMatchChar '}' : M Reader Unit) r = _
  rw [M.bind_ok (matchBrace hat)]
  rfl

theorem nested_parse {str : Str} {args : List FArg} {tail : Str} (r : Reader) (hat : r.At ('}' :: tail)) :
    (formatArgs str args).parse r = .ok (r.adv 1) (nestedAct str args) := by
  show (do let _ ← Reader.readIfMatchChar '}'; return nestedAct str args : M Reader (Fmt Unit)) r = _
  rw [M.bind_ok (matchBrace hat)]
  rfl

theorem runAct_nested (str : Str) (args : List FArg) {σ : Type} [BufferImpl σ] (b : σ) :
    runAct (nestedAct str args) b = formatTo str args b := by
  unfold runAct nestedAct formatTo
  cases VStr.make str args with
  | bad b => rfl
  | err s e => rfl
  | ok s vs =>
    simp only
    unfold vformatTo
    cases hs : vs.str with
    | none => rfl
    | some str =>
      simp only
      by_cases hp : vs.plain
      · rw [if_pos hp, if_pos hp]
        exact execAll_single _ _
      · rw [if_neg hp, if_neg hp]
        unfold runOn
        cases formatRun str args with
        | bad b => rfl
        | ok f u => simp only [List.nil_append]
        | err f e => simp only [List.nil_append]; rfl

/-- A nested format string gives what the format string gives. -/
theorem nested_alone (colon : Bool) (str : Str) (args : List FArg) {σ : Type} [BufferImpl σ] (b : σ) :
    formatTo (if colon then ['{', ':', '}'] else ['{', '}']) [formatArgs str args] b = formatTo str args b := by
  have := field_exact (a := formatArgs str args) (colon := colon) (s := []) (act := nestedAct str args) (by simp)
    (fun r hat => nested_validate r hat) (fun r hat => nested_parse r hat) b
  rw [runAct_nested] at this
  rw [← this]
  cases colon <;> rfl

/-- Formatting on a string has succeeded. -/
theorem formatStr_accepted {str : Str} {args : List FArg} {text : Str} (h : formatStr str args = .ok () text) :
    validateStr str args = .ok () true := by
  by_cases hp : args.length = 0 ∧ checkIfPlainString str = true
  · have h0 : args = [] := List.eq_nil_of_length_eq_zero hp.1
    rw [h0]
    exact plain_validates str hp.2
  · obtain ⟨s0, u, h0, _⟩ := MemBuf.rep_new defaultCacheSize 0
    unfold formatStr formatTo VStr.make at h
    rw [h0, if_neg hp] at h
    simp only at h
    cases hv : validateStr str args with
    | bad b => rw [hv] at h; cases h
    | err _ e => rw [hv] at h; cases h
    | ok _ b =>
      cases b with
      | true => rfl
      | false => rw [hv] at h; cases h

theorem nested_emits {str : Str} {args : List FArg} {text : Str} {k : Nat} {E : Prop} (hk : 1 ≤ k)
    (hs : ∀ a ∈ args, a.Sound str k E) (ht : ∀ a ∈ args, a.Tame) (h : formatStr str args = .ok () text) :
    Emits (nestedAct str args) text k := by
  have hv := formatStr_accepted h
  obtain ⟨new, h1, h2⟩ : ∃ new, (∀ op ∈ new, op.Fine ∧ op.need ≤ k) ∧
      ∀ ops, nestedAct str args ops = .ok (ops ++ new) () := by
    by_cases hp : args.length = 0 ∧ checkIfPlainString str = true
    · refine ⟨[.str str], ?_, ?_⟩
      · have := map_str_fine [str]
        simp only [List.map_cons, List.map_nil] at this
        exact fun op ho => ⟨(this op ho).1, by have := (this op ho).2; omega⟩
      · intro ops
        unfold nestedAct VStr.make
        rw [if_pos hp]
        rfl
    · obtain ⟨f, new, g1, g2, g3⟩ := loop_sound args str k E hs ht (str.length + 1) ⟨Reader.ofStr str, none, 0⟩
        (Bitset.new 128) [] (Reader.at_ofStr _).1 rfl hv
      refine ⟨new, g2, ?_⟩
      have hmake : VStr.make str args = .ok () ⟨false, some str⟩ := by
        unfold VStr.make
        rw [if_neg hp, hv]
      rcases g3 with g3 | ⟨_, e, _, g3⟩
      · intro ops
        have g3' : formatRun str args = .ok f () := g3
        unfold nestedAct
        simp only [hmake, Bool.false_eq_true, if_false, g3', g1, List.nil_append]
      · exfalso
        obtain ⟨s0, u, h0, _⟩ := MemBuf.rep_new defaultCacheSize 0
        have g3' : formatRun str args = .err f e := g3
        have hnot : ∀ s' u', formatTo str args s0 ≠ .ok s' u' := by
          intro s' u' hto
          unfold formatTo at hto
          rw [hmake] at hto
          simp only [vformatTo, Bool.false_eq_true, if_false, runOn, g3'] at hto
          split at hto <;> cases hto
        unfold formatStr at h
        rw [h0] at h
        simp only at h
        split at h
        · rename_i s' u' he
          exact hnot _ _ he
        · cases h
        · cases h
  have hf : Formats str args (render new) k := by
    refine ⟨new, rfl, h1, ?_⟩
    intro σ _ s
    rw [← runAct_nested]
    unfold runAct
    rw [h2]
    rfl
  have := hf.str
  rw [h] at this
  obtain ⟨_, rfl⟩ := ok_inj this
  intro ops
  exact ⟨new, h2 ops, rfl, fun op ho => (h1 op ho).1, fun op ho => (h1 op ho).2⟩

theorem nested_readsBefore {str : Str} {args : List FArg} {text tail : Str} {k : Nat} {E : Prop} (hk : 1 ≤ k)
    (hs : ∀ a ∈ args, a.Sound str k E) (ht : ∀ a ∈ args, a.Tame) (h : formatStr str args = .ok () text) :
    (formatArgs str args).ReadsBefore ['}'] text k tail := by
  intro r hat
  exact ⟨nested_validate r hat, _, nested_parse r hat, nested_emits hk hs ht h⟩

/-! ### Format strings with any arguments -/

theorem any_format {t : FormatText} {args : List AnyArg} {texts : List Str} (suits : t.Suits args)
    (alone : t.Alone args texts) (last : t.TupleArgsLast args) :
    Formats t.text (args.map AnyArg.farg) (t.output texts) 1421 := by
  refine formats_segs t _ texts 1421 (by simpa using suits.number) ?_ suits.mode (by simpa using suits.arguments) ?_
  · intro f hf
    refine ⟨suits.digits f hf, fun hc => ?_⟩
    obtain ⟨i, hi⟩ := List.getElem?_of_mem hf
    obtain ⟨a, _, s, hb, hs, _⟩ := suits.taken i f hi
    rw [hb, hs hc]
    rfl
  · have hlen : t.fields.length = t.segs.length := by simp [FormatText.fields]
    refine readsSegs_of _ _ _ (by rw [alone.1, hlen]) ?_
    intro j sg text hj htext
    have hf : t.fields[j]? = some sg.2 := by simp [FormatText.fields, hj]
    obtain ⟨a, ha, s, hb, hs, hta⟩ := suits.taken j sg.2 hf
    obtain ⟨a', ha', hal⟩ := alone.2 j sg.2 text hf htext
    rw [ha] at ha'
    obtain rfl := Option.some.inj ha'
    have hty := suits.typed a (List.mem_of_getElem? ha)
    refine ⟨a.farg, by simp [ha], ?_⟩
    rw [hb] at hal ⊢
    cases a with
    | value ty v =>
      refine value_readsBefore coreEmits_written (by decide) hty hta ((alone_iff hty hta).1 hal) ?_
      by_cases hn : NoTuple ty
      · exact Or.inl hn
      · right
        obtain ⟨h1, h2⟩ := last j sg.2 _ hf ha hn
        rw [h2, List.drop_eq_nil_of_le (by omega)]
        rfl
    | dynamic ty v w p =>
      obtain ⟨h1, h2, h3⟩ := hty
      obtain ⟨s', hta⟩ := hta
      exact dynamic_readsBefore h2 h3 hta h1 hal
    | nested str as =>
      obtain ⟨h1, h2⟩ := hty
      have hs0 : s = [] := hta
      subst hs0
      have hst : formatStr str (as.map fun a => a.2.farg a.1) = .ok () text := by
        rw [← hal]
        exact formatStr_congr (fun b => (nested_alone true str _ b).symm)
      refine nested_readsBefore (E := 'O' ∈ str) (by decide) ?_ ?_ hst
      · intro a ha
        obtain ⟨c, hc, rfl⟩ := List.mem_map.1 ha
        exact value_sound (h2 c hc) (h1 c hc) str
      · intro a ha
        obtain ⟨c, hc, rfl⟩ := List.mem_map.1 ha
        exact value_tame (h2 c hc) c.2

end Emio
