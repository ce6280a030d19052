import Verif.Spec.Deep
import Verif.Lemmas.Dynamic
import Verif.Lemmas.UserFormatter
/-
Arguments of every kind, to any depth, come to a result.
-/
namespace Emio
open Reader Spec

theorem fargs_map : ∀ args : List Deep, Deep.fargs args = args.map Deep.farg
  | [] => by rw [Deep.fargs]; rfl
  | a :: l => by rw [Deep.fargs, fargs_map l]; rfl

/-! ### Widths and precisions given at run time -/

/-- The specification with width and precision overwritten. -/
def Specs.overwrite (s : Specs) (width precision : Int) : Specs :=
  let s := if width ≠ notDefined then { s with width := max 0 width } else s
  if precision ≠ notDefined then { s with precision := max 0 precision } else s

theorem overwrite_core (t : CoreTy) (s : Specs) (w p : Int) :
    (Fmtr.core t s).overwrite w p = .core t (s.overwrite w p) := rfl

/-- Everything but the precision. -/
theorem overwrite_eq (s : Specs) (w p : Int) :
    s.overwrite w p = { s with
      width := (s.overwrite w p).width
      precision := (s.overwrite w p).precision } := by
  unfold Specs.overwrite
  split <;> split <;> rfl

/-- Numbers that can be given. -/
def Number (k : Int) : Prop := k = notDefined ∨ k < 2147483648

theorem overwrite_bounds {s : Specs} (hok : s.Ok) {w p : Int} (hw : Number w) (hp : Number p) :
    (0 ≤ (s.overwrite w p).width ∧ (s.overwrite w p).width ≤ int32Max) ∧
    ((s.overwrite w p).precision = s.precision ∨
      0 ≤ (s.overwrite w p).precision ∧ (s.overwrite w p).precision ≤ int32Max ∧ (s.overwrite w p).precision = max 0 p) := by
  have h1 := hok.width
  have e : int32Max = 2147483647 := rfl
  unfold Specs.overwrite
  unfold Number at hw hp
  split <;> split
  · have hw : w < 2147483648 := hw.resolve_left ‹_›
    have hp : p < 2147483648 := hp.resolve_left ‹_›
    refine ⟨⟨?_, ?_⟩, Or.inr ⟨?_, ?_, rfl⟩⟩ <;> simp only <;> omega
  · have hw : w < 2147483648 := hw.resolve_left ‹_›
    refine ⟨⟨?_, ?_⟩, Or.inl rfl⟩ <;> simp only <;> omega
  · have hp : p < 2147483648 := hp.resolve_left ‹_›
    refine ⟨h1, Or.inr ⟨?_, ?_, rfl⟩⟩ <;> simp only <;> omega
  · exact ⟨h1, Or.inl rfl⟩

/-- The precision has no effect on integers, characters, `bool` and pointers. -/
theorem write_precision (a : CoreArg) (s : Specs) (p : Int) (h1 : a.ty ≠ .double) (h2 : a.ty = .string → s.type = '?') :
    a.write { s with precision := p } = a.write s := by
  cases a with
  | double bits => exact absurd rfl h1
  | string str =>
    have h := h2 rfl
    show writeArgStr _ _ = writeArgStr _ _
    unfold writeArgStr
    rw [if_neg (by simpa using h), if_neg (by simpa using h), padded_precision]
  | bool x => simp only [CoreArg.write, writeArgBool, padded_precision, int_precision]
  | char x => simp only [CoreArg.write, writeArgChar, padded_precision, int_precision]
  | int t n => exact int_precision s p t n
  | pointer x => exact int_precision { s with alternateForm := true, type := 'x' } p u64 x

/-- A checked specification can be used with any width and precision. -/
theorem core_dynamic (a : CoreArg) (s : Specs) (hok : s.Ok) (ha : ValidArg a) (hc : a.ty.check s = true) {w p : Int}
    (hw : Number w) (hp : Number p) (hd : a.ty = .double → p ≤ 1100) :
    (OctalO a s ∧ Fails (a.write (s.overwrite w p)) 1421) ∨ ∃ text, Emits (a.write (s.overwrite w p)) text 1421 := by
  obtain ⟨b1, b2⟩ := overwrite_bounds hok hw hp
  have e := overwrite_eq s w p
  generalize s.overwrite w p = s' at *
  obtain ⟨W, P, rfl⟩ : ∃ W P, s' = { s with width := W, precision := P } := ⟨_, _, e⟩
  simp only at b1 b2
  clear e
  -- with the old precision
  have old : (OctalO a s ∧ Fails (a.write { s with width := W }) 1421) ∨
      ∃ text, Emits (a.write { s with width := W }) text 1421 := by
    have hok' : Specs.Ok { s with width := W } := ⟨b1, hok.precision, hok.zero⟩
    have hc' : a.ty.check { s with width := W } = true := by
      rw [← hc]
      cases a <;> rfl
    by_cases hO : OctalO a s
    · left
      refine ⟨hO, fun ops => ?_⟩
      obtain ⟨new, e, g1, g2, g3⟩ := core_octal a { s with width := W } hO ops
      exact ⟨new, e, g1, g2, fun op ho => ⟨(g3 op ho).1, by have := (g3 op ho).2; omega⟩⟩
    · right
      exact core_emits_some a _ hok' ha hc' hO (needs_any a _ hok' hc')
  by_cases hdbl : a.ty = .double ∨ a.ty = .string ∧ s.type ≠ '?'
  · rcases b2 with b2 | ⟨b2, b3, b4⟩
    · subst b2; exact old
    · right
      have hok' : Specs.Ok { s with width := W, precision := P } := ⟨b1, ⟨by simp only; omega, b3⟩, hok.zero⟩
      have hc' : a.ty.check { s with width := W, precision := P } = true := by
        cases a with
        | double bits =>
          have := hd rfl
          simp only [CoreArg.ty, CoreTy.check, checkFloatingPointSpecs, Bool.and_eq_true] at hc ⊢
          refine ⟨?_, hc.2⟩
          simp
          omega
        | string str =>
          obtain ⟨_, hq⟩ := hdbl.resolve_left (by simp [CoreArg.ty])
          simp only [CoreArg.ty, CoreTy.check, checkStringSpecs, Bool.not_eq_true', Bool.or_eq_false_iff] at hc ⊢
          refine ⟨⟨hc.1.1, ?_⟩, hc.2⟩
          simp [hq]
        | bool => simp [CoreArg.ty] at hdbl
        | char => simp [CoreArg.ty] at hdbl
        | int => simp [CoreArg.ty] at hdbl
        | pointer => simp [CoreArg.ty] at hdbl
      have hO : ¬ OctalO a { s with width := W, precision := P } := by
        rintro ⟨_, h⟩
        cases a <;> simp_all [CoreArg.ty]
      exact core_emits_some a _ hok' ha hc' hO (needs_any a _ hok' hc')
  · have hx : a.write { s with width := W, precision := P } = a.write { s with width := W } :=
      write_precision a { s with width := W } P (fun h => hdbl (Or.inl h)) (fun h => by
        by_contra hq
        exact hdbl (Or.inr ⟨h, hq⟩))
    rw [hx]
    exact old

/-- Only formatters of core types and ranges are changed. -/
theorem overwrite_none {ty : FTy} (h1 : ∀ t, ty ≠ .core t) (h2 : ∀ c t, ty ≠ .range c t) (h3 : ∀ e ts, ty ≠ .tuple e ts)
    {d : Option Bool} {r r' : Reader} {f : Fmtr} (h : ty.fresh.parseWith d r = .ok r' f) (w p : Int) : f.overwrite w p = f := by
  cases ty with
  | core t => exact absurd rfl (h1 t)
  | range c t => exact absurd rfl (h2 c t)
  | optional t =>
    rw [FTy.fresh, Fmtr.parseWith] at h
    obtain ⟨r1, g, _, h⟩ := bind_ok_inv h
    obtain ⟨_, rfl⟩ := ok_inj h
    rfl
  | monostate =>
    rw [FTy.fresh, Fmtr.parseWith] at h
    obtain ⟨r1, g, _, h⟩ := bind_ok_inv h
    obtain ⟨_, rfl⟩ := ok_inj h
    rfl
  | variant ts =>
    rw [FTy.fresh, Fmtr.parseWith] at h
    obtain ⟨r1, g, _, h⟩ := bind_ok_inv h
    obtain ⟨_, rfl⟩ := ok_inj h
    rfl
  | tuple entry ts => exact absurd rfl (h3 entry ts)

theorem core_usable {E : Prop} {t : CoreTy} {s : Specs} (hok : s.Ok) (hc : t.check s = true) (hE : s.type = 'O' → E) {w p : Int}
    (hw : Number w) (hp : Number p) (hd : t = .double → p ≤ 1100) : Usable (.core t) E ((Fmtr.core t s).overwrite w p) := by
  intro v hty
  obtain ⟨b, rfl, rfl, valid⟩ := hasType_core hty t rfl
  rw [overwrite_core, format_core]
  rcases core_dynamic b s hok valid hc hw hp hd with ⟨hO, h⟩ | h
  · exact Or.inl ⟨hE hO.1, h⟩
  · exact Or.inr h

theorem range_usable {E : Prop} {curly : Bool} {t : FTy} {f : Fmtr} {o c sep : Str} (h3 : Usable t E f) :
    Usable (.range curly t) E (.range o c sep f) := by
  intro v hty
  cases hty with
  | @range _ _ vs each =>
    rw [format_range]
    rcases first_failing (P := fun i t => ∀ v, vs[i]? = some v → Emits (v.format f) t 1421)
      (Q := fun i => ∃ v, vs[i]? = some v ∧ E ∧ Fails (v.format f) 1421) vs.length (fun i hi => by
        rcases h3 vs[i] (each _ (List.getElem_mem hi)) with h | ⟨t, ht⟩
        · exact Or.inr ⟨vs[i], List.getElem?_eq_getElem hi, h⟩
        · left
          refine ⟨t, fun v hv => ?_⟩
          rw [List.getElem?_eq_getElem hi] at hv
          cases hv; exact ht) with ⟨ts, g1, g2⟩ | ⟨i, hi, ⟨v, hv, hO, hf⟩, hj⟩
    · right
      exact ⟨_, Emits.seq (emits_str _ _) (Emits.seq (formatRange_emits vs ts true g1 fun i v t hv ht => g2 i t ht v hv)
        (emits_str _ _))⟩
    · left
      refine ⟨hO, (emits_str _ _).fails (Fails.bind (formatRange_fails vs true i v hv hf ?_))⟩
      intro j hji w hw
      obtain ⟨t, ht⟩ := hj j hji
      exact ⟨t, ht w hw⟩

theorem brace_usable (E : Prop) {w p : Int} (hw : Number w) (hp : Number p) :
    ∀ ty : FTy, NoTuple ty → (OfDoubles ty → p ≤ 1100) → ∀ {r : Reader} {tail : Str}, r.At ('}' :: tail) →
      ∃ f, ty.fresh.parseWith (some true) r = .ok (r.adv 1) f ∧ Usable ty E (f.overwrite w p)
  | .core t, _, hd, r, tail, hat => by
    obtain ⟨h1, h2, h3⟩ := quotedSpec_ok t
    refine ⟨_, quoted_parse_exact r tail hat, core_usable (meaning_ok h2) ((allows_iff t h1).2 h3) ?_ hw hp ?_⟩
    · intro h
      exfalso
      rw [quotedSpec_meaning] at h
      split at h <;> exact absurd h (by decide)
    · rintro rfl
      exact hd trivial
  | .range curly t, hn, hd, r, tail, hat => by
    obtain ⟨f, h1, h2⟩ := brace_usable E hw hp t hn hd hat
    have hat' : r.At (rangeSpec false none ++ '}' :: tail) := by simpa [rangeSpec] using hat
    have hh := parseHead hat'
    simp only [Option.isSome_none, Bool.false_eq_true, if_false, Nat.add_zero] at hh
    have h0 : r.adv 0 = r := by cases r; rfl
    rw [h0] at hh
    refine ⟨_, by rw [FTy.fresh, Fmtr.parseWith, M.bind_ok hh]; simp only [Bool.false_eq_true, if_false]; rw [M.bind_ok h1, M.pure_run], ?_⟩
    exact range_usable h2
  | .tuple entry ts, hn, _, _, _, _ => hn.elim
  | .optional t, hn, _, r, tail, hat => by
    obtain ⟨f, h1, h2⟩ := usable_of_brace hn E hat (some true)
    exact ⟨f, h1, by rw [overwrite_none (by simp) (by simp) (by simp) h1]; exact h2⟩
  | .monostate, hn, _, r, tail, hat => by
    obtain ⟨f, h1, h2⟩ := usable_of_brace hn E hat (some true)
    exact ⟨f, h1, by rw [overwrite_none (by simp) (by simp) (by simp) h1]; exact h2⟩
  | .variant ts, hn, _, r, tail, hat => by
    obtain ⟨f, h1, h2⟩ := usable_of_brace hn E hat (some true)
    exact ⟨f, h1, by rw [overwrite_none (by simp) (by simp) (by simp) h1]; exact h2⟩

theorem dynamic_usable (src : Str) {w p : Int} (hw : Number w) (hp : Number p) :
    ∀ ty : FTy, NoTuple ty → (OfDoubles ty → p ≤ 1100) → ∀ r r' : Reader, r.src = src → r.Inv →
      ty.validate r = .ok r' () → ∃ f, ty.fresh.parseWith none r = .ok r' f ∧ Usable ty ('O' ∈ src) (f.overwrite w p)
  | .core t, _, hd, r, r', hsrc, hr, hv => by
    rw [FTy.validate] at hv
    obtain ⟨a, ha⟩ : ∃ a : CoreArg, a.ty = t := by
      cases t with
      | int t => exact ⟨.int t 0, rfl⟩
      | bool => exact ⟨.bool true, rfl⟩
      | char => exact ⟨.char 'a', rfl⟩
      | double => exact ⟨.double 0, rfl⟩
      | pointer => exact ⟨.pointer 0, rfl⟩
      | string => exact ⟨.string [], rfl⟩
    obtain ⟨s, h1, h2, h3⟩ := C27_formatter_parse_agrees_with_validate a r r' hr (by
      rw [show a.farg.validate = a.ty.validate from rfl, ha]; exact hv)
    have hp' : parseFormatSpecs {} r = .ok r' s := (C27_parse_agrees_with_validate {} s r r' hr h1)
    refine ⟨.core t s, ?_, core_usable (specs_ok hr h1) (by rw [← ha]; exact h2) ?_ hw hp ?_⟩
    · rw [FTy.fresh, Fmtr.parseWith]
      exact M.bind_ok hp'
    · intro hO
      rcases specs_type hr h1 with h | h
      · rw [hO] at h; exact absurd h (by decide)
      · rw [hO, hsrc] at h; exact h
    · rintro rfl
      exact hd trivial
  | .range curly t, ht, hd, r, r', hsrc, hr, hv => by
    rw [FTy.validate] at hv
    have main : ∃ n more f r1, parseRangeHead r = .ok r1 (n, more) ∧
        t.fresh.parseWith (if more then none else some true) r1 = .ok r' f ∧ Usable t ('O' ∈ src) (f.overwrite w p) := by
      rcases validateHead_cases hr with ⟨r', e, h⟩ | ⟨n, tail, ⟨h, hat⟩ | ⟨h, hat⟩⟩
      · rw [M.bind_err h] at hv; cases hv
      · rw [M.bind_ok h, if_neg (by simp), M.pure_run] at hv
        obtain ⟨rfl, _⟩ := ok_inj hv
        have hat' : r.At (rangeSpec n none ++ '}' :: tail) := by simpa [rangeSpec] using hat
        have hh := head_at hat'
        simp only [Option.getD_none, List.nil_append] at hh
        obtain ⟨f, h1, h2⟩ := brace_usable ('O' ∈ src) hw hp t ht hd hh
        refine ⟨n, false, f, _, parseHead hat', ?_, h2⟩
        rw [adv_adv] at h1
        simpa using h1
      · rw [M.bind_ok h, if_pos rfl] at hv
        have hat' : r.At (((if n then ['n'] else []) ++ [':']) ++ tail) := by simpa using hat
        have hl : ((if n then ['n'] else []) ++ [':']).length = (if n then 1 else 0) + 1 := by cases n <;> rfl
        have hat2 := hat'.adv
        rw [hl] at hat2
        obtain ⟨f, h1, h2⟩ := dynamic_usable src hw hp t ht hd (r.adv ((if n then 1 else 0) + 1)) r' hsrc hat2.1 hv
        exact ⟨n, true, f, _, parseHead_more hat, h1, h2⟩
    obtain ⟨n, more, f, r1, h1, h2, h3⟩ := main
    refine ⟨_, by rw [FTy.fresh, Fmtr.parseWith, M.bind_ok h1]; simp only; rw [M.bind_ok h2, M.pure_run], ?_⟩
    exact range_usable h3
  | .tuple entry ts, ht, _, _, _, _, _, _ => ht.elim
  | .optional t, ht, _, r, r', hsrc, hr, hv => by
    obtain ⟨f, h1, h2⟩ := validate_sound src _ ht r r' hsrc hr hv
    exact ⟨f, h1, by rw [overwrite_none (by simp) (by simp) (by simp) h1]; exact h2⟩
  | .monostate, ht, _, r, r', hsrc, hr, hv => by
    obtain ⟨f, h1, h2⟩ := validate_sound src _ ht r r' hsrc hr hv
    exact ⟨f, h1, by rw [overwrite_none (by simp) (by simp) (by simp) h1]; exact h2⟩
  | .variant ts, ht, _, r, r', hsrc, hr, hv => by
    obtain ⟨f, h1, h2⟩ := validate_sound src _ ht r r' hsrc hr hv
    exact ⟨f, h1, by rw [overwrite_none (by simp) (by simp) (by simp) h1]; exact h2⟩

theorem number_getD {k : Option Int} (h : Given k) : Number (k.getD notDefined) := by
  cases k with
  | none => exact Or.inl rfl
  | some k => exact Or.inr (h k rfl).2.2

theorem dynamic_sound {ty : FTy} (hn : NoTuple ty) {v : FVal} (hv : HasType v ty) {width precision : Option Int}
    (hw : Given width) (hp : Given precision) (hd : OfDoubles ty → ∀ p ∈ precision, p ≤ 1100) (src : Str) :
    (v.dynamic ty (width.getD notDefined) (precision.getD notDefined)).Sound src 1421 ('O' ∈ src) := by
  intro r r' hsrc hr hval
  obtain ⟨f, h1, h2⟩ := dynamic_usable src (number_getD hw) (number_getD hp) ty hn (fun h => by
    cases precision with
    | none => decide
    | some p => exact hd h p rfl) r r' hsrc hr hval
  refine ⟨_, ?_, h2 v hv⟩
  show (do let f ← ty.fresh.parse; return v.format (f.overwrite _ _)) r = _
  rw [Fmtr.parse, M.bind_ok h1]
  rfl

/-! ### Format strings in format strings -/

theorem validates_total {str : Str} {args : List FArg} (hn : args.length ≤ 128) (hf : ∀ a ∈ args, a.Forward) :
    ∃ b, validateStr str args = .ok () b := by
  refine loop_total _ hf hn (str.length + 1) ⟨Reader.ofStr str, none, 0⟩
    (Bitset.new 128) [] (Bitset.rep_new 128) rfl (Reader.at_ofStr _).1 ?_
  rw [(Reader.at_ofStr str).2]
  simp

theorem nested_forward (str : Str) (args : List FArg) : (formatArgs str args).Forward := by
  intro r hr
  rcases matchBrace_cases hr with ⟨r', e, h⟩ | ⟨tail, h⟩
  · left
    refine ⟨r', e, ?_⟩
    show (do let _ ← Reader.readIfMatchChar '}' : M Reader Unit) r = _
    exact M.bind_err h
  · exact Or.inr ⟨['}'], tail, h, nested_validate r h⟩

theorem nested_agrees {str : Str} {args : List FArg} {errs : Err → Prop} (hn : args.length ≤ 128)
    (hf : ∀ a ∈ args, a.Forward) (hs : ∀ a ∈ args, a.Agrees errs) (he : errs .invalidFormat) :
    (formatArgs str args).Agrees errs := by
  intro r r' hr hv
  rcases matchBrace_cases hr with ⟨r1, e, h⟩ | ⟨tail, h⟩
  · have : (formatArgs str args).validate r = .err r1 e := by
      show (do let _ ← Reader.readIfMatchChar '}' : M Reader Unit) r = _
      exact M.bind_err h
    rw [this] at hv
    cases hv
  · rw [nested_validate r h] at hv
    obtain ⟨rfl, _⟩ := ok_inj hv
    refine ⟨_, nested_parse r h, fun ops => ?_⟩
    unfold nestedAct
    obtain ⟨b, hb⟩ := validates_total (str := str) hn hf
    unfold VStr.make
    by_cases hp : args.length = 0 ∧ checkIfPlainString str = true
    · rw [if_pos hp]
      exact ⟨[.str str], by simpa using (map_str_fine [str] (.str str) (by simp)).1, Or.inl rfl⟩
    · rw [if_neg hp, hb]
      cases b with
      | false => exact ⟨[], by simp, Or.inr ⟨_, he, by simp⟩⟩
      | true =>
        simp only [Bool.false_eq_true, if_false]
        obtain ⟨f, new, h1, h2, h3⟩ := loop_agrees args errs hs hf (str.length + 1) ⟨Reader.ofStr str, none, 0⟩
          (Bitset.new 128) [] (Reader.at_ofStr _).1 hb
        rw [List.nil_append] at h1
        refine ⟨new, h2, ?_⟩
        unfold formatRun
        rcases h3 with h3 | ⟨e, h4, h3⟩
        · rw [h3, ← h1]
          exact Or.inl rfl
        · rw [h3, ← h1]
          exact Or.inr ⟨e, h4, rfl⟩

/-! ### All of them -/

theorem deep_works {errs : Err → Prop} {a : Deep} (h : a.Decent errs) : a.farg.Forward ∧ a.farg.Agrees errs := by
  have sound : ∀ {b : FArg}, errs .invalidFormat → (∀ src, b.Sound src 1421 ('O' ∈ src)) → b.Agrees errs := by
    intro b he hb r r' hr hv
    obtain ⟨act, h4, h5⟩ := tame_agrees hb r r' hr hv
    refine ⟨act, h4, fun ops => ?_⟩
    obtain ⟨new, h6, h7⟩ := h5 ops
    refine ⟨new, h6, ?_⟩
    rcases h7 with h7 | ⟨e, rfl, h7⟩
    · exact Or.inl h7
    · exact Or.inr ⟨_, he, h7⟩
  induction h with
  | @value ty v typed free refuse =>
    rw [Deep.farg]
    exact ⟨(value_tame free v).forward, sound refuse fun src => value_sound free typed src⟩
  | @dynamic ty v width precision typed free w g m refuse =>
    rw [Deep.farg]
    exact ⟨(value_tame free v).forward, sound refuse fun src => dynamic_sound free typed w g m src⟩
  | custom decent =>
    rw [Deep.farg]
    exact ⟨custom_forward decent, custom_agrees decent⟩
  | @nested str args number each refuse ih =>
    rw [Deep.farg, fargs_map]
    have hall : ∀ b ∈ args.map Deep.farg, b.Forward ∧ b.Agrees errs := by
      intro b hb
      obtain ⟨d, hd, rfl⟩ := List.mem_map.1 hb
      exact ih d hd
    exact ⟨nested_forward _ _, nested_agrees (by simpa using number) (fun b hb => (hall b hb).1)
      (fun b hb => (hall b hb).2) refuse⟩

end Emio
