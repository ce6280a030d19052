import Verif.Lemmas.UserScanner
import Verif.Props.UserFormatter
import Verif.Props.Scan
/-
Property C73: scanners of users.
-/
namespace Emio
open Spec Reader
variable {V W : Type}

theorem proceeds_nil {scs : List (UserScanner V)} {last : Str} {i : Nat} {segs : List (Str × Field)} {vars vars' : List V}
    {input used : Str} {ending : Ending} (h : Proceeds scs last i segs vars input used vars' ending) (hs : segs = []) :
    (∃ rest, input = last ++ rest ∧ used = last ∧ vars' = vars ∧ ending = .success) ∨
    (¬ last <+: input ∧ vars' = vars ∧ ending = .mismatch) := by
  cases h with
  | done i vars rest => exact Or.inl ⟨rest, rfl, rfl, rfl, rfl⟩
  | missing i vars input h => exact Or.inr ⟨h, rfl, rfl⟩
  | field => cases hs
  | stop => cases hs
  | absent => cases hs

/-- C73, what is scanned: literal text is matched, and every field is handed to the scanner of its variable, with the
specification of the field, the input behind everything read before, and the content the variable has by then.  The first
scanner that reports an error, or literal text that is not in the input, ends the scan: later variables are not touched. -/
theorem C73_fields (t : FormatText) (scs : List (UserScanner V)) (numbers : t.Numbers scs.length)
    (specs : ∀ (i : Nat) (f : Field), t.fields[i]? = some f →
      ∃ sc spec, scs[f.argument i]? = some sc ∧ f.HasSpec spec ∧ Permits sc spec)
    (io : UserIO V) (used : Str) (vars : List V) (ending : Ending) (inside : io.inp.pos ≤ io.inp.src.length)
    (proceeds : Proceeds scs t.last 0 t.segs io.vars io.inp.rest used vars ending) :
    Concludes io used vars (userScanFrom t.text scs io) ending := by
  have hwf : ∀ f ∈ t.fields, f.WellFormed := by
    intro f hf
    obtain ⟨i, hi⟩ := List.getElem?_of_mem hf
    obtain ⟨sc, spec, _, hs, _⟩ := specs i f hi
    exact hasSpec_wellFormed (numbers.digits f hf) hs
  have hat : io.inp.At io.inp.rest := ⟨inside, rfl⟩
  by_cases hp : (scs.map UserScanner.farg).length = 0 ∧ checkIfPlainString t.text = true
  · obtain ⟨hsg, ht⟩ := plain_text hp.2
    unfold userScanFrom VStr.make
    rw [if_pos hp]
    simp only [if_true, ht]
    obtain ⟨segs, last⟩ := t
    simp only at hsg ht proceeds
    subst hsg
    rcases proceeds_nil proceeds rfl with ⟨rest, hr, hu, rfl, rfl⟩ | ⟨hr, rfl, rfl⟩
    · subst hu
      have : used <+: io.inp.rest := ⟨rest, hr.symm⟩
      rw [C06_read_if_match_str, if_pos this]
      rfl
    · rw [C06_read_if_match_str, if_neg hr]
      by_cases hl : io.inp.rest.length < last.length
      · rw [if_pos hl]; exact ⟨_, _, rfl, Or.inl rfl⟩
      · rw [if_neg hl]; exact ⟨_, _, rfl, Or.inr rfl⟩
  · have hv : validateStr t.text (scs.map UserScanner.farg) = .ok () true := by
      refine fields_validate (by simpa using numbers.number) hwf numbers.mode (by simpa using numbers.arguments) ?_
      intro i f hf
      obtain ⟨sc, spec, h1, h2, h3⟩ := specs i f hf
      refine ⟨sc.farg, by simp [h1], ?_⟩
      rw [h2.1]
      exact permits_admits h3
    have hmode : ModeOk none t.fields := by
      rcases numbers.mode with h | h
      · exact Or.inl ⟨h, by simp⟩
      · exact Or.inr ⟨h, by simp⟩
    have := userLoop_proceeds proceeds (t.text.length + 1) ⟨Reader.ofStr t.text, none, 0⟩ io.inp
      ⟨numbers.number, Reader.at_ofStr _, fun s hs => hwf s.2 (List.mem_map_of_mem hs), hmode, by simp,
        fun j hj => (numbers.arguments j).1 (by rw [argsFrom_eq]; exact hj), Or.inl rfl⟩ hat
      (by have := segs_length_le t; omega)
    unfold userScanFrom VStr.make
    rw [if_neg hp, hv]
    simp only [Bool.false_eq_true, if_false]
    revert this
    generalize userLoop scs (t.text.length + 1) ⟨⟨Reader.ofStr t.text, none, 0⟩, io.inp, io.vars⟩ = x
    cases x <;> exact id

/-- What is read is the beginning of the input. -/
theorem proceeds_prefix {scs : List (UserScanner V)} {last : Str} {i : Nat} {segs : List (Str × Field)} {vars vars' : List V}
    {input used : Str} {ending : Ending} (h : Proceeds scs last i segs vars input used vars' ending) : used <+: input := by
  induction h with
  | done i vars rest => exact List.prefix_append _ _
  | missing i vars input h => exact List.nil_prefix
  | field scanner holds body obtains more ih =>
    exact List.prefix_append_right_inj _ |>.2 (List.prefix_append_right_inj _ |>.2 ih)
  | stop scanner holds body declines => exact List.prefix_append_right_inj _ |>.2 (List.prefix_append _ _)
  | absent h => exact List.nil_prefix

/-- `scan` succeeds if the scanners and the literal text take the whole input, and reports an error if they leave a part of
it. -/
theorem C73_whole_input (t : FormatText) (scs : List (UserScanner V)) (numbers : t.Numbers scs.length)
    (specs : ∀ (i : Nat) (f : Field), t.fields[i]? = some f →
      ∃ sc spec, scs[f.argument i]? = some sc ∧ f.HasSpec spec ∧ Permits sc spec)
    (input used : Str) (before vars : List V) (ending : Ending)
    (proceeds : Proceeds scs t.last 0 t.segs before input used vars ending) :
    match ending with
    | .success => userScan input t.text scs before = if used = input then .ok vars () else .err vars .invalidFormat
    | .failed e => userScan input t.text scs before = .err vars e
    | .mismatch => ∃ e, userScan input t.text scs before = .err vars e ∧ (e = .eof ∨ e = .invalidData) := by
  have h := C73_fields t scs numbers specs ⟨Reader.ofStr input, before⟩ used vars ending (Nat.zero_le _)
    (by rw [(Reader.at_ofStr input).2]; exact proceeds)
  have hpre := proceeds_prefix proceeds
  unfold userScan
  cases ending with
  | success =>
    have h : userScanFrom t.text scs ⟨Reader.ofStr input, before⟩ = _ := h
    simp only [h]
    by_cases hu : used = input
    · rw [if_pos hu, if_pos (by rw [hu]; simp [Reader.eof, Reader.adv, Reader.ofStr])]
    · rw [if_neg hu, if_neg]
      intro he
      apply hu
      refine hpre.eq_of_length ?_
      simpa [Reader.eof, Reader.adv, Reader.ofStr] using he
  | failed e =>
    have h : userScanFrom t.text scs ⟨Reader.ofStr input, before⟩ = _ := h
    simp only [h]
  | mismatch =>
    obtain ⟨r, e, h, he⟩ := h
    exact ⟨e, by simp only [h], he⟩

/-- C73, any string: as long as scanners do not move back in the scan string and read when parsing what they accepted when
validating, a scan comes to a result, whatever string and input.  A string that is not accepted is reported before anything
is read.  Otherwise the only errors are those the scanners report and those for literal text that is not in the input. -/
theorem C73_any_string (str : Str) (scs : List (UserScanner V)) (errs : Err → Prop) (hn : scs.length ≤ 128)
    (decent : ∀ sc ∈ scs, DecentScanner sc errs) (io : UserIO V) (inside : io.inp.pos ≤ io.inp.src.length)
    (enough : scs.length ≤ io.vars.length) :
    ∃ accepted, validateStr str (scs.map UserScanner.farg) = .ok () accepted ∧
      if accepted then
        ∃ io' : UserIO V, io'.inp.src = io.inp.src ∧ io'.inp.pos ≤ io.inp.src.length ∧ io'.vars.length = io.vars.length ∧
          (userScanFrom str scs io = .ok io' () ∨
            ∃ e, (errs e ∨ e = .eof ∨ e = .invalidData) ∧ userScanFrom str scs io = .err io' e)
      else userScanFrom str scs io = .err io .invalidFormat := by
  obtain ⟨b, hb⟩ : ∃ b, validateStr str (scs.map UserScanner.farg) = .ok () b := by
    refine loop_total _ ?_ (by simpa using hn) (str.length + 1) ⟨Reader.ofStr str, none, 0⟩
      (Bitset.new 128) [] (Bitset.rep_new 128) rfl (Reader.at_ofStr _).1 ?_
    · intro a ha
      obtain ⟨sc, hsc, rfl⟩ := List.mem_map.1 ha
      exact scanner_forward (decent sc hsc)
    · rw [(Reader.at_ofStr str).2]
      simp
  refine ⟨b, hb, ?_⟩
  by_cases hp : (scs.map UserScanner.farg).length = 0 ∧ checkIfPlainString str = true
  · have h0 : scs.map UserScanner.farg = [] := List.eq_nil_of_length_eq_zero hp.1
    rw [h0, plain_validates str hp.2] at hb
    obtain ⟨_, rfl⟩ := ok_inj hb
    simp only [if_true]
    unfold userScanFrom VStr.make
    rw [if_pos hp]
    simp only [if_true]
    rw [C06_read_if_match_str]
    by_cases h1 : str <+: io.inp.rest
    · rw [if_pos h1]
      refine ⟨⟨io.inp.adv str.length, io.vars⟩, rfl, ?_, rfl, Or.inl rfl⟩
      have := h1.length_le
      have hl : io.inp.rest.length = io.inp.src.length - io.inp.pos := by simp [Reader.rest]
      simp only [Reader.adv]
      omega
    · rw [if_neg h1]
      by_cases hl : io.inp.rest.length < str.length
      · rw [if_pos hl]
        exact ⟨io, rfl, inside, rfl, Or.inr ⟨.eof, Or.inr (Or.inl rfl), rfl⟩⟩
      · rw [if_neg hl]
        exact ⟨io, rfl, inside, rfl, Or.inr ⟨.invalidData, Or.inr (Or.inr rfl), rfl⟩⟩
  · cases b with
    | false =>
      unfold userScanFrom VStr.make
      rw [if_neg hp, hb]
      simp
    | true =>
      simp only [if_true]
      have h := userLoop_decent scs errs decent (str.length + 1) ⟨Reader.ofStr str, none, 0⟩ (Bitset.new 128) io.inp io.vars
        (Reader.at_ofStr _).1 inside enough hb
      obtain ⟨s, h1, h2, h3, h4⟩ := h
      refine ⟨⟨s.inp, s.vars⟩, h1, ?_, h3, ?_⟩
      · have h2 : s.inp.pos ≤ s.inp.src.length := h2
        rw [h1] at h2
        exact h2
      · unfold userScanFrom VStr.make
        rw [if_neg hp, hb]
        simp only [Bool.false_eq_true, if_false]
        rcases h4 with h4 | ⟨e, he, h4⟩
        · rw [h4]; exact Or.inl rfl
        · rw [h4]; exact Or.inr ⟨e, he, rfl⟩

/-- C73, the scanners of the library are scanners like any other: scanning with them in this way is what `scan_from` does. -/
theorem C73_builtin (str : Str) (tys : List ScanTy) (inp : Reader) (vars : List ScanVal) :
    userScanFrom str (tys.map ScanTy.scanner) ⟨inp, vars⟩ =
      match scanFrom str tys ⟨inp, vars⟩ with
      | .ok io _ => .ok ⟨io.inp, io.vars⟩ ()
      | .err io e => .err ⟨io.inp, io.vars⟩ e
      | .bad b => .bad b := by
  have hf : (tys.map ScanTy.scanner).map UserScanner.farg = tys.map ScanTy.farg := by
    rw [List.map_map]
    rfl
  unfold userScanFrom scanFrom
  rw [hf]
  cases VStr.make str (tys.map ScanTy.farg) with
  | bad b => rfl
  | err u e => rfl
  | ok u vs =>
    simp only [vscanFrom]
    cases vs.str with
    | none => rfl
    | some s =>
      simp only
      split
      · cases readIfMatchStr s inp <;> rfl
      · have := userLoop_builtin tys (s.length + 1) ⟨⟨Reader.ofStr s, none, 0⟩, inp, vars⟩
        simp only at this
        rw [this]
        cases scanLoop tys (s.length + 1) ⟨⟨Reader.ofStr s, none, 0⟩, inp, vars⟩ <;> rfl

/-- C73, what the scanners of the integers obtain where a number they can read is ahead. -/
theorem C73_integer (ty : IntTy) (hty : ty.Std) (sp : ScanSpec) (wf : sp.WellFormed) (fits : sp.Fits)
    (hal : ScanTy.Allows (.int ty) sp) (n : Number) (rest : Str) (ahead : NumberAhead sp n rest) (hfit : ty.Holds n.value)
    (hs : ty.signed = true ∨ n.sign ≠ .minus) (behind : Str) (old : ScanVal) :
    Permits (ScanTy.int ty).scanner sp.text ∧
    Obtains (ScanTy.int ty).scanner sp.text behind old n.text rest (.int n.value) := by
  constructor
  · intro r tail hat
    refine ⟨fun validate hv => ?_, by simp [ScanTy.scanner]⟩
    obtain rfl : (ScanTy.int ty).validate = validate := by simpa [ScanTy.scanner] using hv
    exact (validate_fwd _ wf fits hat).1 hal
  · intro r hat
    have h1 := (scan_agree hat.1 (scan_specs_forward wf fits hat)).1
    refine ⟨(sp.meaning, r.adv (sp.text.length + 1)), ?_, fun inp hin => ?_⟩
    · show (do let s ← parseScanSpecs {}; let fmt ← M.get; return (s, fmt) : M Reader (ScanSpecs × Reader)) r = _
      rw [M.bind_ok h1]
      rfl
    · have := readInteger_fwd ty hty wf fits hal (st := ⟨inp, old⟩) (n := n) (tail := rest) hin ahead.width ahead.base
        ahead.digits ahead.plain ahead.ends hfit hs
      show (match (ScanTy.int ty).scan sp.meaning (r.adv (sp.text.length + 1)) ⟨inp, old⟩ with
        | .ok sl _ => .ok sl.cell ()
        | .err sl e => .err sl.cell e
        | .bad b => .bad b : Run (Cell ScanVal) Unit) = _
      simp only [ScanTy.scan, this]
      rfl

/-- C73, inheritance: scanners that inherit from others and scan a part of the variable scan as those do, and nothing but
this part changes. -/
theorem C73_inherited (str : Str) (fs : List (UserScanner V × Part W V)) (lawful : ∀ f ∈ fs, LawfulPart f.2) (io : UserIO W) :
    Mirrors (fs.map (·.2)) io.vars (userScanFrom str (fs.map fun f => f.1.inherit f.2) io)
      (userScanFrom str (fs.map (·.1)) ⟨io.inp, views (fs.map (·.2)) io.vars⟩) := by
  have hf : (fs.map fun f => f.1.inherit f.2).map UserScanner.farg = (fs.map (·.1)).map UserScanner.farg := by
    rw [List.map_map, List.map_map]
    rfl
  unfold userScanFrom
  rw [hf]
  cases VStr.make str ((fs.map (·.1)).map UserScanner.farg) with
  | bad b => rfl
  | err u e => exact ⟨rfl, rfl, rfl, onlyParts_refl _ _⟩
  | ok u vs =>
    simp only
    cases vs.str with
    | none => exact ⟨rfl, rfl, rfl, onlyParts_refl _ _⟩
    | some s =>
      simp only
      split
      · cases readIfMatchStr s io.inp with
        | bad b => rfl
        | err r e => exact ⟨rfl, rfl, rfl, onlyParts_refl _ _⟩
        | ok r a => exact ⟨rfl, rfl, onlyParts_refl _ _⟩
      · have := userLoop_inherited fs lawful io.vars (s.length + 1) ⟨Reader.ofStr s, none, 0⟩ io.inp io.vars
          (onlyParts_refl _ _)
        revert this
        generalize userLoop (fs.map fun f => f.1.inherit f.2) (s.length + 1) ⟨⟨Reader.ofStr s, none, 0⟩, io.inp, io.vars⟩ = x
        generalize userLoop (fs.map (·.1)) (s.length + 1)
          ⟨⟨Reader.ofStr s, none, 0⟩, io.inp, views (fs.map (·.2)) io.vars⟩ = y
        intro h
        cases x <;> cases y <;> first | exact h.elim | skip
        · exact ⟨h.2.2.1, h.2.2.2⟩
        · exact h
        · exact h

/-! ### Examples -/

/-- A scanner without `validate` that takes no specification and reads `y` or `n`. -/
def yesNo : UserScanner ScanVal where
  State := Unit
  validate := none
  parse := do let _ ← Reader.readIfMatchChar '}'
  scan _ := fun c =>
    match Reader.readChar c.inp with
    | .bad b => .bad b
    | .err r e => .err ⟨r, c.var⟩ e
    | .ok r x => if x = 'y' ∨ x = 'n' then .ok ⟨r, .int (if x = 'y' then 1 else 0)⟩ () else .err ⟨r, c.var⟩ .invalidData

theorem yesNo_permits : Permits yesNo [] :=
  fun _ _ hat => ⟨by simp [yesNo], fun _ => ⟨(), brace_read hat⟩⟩

theorem readChar_run {r : Reader} {x : Char} {l : Str} (h : r.At (x :: l)) : Reader.readChar r = .ok (r.adv 1) x :=
  ((C06_read_char r h.1).1 x l h.2).1

theorem yesNo_obtains (behind : Str) (old : ScanVal) (rest : Str) : Obtains yesNo [] behind old ['y'] rest (.int 1) := by
  intro r hat
  refine ⟨(), brace_read hat, fun inp hin => ?_⟩
  have := readChar_run hin
  show (match Reader.readChar inp with
    | .bad b => .bad b
    | .err r e => .err ⟨r, old⟩ e
    | .ok r x => if x = 'y' ∨ x = 'n' then .ok ⟨r, .int (if x = 'y' then 1 else 0)⟩ () else .err ⟨r, old⟩ .invalidData :
      Run (Cell ScanVal) Unit) = _
  rw [this]
  rfl

theorem yesNo_declines (behind : Str) (old : ScanVal) (rest : Str) : Declines yesNo [] behind old ['?'] rest old .invalidData := by
  intro r hat
  refine ⟨(), brace_read hat, fun inp hin => ?_⟩
  have := readChar_run hin
  show (match Reader.readChar inp with
    | .bad b => .bad b
    | .err r e => .err ⟨r, old⟩ e
    | .ok r x => if x = 'y' ∨ x = 'n' then .ok ⟨r, .int (if x = 'y' then 1 else 0)⟩ () else .err ⟨r, old⟩ .invalidData :
      Run (Cell ScanVal) Unit) = _
  rw [this]
  rfl

theorem yesNo_decent : DecentScanner yesNo fun e => e = .eof ∨ e = .invalidData := by
  refine ⟨fun r hr => ?_, by simp [yesNo], fun s c hc => ?_⟩
  · show (∃ r' e, (do let _ ← yesNo.parse : M Reader Unit) r = .err r' e) ∨ ∃ n ≤ _,
      (do let _ ← yesNo.parse : M Reader Unit) r = _
    rcases brace_ends hr with ⟨r', e, h⟩ | ⟨n, hn, h⟩
    · left
      rw [M.bind_err (show yesNo.parse r = _ from h)]
      exact ⟨_, _, rfl⟩
    · right
      rw [M.bind_ok (show yesNo.parse r = _ from h)]
      exact ⟨n, hn, rfl⟩
  · simp only [yesNo]
    cases hl : c.inp.rest with
    | nil =>
      have : Reader.readChar c.inp = .err c.inp .eof := ((C06_read_char _ hc).2 hl).1
      simp only [this]
      exact ⟨c, rfl, hc, Or.inr ⟨_, Or.inl rfl, rfl⟩⟩
    | cons x l =>
      have hat : c.inp.At ([x] ++ l) := ⟨hc, hl⟩
      have : Reader.readChar c.inp = .ok (c.inp.adv 1) x := readChar_run hat
      simp only [this]
      split
      · exact ⟨⟨c.inp.adv 1, .int (if x = 'y' then 1 else 0)⟩, rfl, hat.adv.1, Or.inl rfl⟩
      · exact ⟨⟨c.inp.adv 1, c.var⟩, rfl, hat.adv.1, Or.inr ⟨_, Or.inr rfl, rfl⟩⟩

theorem hex_ahead : NumberAhead (ScanSpec.mk true [] (some 'x')) ⟨.none, ['0', 'x'], 16, "1f".toList⟩ ['z'] :=
  ⟨by simp [ScanSpec.size], by simp [ScanSpec.Base, typeBase, marks], ⟨by decide, by decide⟩, by decide, by simp⟩

theorem hex_obtains (behind : Str) (old : ScanVal) :
    Permits (ScanTy.int i32).scanner ['#', 'x'] ∧
    Obtains (ScanTy.int i32).scanner ['#', 'x'] behind old "0x1f".toList ['z'] (.int 31) :=
  C73_integer i32 (by simp [IntTy.Std]) (ScanSpec.mk true [] (some 'x')) ⟨by simp, by decide⟩
    (by simp [ScanSpec.Fits, ScanSpec.size]) (by simp [ScanTy.Allows]) _ _ hex_ahead (by decide +kernel) (by simp) behind old

/-- `"a{1}b{0:#x}c"` with a number and a variable of a user-defined type. -/
def pairText : FormatText := ⟨[(['a'], ⟨['1'], false, ['}']⟩), (['b'], ⟨['0'], true, ['#', 'x', '}']⟩)], ['z']⟩

theorem pair_numbers : pairText.Numbers 2 := by
  refine ⟨by decide, by simp [FormatText.fields, pairText],
    Or.inr (by simp [FormatText.Explicit, FormatText.fields, pairText]), fun k => ?_⟩
  have : pairText.arguments = [1, 0] := by decide +kernel
  rw [this]
  simp
  omega

theorem pair_specs (i : Nat) (f : Field) (hf : pairText.fields[i]? = some f) :
    ∃ sc spec, [(ScanTy.int i32).scanner, yesNo][f.argument i]? = some sc ∧ f.HasSpec spec ∧ Permits sc spec := by
  match i with
  | 0 =>
    simp [FormatText.fields, pairText] at hf
    subst hf
    exact ⟨yesNo, [], rfl, ⟨rfl, fun _ => rfl⟩, yesNo_permits⟩
  | 1 =>
    simp [FormatText.fields, pairText] at hf
    subst hf
    exact ⟨_, ['#', 'x'], rfl, ⟨rfl, by simp⟩, (hex_obtains [] (.int 0)).1⟩
  | i + 2 => simp [FormatText.fields, pairText] at hf

example : userScanFrom "a{1}b{0:#x}z".toList [(ScanTy.int i32).scanner, yesNo] ⟨ofStr "ayb0x1fz".toList, [.int 5, .int 6]⟩ =
    .ok ⟨⟨"ayb0x1fz".toList, 8⟩, [.int 31, .int 1]⟩ () :=
  C73_fields pairText [(ScanTy.int i32).scanner, yesNo] pair_numbers pair_specs ⟨ofStr "ayb0x1fz".toList, [.int 5, .int 6]⟩
    "ayb0x1fz".toList [.int 31, .int 1] .success (by decide)
    (.field (sc := yesNo) (old := .int 6) (spec := []) (piece := ['y']) (rest := "b0x1fz".toList) rfl rfl rfl
      (yesNo_obtains _ _ _)
      (.field (sc := (ScanTy.int i32).scanner) (old := .int 5) (spec := ['#', 'x']) (piece := "0x1f".toList) (rest := ['z'])
        rfl rfl rfl (hex_obtains _ _).2 (.done _ _ [])))

/-- `scan` takes the whole input; a character more is an error. -/
example : userScan "ayb0x1fz".toList "a{1}b{0:#x}z".toList [(ScanTy.int i32).scanner, yesNo] [.int 5, .int 6] =
      .ok [.int 31, .int 1] () ∧
    userScan "ayb0x1fz?".toList "a{1}b{0:#x}z".toList [(ScanTy.int i32).scanner, yesNo] [.int 5, .int 6] =
      .err [.int 31, .int 1] .invalidFormat :=
  ⟨C73_whole_input pairText [(ScanTy.int i32).scanner, yesNo] pair_numbers pair_specs "ayb0x1fz".toList "ayb0x1fz".toList
    [.int 5, .int 6] [.int 31, .int 1] .success
    (.field (sc := yesNo) (old := .int 6) (spec := []) (piece := ['y']) (rest := "b0x1fz".toList) rfl rfl rfl
      (yesNo_obtains _ _ _)
      (.field (sc := (ScanTy.int i32).scanner) (old := .int 5) (spec := ['#', 'x']) (piece := "0x1f".toList) (rest := ['z'])
        rfl rfl rfl (hex_obtains _ _).2 (.done _ _ []))),
    by decide +kernel⟩

/-- The first scanner reports an error: the other variable is not touched. -/
example : userScanFrom "a{1}b{0:#x}z".toList [(ScanTy.int i32).scanner, yesNo] ⟨ofStr "a?b0x1fz".toList, [.int 5, .int 6]⟩ =
    .err ⟨⟨"a?b0x1fz".toList, 2⟩, [.int 5, .int 6]⟩ .invalidData :=
  C73_fields pairText [(ScanTy.int i32).scanner, yesNo] pair_numbers pair_specs ⟨ofStr "a?b0x1fz".toList, [.int 5, .int 6]⟩
    "a?".toList [.int 5, .int 6] (.failed .invalidData) (by decide)
    (.stop (sc := yesNo) (old := .int 6) (spec := []) (piece := ['?']) (rest := "b0x1fz".toList) rfl rfl rfl
      (yesNo_declines _ _ _))

/-- Any string. -/
example (str input : Str) := C73_any_string str [yesNo, yesNo] _ (by decide)
  (by simp only [List.mem_cons, List.not_mem_nil, or_false, or_self, forall_eq]; exact yesNo_decent)
  ⟨ofStr input, [.int 0, .int 0]⟩ (Nat.zero_le _) (Nat.le_refl _)

example : validateStr "{}, {}".toList [yesNo.farg, yesNo.farg] = .ok () true ∧
    validateStr "{:x}, {}".toList [yesNo.farg, yesNo.farg] = .ok () false := by decide +kernel

/-- `struct foo { int x; ... }` whose scanner inherits from that of `int` (docs/API.md:1003-1015). -/
def fooPart : Part (ScanVal × Nat) ScanVal := ⟨Prod.fst, fun v w => (v, w.2)⟩

theorem fooPart_lawful : LawfulPart fooPart := ⟨fun _ _ => rfl, fun _ _ _ => rfl⟩

example (str : Str) (io : UserIO (ScanVal × Nat)) := C73_inherited str [((ScanTy.int i32).scanner, fooPart)]
  (by simpa using fooPart_lawful) io

/-- The number is scanned with the specification of an `int`.  The call in docs/API.md:1014 has no `#` in the scan string and
reports an error instead: the mark of the base is part of the number with `#` only. -/
example : userScan "0x2A".toList "{:#x}".toList [(ScanTy.int i32).scanner.inherit fooPart] [(.int 0, 7)] = .ok [(.int 42, 7)] () ∧
    userScan "2A".toList "{:x}".toList [(ScanTy.int i32).scanner.inherit fooPart] [(.int 0, 7)] = .ok [(.int 42, 7)] () ∧
    userScan "0x2A".toList "{:x}".toList [(ScanTy.int i32).scanner.inherit fooPart] [(.int 0, 7)] =
      .err [(.int 0, 7)] .invalidFormat := by decide +kernel

end Emio
