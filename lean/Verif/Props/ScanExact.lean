import Verif.Lemmas.ScanExact
import Verif.Props.Scan
/-
Property C79: every call of a scan function has the outcome a simple interpreter for scan strings says.
-/
namespace Emio
open Reader Spec

/-! ### Reading integers -/

/-- C01, for every type, base, and text whatsoever: what `parse_int` returns, and when its behaviour is undefined.  At an
error the reader stays where it was. -/
theorem C01_parse_int_reference (t : IntTy) (base : Int) (r : Reader) (hpos : r.pos ≤ r.src.length) :
    parseInt t base r =
      match parseReference t base r.rest with
      | .value rest v => .ok { r with pos := r.src.length - rest.length } v
      | .error e => .err r e
      | .undefined => .bad .ub := by
  have h : r.At r.rest := ⟨hpos, rfl⟩
  unfold parseInt parseSignAndInt parseReference
  by_cases hs : r.rest = []
  · rw [hs] at h
    rw [if_pos hs, M.bind_err (sign_eof h)]
  rw [if_neg hs]
  obtain ⟨r1, h1, hf1⟩ := sign_exact h hs
  rw [M.bind_ok h1]
  by_cases hb : 2 ≤ base ∧ base ≤ 36
  swap
  · have hinv : isValidNumberBase base = false := by
      unfold isValidNumberBase
      simp only [Bool.and_eq_false_iff, decide_eq_false_iff_not]
      omega
    have : parseIntRaw t.upcast base (splitSign r.rest).1 r1 = .err r1 .invalidArgument := by
      unfold parseIntRaw
      rw [hinv]
      rfl
    rw [this, if_pos hb]
  rw [if_neg (by simpa using hb)]
  have hcast : base = (base.toNat : Int) := by omega
  have key := (raw_exact t.upcast base.toNat (by omega) (by omega) (splitSign r.rest).1 hf1.2).front hf1
  rw [← hcast] at key
  cases hd : readDigits t.upcast base.toNat (splitSign r.rest).1 (splitSign r.rest).2 with
  | undefined => rw [hd] at key; simp only [NumEnd.Is] at key; rw [key]
  | error e => rw [hd] at key; obtain ⟨r', hr'⟩ := key; rw [hr']
  | value rest v =>
    rw [hd] at key
    obtain ⟨r', hr', hf⟩ := key
    rw [hr']
    have hv := readDigits_holds hd
    simp only
    by_cases hup : t.upcast = t
    · rw [hup] at hv
      rw [if_pos hup, if_pos hv, hf.eq]
    · rw [if_neg hup]
      by_cases hh : t.Holds v
      · rw [if_pos hh, if_neg (by unfold IntTy.Holds at hh; omega), hf.eq]
      · rw [if_neg hh, if_pos (by unfold IntTy.Holds at hh; omega)]

/-- A number with a `;` in base 16; numbers that are too great; bases. -/
example : parseReference i32 16 "-1;z".toList = .value "z".toList (-27) ∧ parseReference i8 10 "+128".toList = .error .outOfRange ∧
    parseReference i8 10 "2147483648".toList = .undefined ∧ parseReference u32 10 "9999999999".toList = .value [] 1410065407 ∧
    parseReference u32 10 "4294967296".toList = .error .outOfRange ∧ parseReference u32 10 "-x".toList = .error .invalidData ∧
    parseReference u32 37 "1".toList = .error .invalidArgument ∧ parseReference u32 37 [] = .error .eof := by
  decide +kernel

/-! ### Scan strings -/

/-- C79, `scan_from`: the scan strings that are accepted are those of C59; for every input, what is read, where the input is
left, what the variables are afterwards and which error is returned is what the interpreter says, and the behaviour is
undefined exactly where it says so.  The input may be a reader that is somewhere in a text. -/
theorem C79_scan_from (str : Str) (tys : List ScanTy) (io : ScanIO) (hn : tys.length ≤ 128)
    (hpos : io.inp.pos ≤ io.inp.src.length) (hv : tys.length = io.vars.length) :
    (∀ (t : ScanTemplate) (tail : Str), str = t.text ++ tail → t.NumbersPass → t.reduced.Suits tys →
      (tail = [] ∨ Begins255 tail ∧ t.format.Explicit) →
      scanFrom str tys io = (scanReference tys t.last tail 0 t.reduced.segs io.inp.rest io.vars).run io.inp.src) ∧
    ((¬ ∃ (t : ScanTemplate) (tail : Str), str = t.text ++ tail ∧ t.NumbersPass ∧ t.reduced.Suits tys ∧
      (tail = [] ∨ Begins255 tail ∧ t.format.Explicit)) → scanFrom str tys io = .err io .invalidFormat) := by
  refine ⟨fun t tail h hp hs htail => ?_, fun hno => (C59_accepted_strings str tys hn).2 hno io⟩
  rw [h, wide_eq_reduced (wide_iff.2 ⟨hp, hs⟩) htail]
  exact segs_exact tys t.last (stop_of_tail htail) t.reduced.segs 0 io io.inp.rest (suits_segsOk hs) ⟨hpos, rfl⟩ (by omega)

/-- The scan string `"x={:#},{:2}!"`. -/
def numberAndString : ScanTemplate :=
  ⟨[("x=".toList, ⟨[], some { alt := true }⟩), ([','], ⟨[], some { width := ['2'] }⟩)], ['!']⟩

theorem numberAndString_suits : numberAndString.Suits [.int u8, .string] where
  number := by simp
  digits := by simp [numberAndString]
  grammar := by
    intro s hs
    simp only [numberAndString, List.mem_cons, List.not_mem_nil, or_false] at hs
    rcases hs with rfl | rfl
    · exact ⟨⟨by simp [ScanHole.sp], by simp [ScanHole.sp]⟩, by simp [ScanHole.sp, ScanSpec.Fits, ScanSpec.size]⟩
    · refine ⟨⟨by simp [ScanHole.sp], by simp [ScanHole.sp]⟩, ?_⟩
      intro w hw
      have : w = 2 := by
        have h2 : numeralValue 10 ['2'] = 2 := by decide +kernel
        simp [ScanHole.sp, ScanSpec.size, h2] at hw
        omega
      omega
  mode := by
    left
    intro f hf
    simp [FormatText.fields, ScanTemplate.format, numberAndString] at hf
    rcases hf with rfl | rfl <;> rfl
  arguments := by
    intro k
    have : numberAndString.format.arguments = [0, 1] := by decide +kernel
    rw [this]
    simp
    omega
  allowed := by
    have : numberAndString.format.arguments = [0, 1] := by decide +kernel
    rw [this]
    simp [numberAndString, ScanTy.Allows, ScanHole.sp]

example : numberAndString.text = "x={:#},{:2}!".toList ∧ numberAndString.NumbersPass ∧
    numberAndString.reduced.Suits [.int u8, .string] ∧
    scanReference [.int u8, .string] ['!'] [] 0 numberAndString.reduced.segs "x=0x1f,ab!cd".toList [.int 0, .str []] =
      .done "cd".toList [.int 31, .str "ab".toList] :=
  ⟨by decide +kernel, (wide_iff.1 (suits_wide numberAndString_suits)).1, (wide_iff.1 (suits_wide numberAndString_suits)).2,
    by decide +kernel⟩

/-- C79, `scan`: as `scan_from`, and everything must have been read. -/
theorem C79_scan (input str : Str) (tys : List ScanTy) (vars : List ScanVal) (hn : tys.length ≤ 128)
    (hv : tys.length = vars.length) (t : ScanTemplate) (tail : Str) (h : str = t.text ++ tail) (hp : t.NumbersPass)
    (hs : t.reduced.Suits tys) (htail : tail = [] ∨ Begins255 tail ∧ t.format.Explicit) :
    scanStr input str tys vars =
      match scanReference tys t.last tail 0 t.reduced.segs input vars with
      | .done [] vars' => .ok vars' ()
      | .done _ vars' => .err vars' .invalidFormat
      | .stop _ e vars' => .err vars' e
      | .undefined => .bad .ub := by
  have key := (C79_scan_from str tys ⟨ofStr input, vars⟩ hn (by simp [ofStr]) hv).1 t tail h hp hs htail
  have hr : (ofStr input).rest = input := (at_ofStr input).2
  unfold scanStr
  rw [key]
  simp only [hr]
  cases he : scanReference tys t.last tail 0 t.reduced.segs input vars with
  | undefined => rfl
  | stop rest e vars' => rfl
  | done rest vars' =>
    have := (scanReference_suffix he).length_le
    simp only [ScanEnd.run, ofStr, Reader.eof]
    cases rest with
    | nil => simp
    | cons c rest =>
      simp only [List.length_cons] at this ⊢
      have hne : (input.length - (rest.length + 1) == input.length) = false := by
        simp only [beq_eq_false_iff_ne, ne_eq]
        omega
      simp only [hne, Bool.false_eq_true, if_false]

example : scanStr "x=0x1f,ab!".toList "x={:#},{:2}!".toList [.int u8, .string] [.int 0, .str []] =
      .ok [.int 31, .str "ab".toList] () ∧
    scanStr "x=0x1f,ab!c".toList "x={:#},{:2}!".toList [.int u8, .string] [.int 0, .str []] =
      .err [.int 31, .str "ab".toList] .invalidFormat ∧
    scanStr "x=0x1f,a".toList "x={:#},{:2}!".toList [.int u8, .string] [.int 0, .str []] =
      .err [.int 31, .str []] .eof := by
  have e : "x={:#},{:2}!".toList = numberAndString.text ++ [] := by decide +kernel
  have hw := wide_iff.1 (suits_wide numberAndString_suits)
  refine ⟨?_, ?_, ?_⟩ <;>
    rw [C79_scan _ _ _ _ (by simp) (by simp) numberAndString [] e hw.1 hw.2 (.inl rfl)] <;> decide +kernel

/-- C58, exactly: the behaviour is undefined exactly where the interpreter says so, that is (`readDigits`) where a signed
number is read that does not fit into 32 or 64 bit. -/
theorem C58_undefined_exactly (str : Str) (tys : List ScanTy) (io : ScanIO) (hn : tys.length ≤ 128)
    (hpos : io.inp.pos ≤ io.inp.src.length) (hv : tys.length = io.vars.length) :
    scanFrom str tys io = .bad .ub ↔ ∃ (t : ScanTemplate) (tail : Str), str = t.text ++ tail ∧ t.NumbersPass ∧
      t.reduced.Suits tys ∧ (tail = [] ∨ Begins255 tail ∧ t.format.Explicit) ∧
      scanReference tys t.last tail 0 t.reduced.segs io.inp.rest io.vars = .undefined := by
  obtain ⟨h1, h2⟩ := C79_scan_from str tys io hn hpos hv
  constructor
  · intro h
    by_cases ha : ∃ (t : ScanTemplate) (tail : Str), str = t.text ++ tail ∧ t.NumbersPass ∧ t.reduced.Suits tys ∧
      (tail = [] ∨ Begins255 tail ∧ t.format.Explicit)
    · obtain ⟨t, tail, a, b, c, d⟩ := ha
      refine ⟨t, tail, a, b, c, d, ?_⟩
      rw [h1 t tail a b c d] at h
      cases he : scanReference tys t.last tail 0 t.reduced.segs io.inp.rest io.vars with
      | undefined => rfl
      | done rest vars => rw [he] at h; cases h
      | stop rest e vars => rw [he] at h; cases h
    · rw [h2 ha] at h
      cases h
  · rintro ⟨t, tail, a, b, c, d, e⟩
    rw [h1 t tail a b c d, e]
    rfl

example : scanReference [.int u8, .int i8] [] [] 0 [([], ⟨[], none⟩), ([','], ⟨[], none⟩)] "1,2147483648".toList
    [.int 0, .int 0] = .undefined := by decide +kernel

/-! ### One field -/

/-- C79, one field and the text behind it. -/
theorem C79_single_field (ty : ScanTy) (sp : ScanSpec) (last : Str) (wf : sp.WellFormed) (fits : sp.Fits)
    (hal : ScanTy.Allows ty sp) (r : Reader) (old : ScanVal) (hpos : r.pos ≤ r.src.length) :
    scanFrom ("{:".toList ++ sp.text ++ "}".toList ++ escBraces last) [ty] ⟨r, [old]⟩ =
      match readField ty sp last false old r.rest with
      | .undefined => .bad .ub
      | .stop rest e v => .err ⟨⟨r.src, r.src.length - rest.length⟩, [v]⟩ e
      | .done rest v =>
        match matchPieces (textPieces [] last) rest with
        | .done rest' _ => .ok ⟨⟨r.src, r.src.length - rest'.length⟩, [v]⟩ ()
        | .stop rest' e _ => .err ⟨⟨r.src, r.src.length - rest'.length⟩, [v]⟩ e
        | .undefined => .bad .ub := by
  have hs := oneField_suits ty wf fits hal last
  rw [← oneField_text, scan_eq hs, segs_exact [ty] (oneField sp last).last stop_nil (oneField sp last).segs 0 ⟨r, [old]⟩ r.rest
    (suits_segsOk hs) ⟨hpos, rfl⟩ (by simp)]
  have e : scanReference [ty] (oneField sp last).last [] 0 (oneField sp last).segs r.rest [old] =
      match readField ty sp last false old r.rest with
      | .done rest v => scanReference [ty] last [] 1 [] rest [v]
      | .stop rest e v => .stop rest e [v]
      | .undefined => .undefined := by
    simp only [oneField, scanReference, textPieces, if_pos, matchPieces]
    have harg : Field.argument 0 (ScanHole.field ⟨[], some sp⟩) = 0 := rfl
    have hsp : ScanHole.sp ⟨[], some sp⟩ = sp := rfl
    have hf : following last [] = last := rfl
    simp only [harg, hsp, hf, List.getElem?_cons_zero, ne_eq, not_true_eq_false, or_self, decide_false, List.set_cons_zero]
    rfl
  rw [e]
  cases hf : readField ty sp last false old r.rest with
  | undefined => rfl
  | stop rest e v => rfl
  | done rest v =>
    simp only [scanReference]
    cases hm : matchPieces (textPieces [] last) rest <;> rfl

example : ({ alt := true, width := ['4'] } : ScanSpec).WellFormed ∧ ({ alt := true, width := ['4'] } : ScanSpec).Fits ∧
    ScanTy.Allows (.int u8) { alt := true, width := ['4'] } :=
  ⟨⟨by simp, by simp⟩, by simp [ScanSpec.Fits, ScanSpec.size]; decide, by simp [ScanTy.Allows]⟩

theorem scan_field (ty : ScanTy) (sp : ScanSpec) (wf : sp.WellFormed) (fits : sp.Fits) (hal : ScanTy.Allows ty sp) (r : Reader)
    (old : ScanVal) (hpos : r.pos ≤ r.src.length) :
    scanFrom ("{:".toList ++ sp.text ++ "}".toList) [ty] ⟨r, [old]⟩ =
      match readField ty sp [] false old r.rest with
      | .undefined => .bad .ub
      | .stop rest e v => .err ⟨⟨r.src, r.src.length - rest.length⟩, [v]⟩ e
      | .done rest v => .ok ⟨⟨r.src, r.src.length - rest.length⟩, [v]⟩ () := by
  have := C79_single_field ty sp [] wf fits hal r old hpos
  rw [show escBraces [] = [] from rfl, List.append_nil] at this
  rw [this]
  rfl

/-- C49, exactly: with a width, that many characters are taken and must be a number; nothing is read otherwise, but for
types narrower than 32 bit if the number does not fit.  If the characters are not all part of the number, the variable of a
type of 32 bit or more is changed although an error is returned. -/
theorem C49_width_exactly (ty : IntTy) (sp : ScanSpec) (w : Nat) (r : Reader) (old : ScanVal) (wf : sp.WellFormed)
    (fits : sp.Fits) (hal : ScanTy.Allows (.int ty) sp) (hw : sp.size = some w) (hpos : r.pos ≤ r.src.length) :
    scanFrom ("{:".toList ++ sp.text ++ "}".toList) [.int ty] ⟨r, [old]⟩ =
      if r.rest.length < w then .err ⟨r, [old]⟩ .eof
      else
        match fieldNumber ty.upcast sp (r.rest.take w) with
        | .undefined => .bad .ub
        | .error e => .err ⟨r, [old]⟩ e
        | .value rest v =>
          if rest ≠ [] then .err ⟨r, [if ty.upcast = ty then .int v else old]⟩ .invalidData
          else if ty.Holds v then .ok ⟨{ r with pos := r.pos + w }, [.int v]⟩ ()
          else .err ⟨{ r with pos := r.pos + w }, [old]⟩ .outOfRange := by
  have hlen : r.rest.length = r.src.length - r.pos := by simp [Reader.rest]
  have hr : (⟨r.src, r.src.length - r.rest.length⟩ : Reader) = r := by
    cases r
    simp only [Reader.mk.injEq, true_and] at *
    omega
  rw [scan_field _ sp wf fits hal r old hpos]
  simp only [readField, integerField, hw]
  by_cases hlt : r.rest.length < w
  · simp only [if_pos hlt, hr]
  · simp only [if_neg hlt]
    have hd : (⟨r.src, r.src.length - (r.rest.drop w).length⟩ : Reader) = { r with pos := r.pos + w } := by
      simp only [Reader.mk.injEq, true_and, List.length_drop]
      omega
    cases fieldNumber ty.upcast sp (r.rest.take w) with
    | undefined => rfl
    | error e => simp only [hr]
    | value rest v =>
      simp only
      by_cases h1 : rest ≠ []
      · simp only [if_pos h1, hr]
      · by_cases h2 : ty.Holds v
        · simp only [if_neg h1, if_pos h2, hd]
        · simp only [if_neg h1, if_neg h2, hd]

/-- C50, exactly: without a width, the number is computed with at least 32 bit and must then be representable; if it is
not, the variable is not changed, but the number has been read. -/
theorem C50_exactly (ty : IntTy) (sp : ScanSpec) (r : Reader) (old : ScanVal) (wf : sp.WellFormed) (fits : sp.Fits)
    (hal : ScanTy.Allows (.int ty) sp) (hw : sp.size = none) (hpos : r.pos ≤ r.src.length) :
    scanFrom ("{:".toList ++ sp.text ++ "}".toList) [.int ty] ⟨r, [old]⟩ =
      match fieldNumber ty.upcast sp r.rest with
      | .undefined => .bad .ub
      | .error e => .err ⟨r, [old]⟩ e
      | .value rest v =>
        if ty.Holds v then .ok ⟨⟨r.src, r.src.length - rest.length⟩, [.int v]⟩ ()
        else .err ⟨⟨r.src, r.src.length - rest.length⟩, [old]⟩ .outOfRange := by
  have hlen : r.rest.length = r.src.length - r.pos := by simp [Reader.rest]
  have hr : (⟨r.src, r.src.length - r.rest.length⟩ : Reader) = r := by
    cases r
    simp only [Reader.mk.injEq, true_and] at *
    omega
  rw [scan_field _ sp wf fits hal r old hpos]
  simp only [readField, integerField, hw]
  cases fieldNumber ty.upcast sp r.rest with
  | undefined => rfl
  | error e => simp only [hr]
  | value rest v =>
    simp only
    by_cases h2 : ty.Holds v
    · simp only [if_pos h2]
    · simp only [if_neg h2]

example : fieldNumber i32 {} "2147483648".toList = .undefined ∧ fieldNumber i32 {} "128,".toList = .value [','] 128 ∧
    ¬ i8.Holds 128 ∧ fieldNumber u32 { alt := true } "-0x1f".toList = .error .outOfRange := by
  refine ⟨by decide +kernel, by decide +kernel, by decide, by decide +kernel⟩

/-- C51, exactly: with `#` and no type, the base is detected by the mark. -/
theorem C51_exactly (ty : IntTy) (r : Reader) (old : ScanVal) (hpos : r.pos ≤ r.src.length) :
    scanFrom "{:#}".toList [.int ty] ⟨r, [old]⟩ =
      if r.rest = [] then .err ⟨r, [old]⟩ .eof
      else
        match anyMark (splitSign r.rest).2 with
        | .error e => .err ⟨r, [old]⟩ e
        | .ok (b, s) =>
          match readDigits ty.upcast b (splitSign r.rest).1 s with
          | .undefined => .bad .ub
          | .error e => .err ⟨r, [old]⟩ e
          | .value rest v =>
            if ty.Holds v then .ok ⟨⟨r.src, r.src.length - rest.length⟩, [.int v]⟩ ()
            else .err ⟨⟨r.src, r.src.length - rest.length⟩, [old]⟩ .outOfRange := by
  have e : "{:#}".toList = "{:".toList ++ (ScanSpec.mk true [] none).text ++ "}".toList := by decide
  rw [e, C50_exactly ty ⟨true, [], none⟩ r old ⟨by simp, by simp⟩ (by simp [ScanSpec.Fits, ScanSpec.size])
    (by simp [ScanTy.Allows]) rfl hpos]
  have hb : ∀ s, fieldBase ⟨true, [], none⟩ s = anyMark s := fun s => rfl
  unfold fieldNumber
  simp only [hb]
  by_cases h : r.rest = []
  · simp only [if_pos h]
  · simp only [if_neg h]
    cases anyMark (splitSign r.rest).2 with
    | error e => rfl
    | ok p => rfl

example : anyMark "0x1f,".toList = .ok (16, "1f,".toList) ∧ anyMark "0,".toList = .ok (8, [',']) ∧
    anyMark "0b-1".toList = .error .invalidData ∧ anyMark "0x".toList = .error .eof ∧ anyMark "12".toList = .ok (10, "12".toList) := by
  decide +kernel

/-- C52, exactly: where a string without width ends, for any text behind it. -/
theorem C52_exactly (last : Str) (r : Reader) (old : ScanVal) (hpos : r.pos ≤ r.src.length) :
    scanFrom ("{:}".toList ++ escBraces last) [.string] ⟨r, [old]⟩ =
      match stringField {} last false old r.rest with
      | .undefined => .bad .ub
      | .stop rest e v => .err ⟨⟨r.src, r.src.length - rest.length⟩, [v]⟩ e
      | .done rest v =>
        match matchPieces (textPieces [] last) rest with
        | .done rest' _ => .ok ⟨⟨r.src, r.src.length - rest'.length⟩, [v]⟩ ()
        | .stop rest' e _ => .err ⟨⟨r.src, r.src.length - rest'.length⟩, [v]⟩ e
        | .undefined => .bad .ub := by
  have e : "{:}".toList = "{:".toList ++ (ScanSpec.mk false [] none).text ++ "}".toList := by decide
  rw [e]
  exact C79_single_field .string ⟨false, [], none⟩ last ⟨by simp, by simp⟩ (by simp [ScanSpec.Fits, ScanSpec.size])
    (by simp [ScanTy.Allows]) r old hpos

example : stringField {} "ab{".toList false (.str []) "xab{".toList = .done "{".toList (.str "xab".toList) ∧
    stringField {} "{x".toList false (.str []) "{{x".toList = .stop "{{x".toList .invalidData (.str []) ∧
    stringField {} ", ".toList false (.str []) "a,b, c".toList = .done ", c".toList (.str "a,b".toList) := by
  decide +kernel

end Emio
