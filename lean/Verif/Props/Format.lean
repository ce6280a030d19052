import Verif.Props.Parser
/-
Properties C30 to C37 and C56: what arguments are rendered to, and the functions of the formatting API.
-/
namespace Emio
open Spec BufferImpl

/-! ### Which specifications are accepted (C28) -/

/-- A specification of the grammar is accepted for a type if and only if the type allows it. -/
theorem C28_allowed_specifications (ty : CoreTy) (t : SpecText) (wf : t.WellFormed) (fits : t.Fits) (r : Reader)
    (h : r.Inv) (tail : Str) (hr : r.rest = t.text ++ '}' :: tail) :
    (CoreTy.Allows ty t → ty.validate r = .ok { r with pos := r.pos + (t.text.length + 1) } ()) ∧
    (¬ CoreTy.Allows ty t → ∃ r', ty.validate r = .err r' .invalidFormat) := by
  have := C28_type_check ty t wf fits r h tail hr
  rw [this]
  constructor
  · intro ha
    rw [if_pos ((allows_iff ty wf).2 ha)]
  · intro ha
    rw [if_neg (fun hc => ha ((allows_iff ty wf).1 hc))]
    exact ⟨_, rfl⟩

example : CoreTy.Allows (.int u8) { type := 'x' } ∧ ¬ CoreTy.Allows (.int u8) { sign := '+' } ∧
    ¬ CoreTy.Allows .string { type := 'x' } := by
  simp [CoreTy.Allows, SpecText.ForInteger, SpecText.TextOnly, integerTypes, u8]

/-! ### C30, C32, C33 renderings -/

theorem render_single (a : CoreArg) (t : SpecText) (wf : t.WellFormed) (fits : t.Fits) (hal : CoreTy.Allows a.ty t)
    (ha : ValidArg a) (hd : ¬ Deviates a t.meaning) :
    formatStr (Template.single (some t)).text [a.farg] = .ok () (argText a t.meaning) :=
  (formats_single (hole_reads a ⟨[], some t⟩ (fun sp hsp => by
    obtain rfl := Option.some.inj hsp
    exact ⟨wf, fits⟩) hal ha hd)).str

theorem single_text (t : SpecText) : (Template.single (some t)).text = "{:".toList ++ t.text ++ "}".toList := by
  simp [Template.single, Template.text, Template.format, FormatText.text, escBraces, Field.text, Hole.field]

/-- A floating-point number, in its own terms. -/
theorem render_double (bits : Nat) (hb : bits < 2 ^ 64) (t : SpecText) (wf : t.WellFormed) (fits : t.Fits)
    (hal : CoreTy.Allows .double t) :
    formatStr ("{:".toList ++ t.text ++ "}".toList) [(CoreArg.double bits).farg] = .ok () (actualText t.meaning bits) := by
  rw [← single_text]
  have hc := (allows_iff .double wf).2 hal
  have hn := needs_any (.double bits) t.meaning (meaning_ok fits) hc
  have he := float_emits (meaning_ok fits) hc hb (k := 1421) (by decide) (hn.double bits rfl) (by decide)
  exact (formats_single (core_reads (.double bits) t wf fits hc he)).str

/-- C30: an integer of any type with any specification the type allows (`O` is no documented type, see C22) is formatted to
the text the specification prescribes. -/
theorem C30_integers (ty : IntTy) (n : Int) (hty : ty.Std) (hn : ty.Holds n) (t : SpecText) (wf : t.WellFormed)
    (fits : t.Fits) (hal : CoreTy.Allows (.int ty) t) (hO : t.type ≠ some 'O') :
    formatStr ("{:".toList ++ t.text ++ "}".toList) [(CoreArg.int ty n).farg] = .ok () (intText t.meaning n) := by
  rw [← single_text]
  refine render_single (.int ty n) t wf fits hal ⟨hty, hn⟩ ?_
  rintro (h | h | h)
  · exact hO ((meaning_type_some wf 'O' (by decide)).1 h.1)
  · exact h
  · exact h

example : formatStr "{:*^+#10x}".toList [(CoreArg.int i32 255).farg] = .ok () "**+0xff***".toList := by
  decide +kernel

example : SpecText.text { fill := '*', align := '^', sign := '+', alt := true, width := ['1', '0'], type := 'x' } =
    "*^+#10x".toList ∧
    CoreTy.Allows (.int i32) { fill := '*', align := '^', sign := '+', alt := true, width := ['1', '0'], type := 'x' } := by
  refine ⟨by decide +kernel, ?_⟩
  simp [CoreTy.Allows, SpecText.ForInteger, integerTypes, i32]

/-- C32: a string with any specification strings allow. -/
theorem C32_strings (str : Str) (hs : ∀ c ∈ str, c.toNat < 256) (hl : (quoted '"' str).length < 2 ^ 31) (t : SpecText)
    (wf : t.WellFormed) (fits : t.Fits) (hal : CoreTy.Allows .string t) :
    formatStr ("{:".toList ++ t.text ++ "}".toList) [(CoreArg.string str).farg] = .ok () (strText t.meaning str) := by
  rw [← single_text]
  refine render_single (.string str) t wf fits hal ⟨hs, hl⟩ ?_
  rintro (h | h | h)
  · exact h.2
  · exact h
  · exact h

/-- C32 in words: without width and without `?`, a precision p yields the first p characters, no precision all of
them. -/
theorem C32_precision (str : Str) (hs : ∀ c ∈ str, c.toNat < 256) (hl : (quoted '"' str).length < 2 ^ 31) (p : Str)
    (hp : p ≠ [] ∧ ∀ c ∈ p, c.isDigit) (hp31 : numeralValue 10 p < 2 ^ 31) :
    formatStr ("{:.".toList ++ p ++ "}".toList) [(CoreArg.string str).farg] = .ok () (str.take (numeralValue 10 p)) ∧
    formatStr "{}".toList [(CoreArg.string str).farg] = .ok () str := by
  constructor
  · have h := C32_strings str hs hl { prec := some p }
      ⟨by simp, by simp, by simp, by simp, by simp, by simpa using hp, by simp⟩
      ⟨by simp [SpecText.widthValue, numeralValue, denote], by simp [SpecText.precValue]; omega⟩
      (by simp [CoreTy.Allows, SpecText.TextOnly])
    have e : strText (SpecText.meaning { prec := some p }) str = str.take (numeralValue 10 p) := by
      simp [strText, SpecText.meaning, SpecText.precValue, SpecText.widthValue, padded, surround, fillCount, numeralValue,
        denote]
    rw [e] at h
    simpa [SpecText.text] using h
  · have := (formats_single (hole_reads (.string str) ⟨[], none⟩ (by simp)
      (by simp [CoreTy.Allows, SpecText.TextOnly, CoreArg.ty]) ⟨hs, hl⟩
      (by simp [Deviates, OctalO, LongDebugChar, FixedLosesZero]))).str
    have e : argText (.string str) (Hole.specs ⟨[], none⟩) = str := by
      simp [argText, strText, Hole.specs, SpecText.meaning, SpecText.precValue, SpecText.widthValue, padded, surround, fillCount,
        numeralValue, denote]
    rw [e] at this
    simpa [Template.single, Template.text, Template.format, FormatText.text, escBraces, Field.text, Hole.field] using this

example : formatStr "{:_>8.3}".toList [(CoreArg.string "abcdef".toList).farg] = .ok () "_____abc".toList := by
  decide +kernel

/-- C33: truth values. -/
theorem C33_bool_partial (b : Bool) (t : SpecText) (wf : t.WellFormed) (fits : t.Fits) (hal : CoreTy.Allows .bool t)
    (hO : t.type ≠ some 'O') :
    formatStr ("{:".toList ++ t.text ++ "}".toList) [(CoreArg.bool b).farg] = .ok () (boolText t.meaning b) := by
  rw [← single_text]
  refine render_single (.bool b) t wf fits hal trivial ?_
  rintro (h | h | h)
  · exact hO ((meaning_type_some wf 'O' (by decide)).1 h.1)
  · exact h
  · exact h

/-- C33: characters, but for the debug form of a character that needs an escape sequence (see C31). -/
theorem C33_char_partial (c : Char) (hc : c.toNat < 256) (t : SpecText) (wf : t.WellFormed) (fits : t.Fits)
    (hal : CoreTy.Allows .char t) (hO : t.type ≠ some 'O')
    (hq : t.type = some '?' → (quoted '\'' [c]).length = 3 ∨ t.widthValue ≤ 3) :
    formatStr ("{:".toList ++ t.text ++ "}".toList) [(CoreArg.char c).farg] = .ok () (charText t.meaning c) := by
  rw [← single_text]
  refine render_single (.char c) t wf fits hal hc ?_
  rintro (h | h | h)
  · exact hO ((meaning_type_some wf 'O' (by decide)).1 h.1)
  · obtain ⟨h1, h2, h3⟩ := h
    rcases hq ((meaning_type_some wf '?' (by decide)).1 h1) with h | h
    · exact h2 h
    · have : t.meaning.width = (t.widthValue : Int) := rfl
      omega
  · exact h

/-- C33: pointers. -/
theorem C33_pointer (addr : Nat) (ha : addr < 2 ^ 64) (t : SpecText) (wf : t.WellFormed) (fits : t.Fits)
    (hal : CoreTy.Allows .pointer t) :
    formatStr ("{:".toList ++ t.text ++ "}".toList) [(CoreArg.pointer addr).farg] = .ok () (ptrText t.meaning addr) := by
  rw [← single_text]
  refine render_single (.pointer addr) t wf fits hal ha ?_
  rintro (h | h | h)
  · exact h.2
  · exact h
  · exact h

example : formatStr "{:>6}{:#x}{:3}{:d}{:?}{}".toList (fargs [.bool true, .bool true, .char 'c', .char 'c', .char 'c',
    .pointer 48879]) = .ok () "  true0x1c  99'c'0xbeef".toList := by decide +kernel

/-! ### C31 the minimum width -/

/-- Alignment if none is given: numbers to the right, text (and infinities and NaN) to the left. -/
def defaultAlign (a : CoreArg) (type : Option Char) : Align :=
  match a with
  | .int _ _ => if type = some 'c' then .left else .right
  | .bool _ => if type = none ∨ type = some 's' ∨ type = some 'c' then .left else .right
  | .char _ => if type = none ∨ type = some 'c' ∨ type = some '?' then .left else .right
  | .double bits => if IsFinite bits then .right else .left
  | .pointer _ => .right
  | .string _ => .left

/-- The property: the text with width w is the text without width, `content`, and as many fill characters as are needed
to get to w, around it according to the alignment.  (With the flag `0` see the second part.) -/
def WidthIsMet (a : CoreArg) (t : SpecText) : Prop :=
  ∃ content text, formatStr ("{:".toList ++ ({ t with width := [], zero := false } : SpecText).text ++ "}".toList) [a.farg] =
      .ok () content ∧
    formatStr ("{:".toList ++ t.text ++ "}".toList) [a.farg] = .ok () text ∧
    text.length = max t.widthValue content.length ∧
    (t.meaning.zeroFlag = false →
      text = surround (if t.meaning.align = .none then defaultAlign a t.type else t.meaning.align) t.meaning.fill
        (t.widthValue - content.length) content)

/-- It does not hold for characters in debug form: `{:5?}` of a newline has 6 characters. -/
theorem C31_debug_char_violated : ¬ ∀ (a : CoreArg) (t : SpecText), ValidArg a → t.WellFormed → t.Fits →
    CoreTy.Allows a.ty t → t.type ≠ some 'O' → WidthIsMet a t := by
  intro h
  obtain ⟨content, text, h1, h2, h3, _⟩ := h (.char '\n') { width := ['5'], type := '?' } (by simp [ValidArg])
    ⟨by simp, by simp, by simp, by simp, by simp, by simp, by simp⟩ ⟨by decide +kernel, by decide +kernel⟩
    (by simp [CoreTy.Allows, SpecText.TextOnly, CoreArg.ty]) (by simp)
  have e1 : formatStr ("{:".toList ++ (SpecText.text { width := [], zero := false, type := some '?' }) ++ "}".toList)
      [(CoreArg.char '\n').farg] = .ok () "'\\n'".toList := by decide +kernel
  have e2 : formatStr ("{:".toList ++ (SpecText.text { width := ['5'], type := some '?' }) ++ "}".toList)
      [(CoreArg.char '\n').farg] = .ok () "'\\n'  ".toList := by decide +kernel
  rw [e1] at h1
  rw [e2] at h2
  cases h1
  cases h2
  revert h3
  decide +kernel

/-- The specification without width and zero flag. -/
def withoutWidth (s : Specs) : Specs :=
  { s with width := 0, zeroFlag := false, fill := if s.zeroFlag then ' ' else s.fill,
           align := if s.zeroFlag then .none else s.align }

theorem withoutWidth_meaning (t : SpecText) : ({ t with width := [], zero := false } : SpecText).meaning = withoutWidth t.meaning := by
  unfold SpecText.meaning withoutWidth
  simp only [SpecText.widthValue, numeralValue, denote]
  cases t.zero <;> cases t.align <;> simp [SpecText.precValue]

theorem surround_zero (al : Align) (fill : Char) (text : Str) : surround al fill 0 text = text := by
  cases al <;> simp [surround]

theorem surround_length {al : Align} (h : al ≠ .none) (fill : Char) (k : Nat) (text : Str) :
    (surround al fill k text).length = k + text.length := by
  cases al with
  | none => exact absurd rfl h
  | _ => simp [surround]; try omega

theorem padded_withoutWidth (d : Align) (s : Specs) (text : Str) (hz : s.width = 0) : padded d s text = text := by
  unfold padded fillCount
  rw [hz]
  simp [surround_zero]

theorem padded_length {d : Align} (hd : d ≠ .none) (s : Specs) (text : Str) :
    (padded d s text).length = max s.width.toNat text.length := by
  unfold padded
  have : (if s.align = .none then d else s.align) ≠ .none := by split <;> assumption
  rw [surround_length this]
  unfold fillCount
  omega

/-- `text` is `content` brought to the width. -/
def Widened (d : Align) (s : Specs) (content text : Str) : Prop :=
  text.length = max s.width.toNat content.length ∧
  (s.zeroFlag = false → text = surround (if s.align = .none then d else s.align) s.fill (s.width.toNat - content.length) content)

theorem padded_widened {d : Align} (hd : d ≠ .none) (s : Specs) (text : Str) :
    Widened d s (padded d (withoutWidth s) text) (padded d s text) := by
  rw [padded_withoutWidth d (withoutWidth s) text rfl]
  exact ⟨padded_length hd s text, fun _ => rfl⟩

theorem paddedNumber_widened (s : Specs) (front digits : Str) :
    Widened .right s (paddedNumber (withoutWidth s) front digits) (paddedNumber s front digits) := by
  have e : paddedNumber (withoutWidth s) front digits = front ++ digits := by
    unfold paddedNumber
    have : (withoutWidth s).zeroFlag = false := rfl
    rw [this, if_neg (by simp), padded_withoutWidth _ _ _ rfl]
  rw [e]
  unfold paddedNumber
  split
  · rename_i h
    refine ⟨?_, fun h' => by rw [h'] at h; cases h⟩
    unfold fillCount
    simp only [List.length_append, List.length_replicate]
    omega
  · exact ⟨padded_length (by decide) s _, fun _ => rfl⟩

theorem intText_widened (s : Specs) (n : Int) :
    Widened (if s.type = 'c' then .left else .right) s (intText (withoutWidth s) n) (intText s n) := by
  unfold intText
  have ht : (withoutWidth s).type = s.type := rfl
  have hs : signOf (withoutWidth s) = signOf s := rfl
  have hp : prefixOf (withoutWidth s) = prefixOf s := rfl
  rw [ht, hs, hp]
  split
  · rename_i h
    simpa using padded_widened (d := .left) (by decide) s _
  · exact paddedNumber_widened s _ _

theorem typeOf_meaning {t : SpecText} (wf : t.WellFormed) : (t.meaning.type = 'c' ↔ t.type = some 'c') ∧
    (t.meaning.type = 's' ↔ t.type = some 's') ∧ (t.meaning.type = '?' ↔ t.type = some '?') ∧
    (t.meaning.type = noChar ↔ t.type = none) :=
  ⟨meaning_type_some wf 'c' (by decide), meaning_type_some wf 's' (by decide), meaning_type_some wf '?' (by decide),
    meaning_type_none wf⟩

theorem finiteText_noWidth (s : Specs) (bits : Nat) : finiteText (withoutWidth s) bits = finiteText s bits := rfl

theorem floatText_widened (s : Specs) (bits : Nat) :
    Widened (if IsFinite bits then .right else .left) s (floatText (withoutWidth s) bits) (floatText s bits) := by
  unfold floatText
  by_cases hf : IsFinite bits
  · simp only [if_pos hf]
    exact paddedNumber_widened s _ _
  · simp only [if_neg hf]
    have e1 : signOf (withoutWidth s) (signBit bits) = signOf s (signBit bits) := rfl
    have e2 : nonFiniteText (withoutWidth s) bits = nonFiniteText s bits := rfl
    have e3 : (withoutWidth s).zeroFlag = false := rfl
    rw [e1, e2, e3, if_neg (by simp), padded_withoutWidth _ _ _ rfl]
    split
    · rename_i hz
      refine ⟨padded_length (s := { s with fill := ' ' }) (by decide) _, fun h => ?_⟩
      rw [h] at hz
      cases hz
    · exact ⟨padded_length (by decide) _ _, fun _ => rfl⟩

theorem actualText_widened (s : Specs) (bits : Nat) :
    Widened (if IsFinite bits then .right else .left) s (actualText (withoutWidth s) bits) (actualText s bits) := by
  have e : LosesZero (withoutWidth s) bits ↔ LosesZero s bits := Iff.rfl
  unfold actualText
  by_cases hl : LosesZero s bits
  · rw [if_pos (e.2 hl), if_pos hl, if_pos hl.2.1]
    exact paddedNumber_widened s _ _
  · rw [if_neg (fun h => hl (e.1 h)), if_neg hl]
    exact floatText_widened s bits

theorem argText_widened {a : CoreArg} {t : SpecText} (wf : t.WellFormed) :
    Widened (defaultAlign a t.type) t.meaning (argText a (withoutWidth t.meaning)) (argText a t.meaning) := by
  obtain ⟨hc, hs, hq, hn⟩ := typeOf_meaning wf
  have ht : (withoutWidth t.meaning).type = t.meaning.type := rfl
  cases a with
  | bool b =>
    simp only [argText]
    unfold boolText
    rw [ht]
    simp only [hn, hs, defaultAlign]
    by_cases h : t.type = none ∨ t.type = some 's'
    · rw [if_pos h, if_pos h, if_pos (by tauto)]
      exact padded_widened (d := .left) (by decide) _ _
    · rw [if_neg h, if_neg h]
      have := intText_widened t.meaning (if b then 1 else 0)
      simp only [hc] at this
      have e : (if t.type = none ∨ t.type = some 's' ∨ t.type = some 'c' then Align.left else .right) =
          if t.type = some 'c' then .left else .right := by
        by_cases hcc : t.type = some 'c'
        · simp [hcc]
        · rw [if_neg (by tauto), if_neg hcc]
      rw [e]
      exact this
  | char c =>
    simp only [argText]
    unfold charText
    rw [ht]
    simp only [hn, hc, hq, defaultAlign]
    by_cases h' : t.type = some '?'
    · rw [if_pos h', if_pos h', if_pos (by tauto)]
      exact padded_widened (d := .left) (by decide) _ _
    · rw [if_neg h', if_neg h']
      by_cases h : t.type = none ∨ t.type = some 'c'
      · rw [if_pos h, if_pos h, if_pos (by tauto)]
        exact padded_widened (d := .left) (by decide) _ _
      · rw [if_neg h, if_neg h, if_neg (by tauto)]
        have := intText_widened t.meaning c.toNat
        rw [if_neg (by rw [hc]; tauto)] at this
        exact this
  | int ty n =>
    have := intText_widened t.meaning n
    simp only [hc] at this
    exact this
  | double bits => exact floatText_widened _ _
  | pointer addr =>
    exact padded_widened (d := .right) (by decide) _ _
  | string str =>
    have hp : (withoutWidth t.meaning).precision = t.meaning.precision := rfl
    simp only [argText]
    unfold strText
    rw [ht, hp]
    split <;> exact padded_widened (d := .left) (by decide) _ _

/-- C31 holds for every argument, except for characters in debug form that need an escape sequence. -/
theorem C31_width_is_met_partial (a : CoreArg) (t : SpecText) (ha : ValidArg a) (wf : t.WellFormed) (fits : t.Fits)
    (hal : CoreTy.Allows a.ty t) (hO : t.type ≠ some 'O')
    (hq : ∀ c, a = .char c → t.type = some '?' → (quoted '\'' [c]).length = 3) : WidthIsMet a t := by
  have wf0 : ({ t with width := [], zero := false } : SpecText).WellFormed :=
    ⟨wf.fill, wf.align, wf.sign, by simp, by simp, wf.prec, wf.type⟩
  have fits0 : ({ t with width := [], zero := false } : SpecText).Fits := by
    refine ⟨?_, fits.2⟩
    simp [SpecText.widthValue, numeralValue, denote]
  have hal0 : CoreTy.Allows a.ty { t with width := [], zero := false } := by
    cases ha : a.ty <;> rw [ha] at hal <;>
      simp only [CoreTy.Allows, SpecText.ForInteger, SpecText.TextOnly, SpecText.precValue] at hal ⊢ <;> tauto
  by_cases hdbl : ∃ bits, a = .double bits
  · obtain ⟨bits, rfl⟩ := hdbl
    have hw := actualText_widened t.meaning bits
    refine ⟨actualText (withoutWidth t.meaning) bits, actualText t.meaning bits, ?_, ?_, hw.1, hw.2⟩
    · rw [← withoutWidth_meaning]
      exact render_double bits ha _ wf0 fits0 hal0
    · exact render_double bits ha t wf fits hal
  have hdev : ∀ w, ¬ Deviates a { t.meaning with width := w } ∧ ¬ Deviates a { withoutWidth t.meaning with width := w } := by
    intro w
    constructor <;>
    · rintro (h | h | h)
      · exact hO ((meaning_type_some wf 'O' (by decide)).1 h.1)
      · cases a with
        | char c => exact h.2.1 (hq c rfl ((meaning_type_some wf '?' (by decide)).1 h.1))
        | _ => exact h
      · cases a with
        | double bits => exact hdbl ⟨bits, rfl⟩
        | _ => exact h
  have hw := argText_widened (a := a) wf
  refine ⟨argText a (withoutWidth t.meaning), argText a t.meaning, ?_, ?_, hw.1, hw.2⟩
  · rw [← single_text, ← withoutWidth_meaning]
    refine render_single a _ wf0 fits0 hal0 ha ?_
    rw [withoutWidth_meaning]
    exact (hdev 0).2
  · rw [← single_text]
    exact render_single a t wf fits hal ha (hdev t.meaning.width).1

example : CoreTy.Allows (.int i32) { fill := '*', align := '^', width := ['7'], type := 'x' } ∧
    formatStr "{:*^7x}".toList [(CoreArg.int i32 (-171)).farg] = .ok () "**-ab**".toList ∧
    formatStr "{:*^x}".toList [(CoreArg.int i32 (-171)).farg] = .ok () "-ab".toList := by
  refine ⟨by simp [CoreTy.Allows, SpecText.ForInteger, integerTypes], by decide +kernel, by decide +kernel⟩

/-! ### C34 the output does not depend on the buffer -/

/-- No floating-point argument has more than 127 characters (without padding) under any of the specifications in the
format string.  The functions that do not format into memory of their caller or of `emio` assemble a floating-point
number in a cache of 128 characters. -/
def ShortFloats (str : Str) (args : List CoreArg) : Prop :=
  ∀ bits, .double bits ∈ args → IsFinite bits → ∀ t : SpecText, t.WellFormed → t.text ++ ['}'] <:+: str →
    t.Fits ∧ (CoreTy.Allows .double t → (finiteText t.meaning bits).length ≤ 127)

theorem shortFloats_of_none {str : Str} {args : List CoreArg} (h : ∀ a ∈ args, ∀ bits, a ≠ .double bits) :
    ShortFloats str args := fun bits hb => absurd rfl (h _ hb bits)

/-- Enough for that: no precision, no fixed notation and no width. -/
theorem shortFloats_plain {str : Str} (h : ∀ c ∈ str, c ≠ '.' ∧ c ≠ 'f' ∧ c ≠ 'F' ∧ c.isDigit = false)
    (args : List CoreArg) : ShortFloats str args := by
  intro bits _ hf t wf hin
  have hmem : ∀ c ∈ t.text, c ∈ str := fun c hc => hin.subset (by simp [hc])
  have hw : t.width = [] := by
    cases hw : t.width with
    | nil => rfl
    | cons c l =>
      have hc : c ∈ t.width := by rw [hw]; simp
      have := (h c (hmem c (by unfold SpecText.text; simp [hc]))).2.2.2
      rw [wf.width c hc] at this
      cases this
  have hp : t.prec = none := by
    cases hp : t.prec with
    | none => rfl
    | some p =>
      have := (h '.' (hmem '.' (by unfold SpecText.text; simp [hp]))).1
      exact absurd rfl this
  refine ⟨⟨by rw [SpecText.widthValue, hw]; decide, by rw [SpecText.precValue, hp]; decide⟩, fun _ => ?_⟩
  refine le_trans (finiteText_short ?_ ?_ hf) (by decide)
  · show t.precValue < 0
    rw [SpecText.precValue, hp]
    decide
  · have : ∀ c, t.type = some c → c ≠ 'f' ∧ c ≠ 'F' := fun c hc =>
      ⟨(h c (hmem c (by unfold SpecText.text; simp [hc]))).2.1, (h c (hmem c (by unfold SpecText.text; simp [hc]))).2.2.1⟩
    rintro (ht | ht)
    · exact (this _ ((meaning_type_some wf 'f' (by decide)).1 ht)).1 rfl
    · exact (this _ ((meaning_type_some wf 'F' (by decide)).1 ht)).2 rfl

example : ShortFloats "x: {:>} y: {:e}".toList [.double 0x7FEFFFFFFFFFFFFF, .double 1] :=
  shortFloats_plain (by decide) _

theorem fargs_sound_short {args : List CoreArg} (str : Str) (hv : ∀ a ∈ args, ValidArg a) (hs : ShortFloats str args) :
    ∀ a ∈ fargs args, a.Sound str 128 ('O' ∈ str) := by
  intro a ha
  obtain ⟨c, hc, rfl⟩ := List.mem_map.1 ha
  refine core_sound c str (hv c hc) fun r r' s hsrc hr h1 h2 => ⟨by decide, by decide, ?_⟩
  rintro bits rfl hf
  obtain ⟨t, tail, wf, hrest, _, hmean⟩ := specs_backward hr h1
  have hin : t.text ++ ['}'] <:+: str := by
    refine ⟨str.take r.pos, tail, ?_⟩
    have : str.drop r.pos = t.text ++ '}' :: tail := by rw [← hrest, ← hsrc]; rfl
    calc str.take r.pos ++ (t.text ++ ['}']) ++ tail = str.take r.pos ++ str.drop r.pos := by rw [this]; simp
      _ = str := List.take_append_drop _ _
  obtain ⟨fits, hlen⟩ := hs bits hc hf t wf hin
  rw [hmean fits] at h2 ⊢
  have := hlen ((allows_iff .double wf).1 h2)
  omega

/-- The property: when `format` succeeds, so does `formatted_size`, and it yields the number of characters. -/
def SizeIsSize : Prop :=
  ∀ (str : Str) (args : List CoreArg) (cache text : Str), (∀ a ∈ args, ValidArg a) → args.length ≤ 128 →
    cache.length = defaultCacheSize → formatStr str (fargs args) = .ok () text →
    formattedSize cache str (fargs args) = .ok () text.length

/-- It does not hold: `{:f}` of 1e300 has 308 characters, which `formatted_size` cannot take at once. -/
theorem C34_long_float_violated : ¬ SizeIsSize := by
  intro h
  have h1 : ∃ text, formatStr "{:f}".toList (fargs [.double 0x7E37E43C8800759C]) = .ok () text := by
    have hl : (formatStr "{:f}".toList (fargs [.double 0x7E37E43C8800759C])).val?.map List.length = some 308 := by
      decide +kernel
    cases hx : formatStr "{:f}".toList (fargs [.double 0x7E37E43C8800759C]) with
    | ok s t => exact ⟨t, rfl⟩
    | err s e => rw [hx] at hl; cases hl
    | bad b => rw [hx] at hl; cases hl
  obtain ⟨text, ht⟩ := h1
  have h2 := h _ _ (List.replicate 128 '-') text (by simp [ValidArg]) (by simp) rfl ht
  have h3 : (formattedSize (List.replicate 128 '-') "{:f}".toList (fargs [.double 0x7E37E43C8800759C])).err? = some .eof := by
    decide +kernel
  rw [h2] at h3
  cases h3

theorem accepted_of_str {str : Str} {args : List CoreArg} (hn : args.length ≤ 128) {text : Str}
    (h : formatStr str (fargs args) = .ok () text) : validateStr str (fargs args) = .ok () true := by
  obtain ⟨b, hb⟩ := C22_validation_total str args hn
  cases b with
  | true => exact hb
  | false =>
    rw [(C22_rejected_is_invalid_format str args hb).1] at h
    cases h

/-- What can be formatted is formatted without an error of the formatters. -/
theorem formats_of_ok {str : Str} {args : List FArg} {k : Nat} {E : Prop} (hs : ∀ a ∈ args, a.Sound str k E)
    (ht : ∀ a ∈ args, a.Tame) (hv : validateStr str args = .ok () true) {text : Str}
    (h : formatStr str args = .ok () text) : Formats str args text k := by
  obtain ⟨ops, h1, h2⟩ := formatTo_sound hs ht hv
  rcases h2 with h2 | ⟨_, e, _, h2⟩
  · have hf : Formats str args (render ops) k := ⟨ops, rfl, h1, h2⟩
    have := hf.str
    rw [h] at this
    cases this
    exact hf
  · exfalso
    obtain ⟨s0, u, h0, _⟩ := MemBuf.rep_new defaultCacheSize 0
    unfold formatStr at h
    rw [h0] at h
    simp only [h2] at h
    cases hx : execAll ops s0 with
    | ok s' u => rw [M.bind_ok hx] at h; cases h
    | err s' e => rw [M.bind_err hx] at h; cases h
    | bad b => rw [M.bind_bad hx] at h; cases h

theorem formats_of_str {str : Str} {args : List CoreArg} (hn : args.length ≤ 128) (hv : ∀ a ∈ args, ValidArg a)
    {text : Str} (h : formatStr str (fargs args) = .ok () text) : Formats str (fargs args) text 1421 :=
  formats_of_ok (fargs_sound str hv) (fargs_tame args) (accepted_of_str hn h) h

theorem formats_short {str : Str} {args : List CoreArg} (hn : args.length ≤ 128) (hv : ∀ a ∈ args, ValidArg a)
    (hs : ShortFloats str args) {text : Str} (h : formatStr str (fargs args) = .ok () text) :
    Formats str (fargs args) text 128 :=
  formats_of_ok (fargs_sound_short str hv hs) (fargs_tame args) (accepted_of_str hn h) h

/-- All the functions yield the same text; for `format_to` on a buffer see also C35, for `format_to_n` C36, for
`print` C37. -/
theorem C34_same_text_partial (str : Str) (args : List CoreArg) (hv : ∀ a ∈ args, ValidArg a)
    (cache : Str) (hc : cache.length = defaultCacheSize) (text : Str)
    (h : formatStr str (fargs args) = .ok () text) (hn : args.length ≤ 128) :
    (∀ mem p, text.length ≤ 2 ^ 64 - 1 → ∃ s', formatToPtr mem str (fargs args) p = .ok s' text.length ∧ s'.view = text) ∧
    (∀ n (s : MemBuf) (t : Str), MemReach n s t → ∃ s', formatTo str (fargs args) s = .ok s' () ∧ s'.view = t ++ text) ∧
    (ShortFloats str args → formattedSize cache str (fargs args) = .ok () text.length ∧
      formatToIter cache str (fargs args) = .ok text ()) := by
  have hf := formats_of_str hn hv h
  refine ⟨fun mem p hl => hf.ptr mem hl p, fun n s t hr => ?_, fun hs => ?_⟩
  · obtain ⟨s', h1, h2⟩ := hf.accepted (MemBuf.accepts n) trivial hr.rep trivial
    exact ⟨s', h1, h2.2.2.2.2.2.2.2⟩
  · have hf := formats_short hn hv hs h
    have hne : cache ≠ [] := by
      intro h0
      rw [h0] at hc
      cases hc
    have hk : 128 ≤ cache.length := by rw [hc]; decide
    exact ⟨hf.size cache hne hk, hf.iter cache hne hk⟩

example : formatStr "{:>5}".toList (fargs [.int i32 42]) = .ok () "   42".toList := by decide +kernel

/-! ### C35 format_to on a fixed-size buffer -/

/-- On a span buffer with any past: if the text fits behind what the buffer has, it is appended; otherwise the result is
end of file and the buffer has got a prefix of the text. -/
theorem C35_fixed_size_buffer (str : Str) (args : List CoreArg) (hn : args.length ≤ 128)
    (hv : ∀ a ∈ args, ValidArg a) (text : Str)
    (h : formatStr str (fargs args) = .ok () text) (mem : Str) (ops : List ClientOp) (s : SpanBuf) (t : Str)
    (hs : client spanReset ops (SpanBuf.new mem, []) = some (s, t)) :
    if t.length + text.length ≤ mem.length then ∃ s', formatTo str (fargs args) s = .ok s' () ∧ s'.view = t ++ text
    else ∃ s' p, formatTo str (fargs args) s = .err s' .eof ∧ p <+: text ∧ s'.view = t ++ p := by
  have hf := formats_of_str hn hv h
  have hr := span_reach hs
  split
  · rename_i hle
    obtain ⟨s', h1, h2⟩ := hf.accepted (SpanBuf.accepts mem.length) trivial hr hle
    exact ⟨s', h1, h2.2.2.2.2.2⟩
  · rename_i hgt
    have hw := hf.wrote (SpanBuf.lawful mem.length) hr
    cases hx : formatTo str (fargs args) s with
    | ok s' u =>
      rw [hx] at hw
      have hw' : SpanBuf.Rep mem.length s' (t ++ text) := hw
      have := SpanBuf.Rep.length hw'
      have := hw'.2.2.2.2.1
      simp at *
      omega
    | err s' e =>
      rw [hx] at hw
      obtain ⟨rfl, p, hp, hf'⟩ := hw
      exact ⟨s', p, rfl, hp, hf'.2.2.2.2.2⟩
    | bad b => rw [hx] at hw; exact hw.elim

example : (formatTo "ab{}cd".toList (fargs [.int i32 1234]) (SpanBuf.new "---------".toList)).state?.map (·.view) =
    some "ab1234cd".toList ∧
    (formatTo "ab{}cd".toList (fargs [.int i32 1234]) (SpanBuf.new "-----".toList)).err? = some .eof ∧
    (formatTo "ab{}cd".toList (fargs [.int i32 1234]) (SpanBuf.new "-----".toList)).state?.map (·.view) =
      some "ab".toList := by decide +kernel

/-! ### C36 format_to_n -/

/-- `format_to_n` into a buffer: a memory buffer with any past gets the first n characters, the result is the size of
the whole text; likewise a span buffer with room for n characters. -/
theorem C36_format_to_n_buffer_partial (str : Str) (args : List CoreArg) (hn : args.length ≤ 128)
    (hv : ∀ a ∈ args, ValidArg a) (hd : ShortFloats str args) (text : Str)
    (h : formatStr str (fargs args) = .ok () text) (cache : Str) (hc : cache.length = defaultCacheSize) (limit : Nat) :
    (∀ n (s : MemBuf) (t : Str), MemReach n s t →
      ∃ s', formatToN cache limit str (fargs args) s = .ok s' text.length ∧ s'.view = t ++ text.take limit) ∧
    (∀ (mem : Str) (ops : List ClientOp) (s : SpanBuf) (t : Str),
      client spanReset ops (SpanBuf.new mem, []) = some (s, t) → t.length + limit ≤ mem.length →
      ∃ s', formatToN cache limit str (fargs args) s = .ok s' text.length ∧ s'.view = t ++ text.take limit) := by
  have hf := formats_short hn hv hd h
  have hne : cache ≠ [] := by
    intro h0
    rw [h0] at hc
    cases hc
  have hk : 128 ≤ cache.length := by rw [hc]; decide
  constructor
  · intro n s t hr
    obtain ⟨s', h1, h2⟩ := hf.toN (MemBuf.lawful n) cache hne hk s t hr.rep limit ((MemBuf.accepts n).unsplit trivial)
      ((MemBuf.accepts n).takes trivial)
    exact ⟨s', h1, h2.2.2.2.2.2.2.2⟩
  · intro mem ops s t hs hroom
    obtain ⟨s', h1, h2⟩ := hf.toN (SpanBuf.lawful mem.length) cache hne hk s t (span_reach hs) limit
      (SpanBuf.unsplit _ _) ((SpanBuf.accepts mem.length).takes hroom)
    exact ⟨s', h1, h2.2.2.2.2.2⟩

/-- `format_to_n` through an output iterator: it gets the first n characters. -/
theorem C36_format_to_n_iterator_partial (str : Str) (args : List CoreArg) (hn : args.length ≤ 128)
    (hv : ∀ a ∈ args, ValidArg a) (hd : ShortFloats str args) (text : Str)
    (h : formatStr str (fargs args) = .ok () text) (cache : Str) (hc : cache.length = defaultCacheSize) (n : Int) :
    ∃ it, formatToNIter cache n str (fargs args) = .ok () it ∧ it.out = text.take n.toNat ∧ it.count = text.length := by
  have hne : cache ≠ [] := by
    intro h0
    rw [h0] at hc
    cases hc
  exact (formats_short hn hv hd h).toNIter cache hne (by rw [hc]; decide) n

/-- `format_to_n` to a pointer: the first n characters are put there, nothing else is touched, and the resulting pointer
is behind them. -/
theorem C36_format_to_n_pointer_partial (str : Str) (args : List CoreArg) (hn : args.length ≤ 128)
    (hv : ∀ a ∈ args, ValidArg a) (hd : ShortFloats str args) (text : Str)
    (h : formatStr str (fargs args) = .ok () text) (cache : Str) (hc : cache.length = defaultCacheSize) (n : Int)
    (mem : Str) (hm : min n.toNat text.length ≤ mem.length) :
    ∃ it, formatToNPtr cache mem n str (fargs args) = .ok () it ∧ it.count = text.length ∧
      it.pos = min n.toNat text.length ∧ it.mem = text.take n.toNat ++ mem.drop (min n.toNat text.length) := by
  have hne : cache ≠ [] := by
    intro h0
    rw [h0] at hc
    cases hc
  exact (formats_short hn hv hd h).toNPtr cache hne (by rw [hc]; decide) n mem hm

example : (formatToNPtr (List.replicate 128 '-') "-----".toList 3 "ab{}cd".toList (fargs [.int i32 1234])).val?.map
    (fun it => (it.mem, it.pos, it.count)) = some ("ab1--".toList, 3, 8) := by decide +kernel

/-! ### C37 println -/

/-- To a file that takes everything, `print` sends the text and `println` the text and a newline. -/
theorem C37_print_text (str : Str) (args : List CoreArg) (hn : args.length ≤ 128) (hv : ∀ a ∈ args, ValidArg a)
    (hd : ShortFloats str args) (text : Str) (h : formatStr str (fargs args) = .ok () text) (cache : Str)
    (hc : cache.length = defaultCacheSize) :
    vprint cache (some []) str (fargs args) = .ok text () ∧
    vprintln cache (some []) str (fargs args) = .ok (text ++ ['\n']) () := by
  have hf := formats_short hn hv hd h
  have hne : cache ≠ [] := by
    intro h0
    rw [h0] at hc
    cases hc
  have hk : 128 ≤ cache.length := by rw [hc]; decide
  exact ⟨hf.print cache hne hk, hf.println cache hne hk⟩

/-- There is no file: an error. -/
theorem C37_null_file (str : Str) (args : List FArg) (cache : Str) :
    vprint cache none str args = .err [] .invalidData ∧ vprintln cache none str args = .err [] .invalidData := ⟨rfl, rfl⟩

example : vprintln (List.replicate 128 '-') (some []) "{:>5}".toList (fargs [.int i32 42]) = .ok "   42\n".toList () := by
  decide +kernel

/-! ### C56 truncating iterator -/

/-- Through a truncating iterator with limit n, the wrapped output iterator gets the first n of the assigned characters,
and `count` is the number of all; a negative limit is like 0. -/
theorem C56_truncating_iterator (n : Int) (chars : Str) :
    ((TruncIt.new n).copy chars).out = chars.take n.toNat ∧ ((TruncIt.new n).copy chars).count = chars.length := by
  rw [TruncIt.copy_eq]
  simp [TruncIt.new]

/-- Over a pointer: the first n characters are stored, the pointer stops behind them, and nothing else is touched. -/
theorem C56_truncating_pointer (n : Int) (chars mem : Str) (hm : min n.toNat chars.length ≤ mem.length) :
    ∃ it, (TruncPtr.new mem n).copy chars = some it ∧ it.count = chars.length ∧ it.pos = min n.toNat chars.length ∧
      it.mem = chars.take n.toNat ++ mem.drop (min n.toNat chars.length) := by
  obtain ⟨it, g1, g2, g3, g4⟩ := TruncPtr.copy_eq chars (TruncPtr.new mem n) (by simp [TruncPtr.new])
    (by simpa [TruncPtr.new] using hm)
  exact ⟨it, g1, by simpa [TruncPtr.new] using g2, by simpa [TruncPtr.new] using g3, by simpa [TruncPtr.new] using g4⟩

example : ((TruncPtr.new "------".toList 2).copy "abcd".toList).map (fun it => (it.mem, it.pos, it.count)) =
    some ("ab----".toList, 2, 4) := by decide +kernel

end Emio
