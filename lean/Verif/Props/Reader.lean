import Verif.Lemmas.Reader
import Verif.Spec.Reader
/-
Properties C01-C07: the reader.
-/
namespace Emio
open Spec

/-! ## C01: parse_int returns the denoted number or out_of_range -/

/-- The full property C01 for the integer type `t`: on every input that starts (at the read position) with an optional
sign and a maximal run of digits, `parse_int` consumes sign and digits and returns the denoted number if it is
representable, and fails with `out_of_range` without moving otherwise.  (A minus sign before an unsigned number is out of
range.  For bases above 10 the text behind the number must not start with `:`..`@`, see C03.) -/
def ParseIntCorrect (t : IntTy) : Prop :=
  ∀ (b : Nat) (r : Reader) (sg : Sign) (ds tail : Str),
    2 ≤ b → b ≤ 36 → r.pos ≤ r.src.length → r.rest = sg.text ++ ds ++ tail → IsNumeral b ds → NoDigitNext b tail →
    (10 < b → ∀ c ∈ tail.head?, isColonToAt c = false) →
    Reader.parseInt t b r =
      if t.Holds (sg.apply (numeralValue b ds)) ∧ (t.signed = true ∨ sg ≠ .minus) then
        .ok { r with pos := r.pos + sg.text.length + ds.length } (sg.apply (numeralValue b ds))
      else .err r .outOfRange

/-- C01 holds without exception for the 8 and 16 bit unsigned types. -/
theorem C01_parse_int_narrow_unsigned (t : IntTy) (ht : t = u8 ∨ t = u16) : ParseIntCorrect t := by
  intro b r sg ds tail hb hb' hinv hr hnum htail hcol
  obtain ⟨c, cs, d, rfl, hd, hall, hval⟩ := isNumeral_cases hnum
  have hr' : r.rest = sg.text ++ c :: (cs ++ tail) := by simpa using hr
  rw [parseInt_run t b hb hb' r hinv sg c d (cs ++ tail) hr' (charToDigit_of_symbolValue hb' hd)]
  have hs : t.signed = false := by rcases ht with rfl | rfl <;> rfl
  have hup : t.upcast = u32 := by rcases ht with rfl | rfl <;> rfl
  have hne : u32 ≠ t := by rcases ht with rfl | rfl <;> decide
  obtain ⟨m, hm, hmax⟩ : ∃ m : Nat, 36 * m + 36 < 2 ^ u32.bits ∧ ∀ v : Int, t.Holds v ↔ 0 ≤ v ∧ v ≤ m := by
    rcases ht with rfl | rfl
    · exact ⟨255, by decide, fun v => by simp [IntTy.Holds, IntTy.min, IntTy.max]⟩
    · exact ⟨65535, by decide, fun v => by simp [IntTy.Holds, IntTy.min, IntTy.max]⟩
  rw [hup]
  by_cases hmin : sg = .minus
  · simp [hs, hmin]
  · have hmn : isMinus sg = false := by cases sg <;> simp_all [isMinus]
    rw [if_neg (by simp [hmin]), hmn]
    have happly : ∀ n : Nat, sg.apply n = (n : Int) := by intro n; cases sg <;> simp_all [Sign.apply]
    rw [happly]
    simp only [hs, Bool.false_eq_true, false_or, ne_eq, hmin, not_false_eq_true, and_true, hne]
    by_cases hfit : t.Holds (numeralValue b (c :: cs) : Int)
    · rw [if_pos hfit]
      have htail' : ∀ x ∈ tail.head?, charToDigit x b = none := by
        intro x hx
        rw [charToDigit_eq x b hb']
        · exact htail x hx
        · by_cases h10 : b ≤ 10
          · exact Or.inl h10
          · exact Or.inr (hcol (by omega) x hx)
      have h32 : u32.Holds (sgn false (cont b (0 * b + d) (cs.filterMap (symbolValue b)))) := by
        rw [← hval]
        have := (hmax _).1 hfit
        simp only [sgn, Bool.false_eq_true, if_false, IntTy.Holds, IntTy.min, IntTy.max]
        simp at hm ⊢
        omega
      have hloop := parseLoop_exact u32 b false hb hb' tail htail' cs (r.pos + sg.text.length + 1) 0 d hall h32
      rw [← hval] at hloop
      simp only [sgn, Bool.false_eq_true, if_false, Int.natCast_zero, Int.zero_mul] at hloop
      rw [hloop]
      simp only [if_pos hfit, List.length_cons]
      congr 2
      omega
    · rw [if_neg hfit]
      have hbig : m < cont b (0 * b + d) (cs.filterMap (symbolValue b)) := by
        rw [← hval]
        by_contra hcon
        exact hfit ((hmax _).2 ⟨by omega, by omega⟩)
      rcases parseLoop_narrow u32 b rfl hb hb' m hm tail cs (r.pos + sg.text.length + 1) 0 d hall (by omega)
        (symbolValue_lt hd) hbig with ⟨p, h⟩ | ⟨p, v, h, hv⟩
      · simp only [Int.natCast_zero, Int.zero_mul] at h
        rw [h]
      · simp only [Int.natCast_zero, Int.zero_mul] at h
        rw [h]
        simp only
        rw [if_neg]
        intro hh
        have := (hmax _).1 hh
        omega

example : Reader.parseInt u8 10 ⟨"x = +0255;".toList, 4⟩ = .ok ⟨"x = +0255;".toList, 9⟩ 255 := by decide +kernel
example : Reader.parseInt u16 16 ⟨"x = 1FFFF;".toList, 4⟩ = .err ⟨"x = 1FFFF;".toList, 4⟩ .outOfRange := by
  decide +kernel

/-- C01 for all types, numbers that fit: the value is the denoted one, sign and digits are consumed.
Missing: what happens to numbers that do not fit, see the next theorems. -/
theorem C01_parse_int_exact_partial (t : IntTy) (ht : t.Std) (b : Nat) (r : Reader) (sg : Sign) (ds tail : Str)
    (hb : 2 ≤ b) (hb' : b ≤ 36) (hinv : r.pos ≤ r.src.length) (hr : r.rest = sg.text ++ ds ++ tail)
    (hnum : IsNumeral b ds) (htail : NoDigitNext b tail)
    (hcol : 10 < b → ∀ c ∈ tail.head?, isColonToAt c = false)
    (hfit : t.Holds (sg.apply (numeralValue b ds))) (hs : t.signed = true ∨ sg ≠ .minus) :
    Reader.parseInt t b r =
      .ok { r with pos := r.pos + sg.text.length + ds.length } (sg.apply (numeralValue b ds)) := by
  obtain ⟨c, cs, d, rfl, hd, hall, hval⟩ := isNumeral_cases hnum
  have hr' : r.rest = sg.text ++ c :: (cs ++ tail) := by simpa using hr
  rw [parseInt_run t b hb hb' r hinv sg c d (cs ++ tail) hr' (charToDigit_of_symbolValue hb' hd)]
  have htail' : ∀ x ∈ tail.head?, charToDigit x b = none := by
    intro x hx
    rw [charToDigit_eq x b hb']
    · exact htail x hx
    · by_cases h10 : b ≤ 10
      · exact Or.inl h10
      · exact Or.inr (hcol (by omega) x hx)
  rw [if_neg (by rintro ⟨h1, h2⟩; rcases hs with h | h <;> simp_all)]
  have hfit' := hfit
  rw [← sgn_apply, hval] at hfit
  have hupfit : t.upcast.Holds (sgn (isMinus sg) (cont b (0 * b + d) (cs.filterMap (symbolValue b)))) := by
    revert hfit
    generalize sgn (isMinus sg) (cont b (0 * b + d) (cs.filterMap (symbolValue b))) = x
    obtain ⟨sgd, bits⟩ := t
    unfold IntTy.Std at ht
    simp only at ht
    rcases ht with rfl | rfl | rfl | rfl <;> cases sgd <;>
      simp [IntTy.Holds, IntTy.min, IntTy.max, IntTy.upcast] <;> omega
  have hloop := parseLoop_exact t.upcast b (isMinus sg) hb hb' tail htail' cs (r.pos + sg.text.length + 1) 0 d hall
    hupfit
  have h0 : sgn (isMinus sg) 0 = 0 := by cases isMinus sg <;> rfl
  rw [← hval, h0, Int.zero_mul, sgn_apply] at hloop
  rw [hloop]
  simp only [hfit', or_true, if_true, List.length_cons]
  congr 2
  omega

example : Reader.parseInt i64 10 (.ofStr "-9223372036854775808 ".toList) =
    .ok ⟨"-9223372036854775808 ".toList, 20⟩ (-9223372036854775808) := by decide +kernel

/-- C01, minus sign before an unsigned number: out of range (even for zero), and the position is kept. -/
theorem C01_parse_int_minus_unsigned (t : IntTy) (ht : t.signed = false) (b : Nat) (r : Reader) (ds tail : Str)
    (hb : 2 ≤ b) (hb' : b ≤ 36) (hinv : r.pos ≤ r.src.length) (hr : r.rest = Sign.minus.text ++ ds ++ tail)
    (hnum : IsNumeral b ds) : Reader.parseInt t b r = .err r .outOfRange := by
  obtain ⟨c, cs, d, rfl, hd, hall, hval⟩ := isNumeral_cases hnum
  have hr' : r.rest = Sign.minus.text ++ c :: (cs ++ tail) := by simpa using hr
  rw [parseInt_run t b hb hb' r hinv .minus c d (cs ++ tail) hr' (charToDigit_of_symbolValue hb' hd)]
  simp [ht]

example : Reader.parseInt u64 10 (.ofStr "-0".toList) = .err (.ofStr "-0".toList) .outOfRange := by decide +kernel

/-- C01 is violated by the 32 and 64 bit signed types: *every* number that does not fit is signed overflow. -/
theorem C01_parse_int_signed_overflow_is_ub (t : IntTy) (ht : t = i32 ∨ t = i64) (b : Nat) (r : Reader) (sg : Sign)
    (ds tail : Str) (hb : 2 ≤ b) (hb' : b ≤ 36) (hinv : r.pos ≤ r.src.length) (hr : r.rest = sg.text ++ ds ++ tail)
    (hnum : IsNumeral b ds) (hfit : ¬ t.Holds (sg.apply (numeralValue b ds))) :
    Reader.parseInt t b r = .bad .ub := by
  obtain ⟨c, cs, d, rfl, hd, hall, hval⟩ := isNumeral_cases hnum
  have hr' : r.rest = sg.text ++ c :: (cs ++ tail) := by simpa using hr
  rw [parseInt_run t b hb hb' r hinv sg c d (cs ++ tail) hr' (charToDigit_of_symbolValue hb' hd)]
  have hs : t.signed = true := by rcases ht with rfl | rfl <;> rfl
  have hup : t.upcast = t := by rcases ht with rfl | rfl <;> rfl
  rw [if_neg (by simp [hs]), hup]
  rw [← sgn_apply, hval] at hfit
  have := parseLoop_signed_overflow t b hs (isMinus sg) hb hb' tail cs (r.pos + sg.text.length + 1) 0 d hall hfit
  have h0 : sgn (isMinus sg) 0 = 0 := by cases isMinus sg <;> rfl
  rw [h0, Int.zero_mul] at this
  rw [this]

example : Reader.parseInt i32 10 (.ofStr "2147483648".toList) = .bad .ub := by decide +kernel

/-- C01 is violated by the 32 and 64 bit unsigned types: a number that does not fit may come out as another number. -/
theorem C01_parse_int_wide_violated : ¬ ParseIntCorrect u32 ∧ ¬ ParseIntCorrect u64 ∧
    ¬ ParseIntCorrect i32 ∧ ¬ ParseIntCorrect i64 ∧ ¬ ParseIntCorrect i8 ∧ ¬ ParseIntCorrect i16 := by
  have key : ∀ (t : IntTy) (s : Str), t.signed = true ∨ True → IsNumeral 10 s →
      ¬ t.Holds (numeralValue 10 s : Int) →
      Reader.parseInt t 10 (.ofStr s) ≠ .err (.ofStr s) .outOfRange → ¬ ParseIntCorrect t := by
    intro t s _ hn hf hne h
    have := h 10 (.ofStr s) .none s [] (by omega) (by omega) (by simp [Reader.ofStr])
      (by simp [Reader.ofStr, Reader.rest, Sign.text]) hn (by simp [NoDigitNext]) (by simp)
    rw [if_neg (by rintro ⟨h, _⟩; exact hf h)] at this
    exact hne this
  have hn : ∀ s : Str, s ≠ [] → (s.all fun c => (symbolValue 10 c).isSome) = true → IsNumeral 10 s := by
    intro s h1 h2
    exact ⟨h1, by simpa using h2⟩
  refine ⟨?_, ?_, ?_, ?_, ?_, ?_⟩
  · exact key u32 "9999999999".toList (Or.inr trivial) (hn _ (by decide +kernel) (by decide +kernel))
      (by decide +kernel) (by decide +kernel)
  · exact key u64 "27000000000000000000".toList (Or.inr trivial) (hn _ (by decide +kernel) (by decide +kernel))
      (by decide +kernel) (by decide +kernel)
  · exact key i32 "2147483648".toList (Or.inr trivial) (hn _ (by decide +kernel) (by decide +kernel))
      (by decide +kernel) (by decide +kernel)
  · exact key i64 "9223372036854775808".toList (Or.inr trivial) (hn _ (by decide +kernel) (by decide +kernel))
      (by decide +kernel) (by decide +kernel)
  · exact key i8 "2147483648".toList (Or.inr trivial) (hn _ (by decide +kernel) (by decide +kernel))
      (by decide +kernel) (by decide +kernel)
  · exact key i16 "2147483648".toList (Or.inr trivial) (hn _ (by decide +kernel) (by decide +kernel))
      (by decide +kernel) (by decide +kernel)

example : Reader.parseInt u32 10 (.ofStr "9999999999".toList) = .ok ⟨"9999999999".toList, 10⟩ 1410065407 := by
  decide +kernel

/-- C01, wide unsigned types: there is no undefined behaviour, and a number that exceeds the range only in its last
digit, by less than the number before that digit, is detected. -/
theorem C01_parse_int_wide_unsigned_partial (t : IntTy) (ht : t = u32 ∨ t = u64) (b : Nat) (r : Reader) (sg : Sign)
    (ds : Str) (c : Char) (tail : Str) (hb : 2 ≤ b) (hb' : b ≤ 36) (hinv : r.pos ≤ r.src.length)
    (hr : r.rest = sg.text ++ (ds ++ [c]) ++ tail) (hnum : IsNumeral b ds) (hc : (symbolValue b c).isSome)
    (hpre : numeralValue b ds < 2 ^ t.bits)
    (hlo : 2 ^ t.bits ≤ numeralValue b (ds ++ [c]))
    (hhi : numeralValue b (ds ++ [c]) < 2 ^ t.bits + numeralValue b ds) :
    Reader.parseInt t b r = .err r .outOfRange := by
  obtain ⟨c0, cs, d, rfl, hd, hall, hval⟩ := isNumeral_cases hnum
  obtain ⟨v, hv⟩ := Option.isSome_iff_exists.1 hc
  have hr' : r.rest = sg.text ++ c0 :: (cs ++ c :: tail) := by simpa using hr
  rw [parseInt_run t b hb hb' r hinv sg c0 d (cs ++ c :: tail) hr' (charToDigit_of_symbolValue hb' hd)]
  have hs : t.signed = false := by rcases ht with rfl | rfl <;> rfl
  have hup : t.upcast = t := by rcases ht with rfl | rfl <;> rfl
  by_cases hmin : sg = .minus
  · rw [if_pos ⟨hs, hmin⟩]
  · rw [if_neg (by simp [hmin]), hup]
    have hmn : isMinus sg = false := by cases sg <;> simp_all [isMinus]
    rw [hmn]
    have happ : numeralValue b (c0 :: cs ++ [c]) = numeralValue b (c0 :: cs) * b + v := by
      simp only [numeralValue, denote, List.filterMap_append, List.foldl_append]
      simp [hv]
    rw [happ] at hlo hhi
    rw [hval] at hpre hlo hhi
    obtain ⟨p, h⟩ := parseLoop_detect t b hs hb hb' c v hv tail cs (r.pos + sg.text.length + 1) 0 d hall hpre hlo hhi
    simp only [Int.natCast_zero, Int.zero_mul] at h
    rw [h]

example : Reader.parseInt u64 10 (.ofStr "18446744073709551616".toList) =
    .err (.ofStr "18446744073709551616".toList) .outOfRange := by decide +kernel

/-! ## C02: a failed parse_int does not move the read position -/

/-- C02, failure: the reader is exactly what it was. -/
theorem C02_failed_parse_int_keeps_position (t : IntTy) (base : Int) (r r' : Reader) (e : Err)
    (h : Reader.parseInt t base r = .err r' e) : r' = r := by
  unfold Reader.parseInt at h
  split at h
  · simp at h; exact h.1.symm
  · simp at h
  · split at h
    · simp at h
    · split at h
      · simp at h; exact h.1.symm
      · simp at h

example : Reader.parseInt i16 10 ⟨"a99999".toList, 1⟩ = .err ⟨"a99999".toList, 1⟩ .outOfRange := by decide +kernel

theorem charToDigit_isSome (c : Char) (b : Nat) (hb : b ≤ 36) : (charToDigit c b).isSome = digitLike b c := by
  unfold charToDigit charToDigitVal digitLike symbolValue isColonToAt
  generalize c.toNat = n
  simp only [Option.isSome_map]
  rw [Bool.eq_iff_iff]
  repeat' split
  all_goals simp [Option.filter]
  all_goals omega

/-- C02, success: exactly the optional sign and the maximal run of digit characters is consumed. -/
theorem C02_parse_int_consumes_sign_and_digits (t : IntTy) (base : Int) (r r' : Reader) (v : Int)
    (hinv : r.pos ≤ r.src.length) (h : Reader.parseInt t base r = .ok r' v) :
    ∃ (b : Nat) (sg : Sign) (ds tail : Str), base = b ∧ 2 ≤ b ∧ b ≤ 36 ∧ r.rest = sg.text ++ ds ++ tail ∧
      ds ≠ [] ∧ (∀ c ∈ ds, digitLike b c = true) ∧ (∀ c ∈ tail.head?, digitLike b c = false) ∧
      r' = { r with pos := r.pos + sg.text.length + ds.length } := by
  rcases parseInt_cases t base r hinv with ⟨e, he⟩ | ⟨b, sg, c, d, cs, rfl, hb, hb', hr, hc⟩
  · rw [he] at h; simp at h
  · rw [parseInt_run t b hb hb' r hinv sg c d cs hr hc] at h
    by_cases hu : t.signed = false ∧ sg = .minus
    · rw [if_pos hu] at h; simp at h
    · rw [if_neg hu] at h
      have hfun : (fun c => (charToDigit c b).isSome) = digitLike b := funext fun c => charToDigit_isSome c b hb'
      refine ⟨b, sg, c :: cs.takeWhile (digitLike b), cs.dropWhile (digitLike b), rfl, hb, hb', ?_, by simp, ?_, ?_, ?_⟩
      · rw [hr]; simp
      · intro x hx
        simp only [List.mem_cons] at hx
        rcases hx with rfl | hx
        · rw [← charToDigit_isSome x b hb', hc]; rfl
        · exact List.all_eq_true.1 (List.all_takeWhile (p := digitLike b) (l := cs)) x hx
      · intro x hx
        have := List.head?_dropWhile_not (digitLike b) cs
        rw [Option.mem_def] at hx
        rw [hx] at this
        simpa using this
      · split at h
        · rename_i p v' hl
          have hp := parseLoop_pos _ _ _ _ _ _ _ _ _ _ hl
          rw [hfun] at hp
          split at h
          · simp at h
            rw [← h.1, hp]
            simp only [List.length_cons]
            congr 1; omega
          · simp at h
        · simp at h
        · simp at h

example : Reader.parseInt i32 16 ⟨"(-7fz".toList, 1⟩ = .ok ⟨"(-7fz".toList, 4⟩ (-127) := by decide +kernel

/-! ## C03: only letters and decimal digits are numerals -/

/-- The full property C03: a single character parses as a number iff it is a numeral of the base, with its usual value.
(Sign characters aside.) -/
def OnlyNumerals : Prop :=
  ∀ (t : IntTy) (b : Nat) (c : Char), t.Std → 2 ≤ b → b ≤ 36 → c ≠ '+' → c ≠ '-' →
    Reader.parseInt t b (.ofStr [c]) = match symbolValue b c with
      | some d => .ok ⟨[c], 1⟩ d
      | none => .err ⟨[c], 0⟩ .invalidData

/-- C03 for all characters but `:`..`@`, and for all characters in bases up to 10. -/
theorem C03_only_numerals_partial (t : IntTy) (ht : t.Std) (b : Nat) (c : Char) (hb : 2 ≤ b) (hb' : b ≤ 36)
    (hp : c ≠ '+') (hm : c ≠ '-') (hcol : b ≤ 10 ∨ isColonToAt c = false) :
    Reader.parseInt t b (.ofStr [c]) = match symbolValue b c with
      | some d => .ok ⟨[c], 1⟩ d
      | none => .err ⟨[c], 0⟩ .invalidData := by
  cases hd : symbolValue b c with
  | none =>
    exact parseInt_no_digit t b hb hb' (.ofStr [c]) (by simp [Reader.Inv, Reader.ofStr]) .none c [] rfl
      (fun _ => ⟨hp, hm⟩) (by rw [charToDigit_eq c b hb' hcol, hd])
  | some d =>
    have hlt := symbolValue_lt hd
    have hv : numeralValue b [c] = d := by simp [numeralValue, denote, hd]
    have := C01_parse_int_exact_partial t ht b (.ofStr [c]) .none [c] [] hb hb' (by simp [Reader.ofStr]) rfl
      ⟨by simp, by simp [hd]⟩ (by simp [NoDigitNext]) (by simp)
      (by
        rw [hv]
        simp only [Sign.apply]
        obtain ⟨sgd, bits⟩ := t
        unfold IntTy.Std at ht
        simp only at ht
        rcases ht with rfl | rfl | rfl | rfl <;> cases sgd <;>
          simp [IntTy.Holds, IntTy.min, IntTy.max] <;> omega)
      (Or.inr (by simp))
    rw [this, hv]
    rfl

example : symbolValue 36 'z' = some 35 ∧ symbolValue 35 'z' = none := by decide

/-- C03 is violated: in bases above 10 the characters `:`..`@` are taken for digits. -/
theorem C03_only_numerals_violated : ¬ OnlyNumerals := by
  intro h
  have := h i32 16 ':' (by decide) (by omega) (by omega) (by decide) (by decide)
  revert this
  decide +kernel

/-- C03: exactly which characters end a number, whether `char` is a signed or an unsigned type (bytes only). -/
theorem C03_signedness_of_char_is_irrelevant (c : Char) (hc : c.toNat < 256) (b : Nat) (hb : b ≤ 36) :
    (charToDigitVal (signedCharVal c) b).map Int.toNat = charToDigit c b := by
  unfold charToDigit charToDigitVal signedCharVal
  generalize c.toNat = n at *
  simp only
  repeat' split
  all_goals simp
  all_goals omega

/-! ## C04: a reader never leaves its input -/

/-- The operations of a reader. -/
inductive ROp
  | pop (n : Nat) | unpop (n : Nat) | readRemaining | peek | readChar | readNChars (n : Nat)
  | parseInt (t : IntTy) (base : Int)
  | readUntilChar (c : Char) (o : Reader.UntilOpts) | readUntilStr (s : Str) (o : Reader.UntilOpts)
  | readUntilAnyOf (s : Str) (o : Reader.UntilOpts) | readUntilNoneOf (s : Str) (o : Reader.UntilOpts)
  | readUntilPred (p : Char → Bool) (o : Reader.UntilOpts)
  | readIfMatchChar (c : Char) | readIfMatchStr (s : Str)

/-- The reader after an operation, successful or not; `none` if the operation did not return. -/
def ROp.run : ROp → Reader → Option Reader
  | .pop n, r => some (r.pop n)
  | .unpop n, r => some (r.unpop n)
  | .readRemaining, r => (Reader.readRemaining r).state?
  | .peek, r => (Reader.peek r).state?
  | .readChar, r => (Reader.readChar r).state?
  | .readNChars n, r => (Reader.readNChars n r).state?
  | .parseInt t b, r => (Reader.parseInt t b r).state?
  | .readUntilChar c o, r => (Reader.readUntilChar c o r).state?
  | .readUntilStr s o, r => (Reader.readUntilStr s o r).state?
  | .readUntilAnyOf s o, r => (Reader.readUntilAnyOf s o r).state?
  | .readUntilNoneOf s o, r => (Reader.readUntilNoneOf s o r).state?
  | .readUntilPred p o, r => (Reader.readUntilPred p o r).state?
  | .readIfMatchChar c, r => (Reader.readIfMatchChar c r).state?
  | .readIfMatchStr s, r => (Reader.readIfMatchStr s r).state?

/-- A history of operations. -/
def ROp.runAll : List ROp → Reader → Option Reader
  | [], r => some r
  | op :: ops, r => (op.run r).bind (runAll ops)

/-- The operation is a `parse_int` of a signed type (which can overflow, see C01). -/
def ROp.isSignedParse : ROp → Bool
  | .parseInt t _ => t.signed
  | _ => false

theorem findIf_hyp (p : Char → Bool) (r : Reader) :
    ∀ i, Reader.findIf p r.rest = some i → i + 1 ≤ r.rest.length ∧ (r.rest ≠ [] → i < r.rest.length) := by
  intro i hi
  obtain ⟨⟨c, hc, _⟩, _⟩ := (findIf_some p r.rest i).1 hi
  have : i < r.rest.length := by
    by_contra hcon
    rw [List.drop_eq_nil_of_le (by omega)] at hc
    simp at hc
  omega

theorem findStr_hyp (d : Str) (r : Reader) :
    ∀ i, Reader.findStr d r.rest = some i → i + d.length ≤ r.rest.length ∧ (r.rest ≠ [] → i < r.rest.length) := by
  intro i hi
  obtain ⟨⟨hle, hpre⟩, hfirst⟩ := (findStr_some d r.rest i).1 hi
  have h1 := hpre.length_le
  simp only [List.length_drop] at h1
  refine ⟨by omega, fun hne => ?_⟩
  cases d with
  | nil =>
    cases i with
    | zero => exact List.length_pos_iff.2 hne
    | succ i => exact absurd (List.nil_prefix) (hfirst 0 (by omega))
  | cons a d => simp at h1; omega

theorem state_readUntilPos (p : Option Nat) (o : Reader.UntilOpts) (n : Nat) (r : Reader) (h : r.Inv)
    (hp : ∀ i, p = some i → i + n ≤ r.rest.length ∧ (r.rest ≠ [] → i < r.rest.length)) :
    ∃ r', (Reader.readUntilPos p o n r).state? = some r' ∧ r'.src = r.src ∧ r'.Inv := by
  rw [readUntilPos_eq p o n r h hp]
  have hl := r.rest_length
  unfold Reader.Inv at *
  split
  · exact ⟨_, rfl, rfl, h⟩
  · cases p with
    | none =>
      simp only
      split
      · exact ⟨_, rfl, rfl, h⟩
      · exact ⟨_, rfl, rfl, Nat.le_refl _⟩
    | some i =>
      have := (hp i rfl).1
      refine ⟨_, rfl, rfl, ?_⟩
      simp only
      split <;> omega

theorem ROp.run_inv (op : ROp) (r : Reader) (h : r.Inv) :
    (∃ r', op.run r = some r' ∧ r'.src = r.src ∧ r'.Inv) ∨ (op.run r = none ∧ op.isSignedParse = true) := by
  have hl := r.rest_length
  unfold Reader.Inv at *
  cases op with
  | pop n =>
    left; refine ⟨_, rfl, ?_⟩
    simp only [Reader.pop]; split <;> simp; omega
  | unpop n =>
    left; refine ⟨_, rfl, ?_⟩
    simp only [Reader.unpop]; split <;> simp; omega
  | readRemaining => left; exact ⟨_, rfl, rfl, Nat.le_refl _⟩
  | peek =>
    left
    simp only [run, Reader.peek_eq r h]
    cases r.rest <;> exact ⟨_, rfl, rfl, h⟩
  | readChar =>
    left
    simp only [run, Reader.readChar_eq r h]
    cases hr : r.rest with
    | nil => exact ⟨_, rfl, rfl, h⟩
    | cons c cs => exact ⟨_, rfl, rfl, (Reader.rest_cons hr).1⟩
  | readNChars n =>
    left
    simp only [run, Reader.readNChars]
    split
    · refine ⟨_, rfl, rfl, ?_⟩; simp only; omega
    · exact ⟨_, rfl, rfl, h⟩
  | parseInt t base =>
    simp only [run]
    cases hp : Reader.parseInt t base r with
    | ok r' v =>
      left
      obtain ⟨b, sg, ds, tail, _, _, _, hrest, _, _, _, hr'⟩ :=
        C02_parse_int_consumes_sign_and_digits t base r r' v h hp
      refine ⟨r', rfl, by rw [hr'], ?_⟩
      rw [hrest] at hl
      simp at hl
      rw [hr']; simp only
      have : ds ≠ [] := by assumption
      have := List.length_pos_iff.2 this
      omega
    | err r' e =>
      left
      have := C02_failed_parse_int_keeps_position t base r r' e hp
      subst this
      exact ⟨_, rfl, rfl, h⟩
    | bad b' =>
      right
      refine ⟨rfl, ?_⟩
      simp only [isSignedParse]
      by_contra hs
      have hs : t.signed = false := by simpa using hs
      rcases parseInt_cases t base r h with ⟨e, he⟩ | ⟨b, sg, c, d, cs, rfl, hb, hb', hr, hc⟩
      · rw [he] at hp; simp at hp
      · rw [parseInt_run t b hb hb' r h sg c d cs hr hc] at hp
        by_cases hmin : sg = .minus
        · rw [if_pos ⟨hs, hmin⟩] at hp; simp at hp
        · rw [if_neg (by simp [hmin])] at hp
          have hmn : isMinus sg = false := by cases sg <;> simp_all [isMinus]
          rw [hmn] at hp
          rcases parseLoop_unsigned t.upcast b hs cs (r.pos + sg.text.length + 1) 0 0 d with
            ⟨p, hl⟩ | ⟨p, v, hl, _⟩
          · rw [hl] at hp; simp at hp
          · rw [hl] at hp; simp only at hp; split at hp <;> simp at hp
  | readUntilChar c o => left; exact state_readUntilPos _ o 1 r h (findIf_hyp _ r)
  | readUntilStr s o => left; exact state_readUntilPos _ o s.length r h (findStr_hyp s r)
  | readUntilAnyOf s o => left; exact state_readUntilPos _ o 1 r h (findIf_hyp _ r)
  | readUntilNoneOf s o => left; exact state_readUntilPos _ o 1 r h (findIf_hyp _ r)
  | readUntilPred p o => left; exact state_readUntilPos _ o 1 r h (findIf_hyp _ r)
  | readIfMatchChar c =>
    left
    simp only [run, Reader.readIfMatchChar]
    by_cases he : r.pos ≠ r.src.length
    · rw [if_pos he]
      have hlt : r.pos < r.src.length := by omega
      rw [List.getElem?_eq_getElem hlt]
      simp only
      split
      · exact ⟨_, rfl, rfl, hlt⟩
      · exact ⟨_, rfl, rfl, h⟩
    · rw [if_neg he]; exact ⟨_, rfl, rfl, h⟩
  | readIfMatchStr s =>
    left
    simp only [run, Reader.readIfMatchStr]
    split
    · exact ⟨_, rfl, rfl, h⟩
    · split
      · refine ⟨_, rfl, rfl, ?_⟩; simp only; omega
      · exact ⟨_, rfl, rfl, h⟩

/-- C04: after any history of operations on a reader over `s`, whatever they returned, the reader still views `s`, its
position is inside `s`, the remaining text is the suffix of `s` from there, and the counts add up. -/
theorem C04_reader_stays_in_input (s : Str) (ops : List ROp) (r : Reader)
    (h : ROp.runAll ops (.ofStr s) = some r) :
    r.src = s ∧ r.pos ≤ s.length ∧ s.take r.pos ++ r.rest = s ∧ r.pos + r.cntRemaining = s.length ∧
      (r.eof = true ↔ r.rest = []) := by
  have key : ∀ (ops : List ROp) (r0 r : Reader), r0.Inv → ROp.runAll ops r0 = some r → r.src = r0.src ∧ r.Inv := by
    intro ops
    induction ops with
    | nil => intro r0 r h0 h; simp [ROp.runAll] at h; subst h; exact ⟨rfl, h0⟩
    | cons op ops ih =>
      intro r0 r h0 h
      rcases op.run_inv r0 h0 with ⟨r', hr', hsrc, hinv⟩ | ⟨hn, _⟩
      · simp only [ROp.runAll, hr', Option.bind_some] at h
        obtain ⟨h1, h2⟩ := ih r' r hinv h
        exact ⟨h1.trans hsrc, h2⟩
      · simp [ROp.runAll, hn] at h
  obtain ⟨h1, h2⟩ := key ops _ r (by simp [Reader.Inv, Reader.ofStr]) h
  have h1 : r.src = s := h1
  subst h1
  unfold Reader.Inv at h2
  refine ⟨rfl, h2, ?_, ?_, ?_⟩
  · simp [Reader.rest]
  · unfold Reader.cntRemaining; omega
  · have hl := r.rest_length
    rw [List.eq_nil_iff_length_eq_zero, hl, Reader.eof, beq_iff_eq]
    omega

/-- C04: only a `parse_int` of a signed type can fail to return. -/
theorem C04_only_signed_parse_int_is_undefined (s : Str) (ops : List ROp)
    (h : ROp.runAll ops (.ofStr s) = none) : ∃ op ∈ ops, op.isSignedParse = true := by
  have key : ∀ (ops : List ROp) (r0 : Reader), r0.Inv → ROp.runAll ops r0 = none →
      ∃ op ∈ ops, op.isSignedParse = true := by
    intro ops
    induction ops with
    | nil => intro r0 h0 h; simp [ROp.runAll] at h
    | cons op ops ih =>
      intro r0 h0 h
      rcases op.run_inv r0 h0 with ⟨r', hr', hsrc, hinv⟩ | ⟨_, hs⟩
      · simp only [ROp.runAll, hr', Option.bind_some] at h
        obtain ⟨op', h1, h2⟩ := ih r' hinv h
        exact ⟨op', by simp [h1], h2⟩
      · exact ⟨op, by simp, hs⟩
  exact key ops _ (by simp [Reader.Inv, Reader.ofStr]) h

example : ROp.runAll [.readUntilChar ',' {}, .parseInt i32 10, .pop 100, .unpop 3, .readNChars 7, .peek]
    (.ofStr "abc,-12,xyz".toList) = some ⟨"abc,-12,xyz".toList, 8⟩ := by decide +kernel

/-! ## C05: read_until stops at the first match -/

/-- What `read_until…` returns for a match at offset `i` of the remaining text, of length `n`. -/
def UntilFound (o : Reader.UntilOpts) (r : Reader) (i n : Nat) : Run Reader Str :=
  .ok { r with pos := r.pos + i + (if o.keepDelimiter then 0 else n) }
    (r.rest.take (i + (if o.includeDelimiter then n else 0)))

/-- What `read_until…` returns without a match. -/
def UntilMissing (o : Reader.UntilOpts) (r : Reader) : Run Reader Str :=
  if r.rest = [] then .err r .eof
  else if o.ignoreEof then .err r .invalidData
  else .ok { r with pos := r.src.length } r.rest

/-- C05 for a predicate. -/
theorem C05_read_until_predicate (p : Char → Bool) (o : Reader.UntilOpts) (r : Reader)
    (hinv : r.pos ≤ r.src.length) :
    (∀ i, FirstAt (StartsWithChar p) r.rest i → Reader.readUntilPred p o r = UntilFound o r i 1) ∧
    ((∀ i, ¬ FirstAt (StartsWithChar p) r.rest i) → Reader.readUntilPred p o r = UntilMissing o r) := by
  have hsw : ∀ s : Str, StartsWithChar p s ↔ ∃ c, s.head? = some c ∧ p c = true := by
    intro s; unfold StartsWithChar
    cases s with
    | nil => simp
    | cons c cs =>
      constructor
      · rintro ⟨c', cs', h, hp⟩; simp at h; exact ⟨c, rfl, h.1 ▸ hp⟩
      · rintro ⟨c', h, hp⟩; simp at h; exact ⟨c, cs, rfl, h ▸ hp⟩
  have hfa : ∀ i, Reader.findIf p r.rest = some i ↔ FirstAt (StartsWithChar p) r.rest i := by
    intro i
    rw [findIf_some]
    constructor
    · rintro ⟨h1, h2⟩
      refine ⟨?_, (hsw _).2 h1, fun j hj => ?_⟩
      · obtain ⟨c, hc, _⟩ := h1
        by_contra hcon
        rw [List.drop_eq_nil_of_le (by omega)] at hc; simp at hc
      · rw [hsw]; rintro ⟨c, hc, hp⟩; rw [h2 j hj c hc] at hp; simp at hp
    · rintro ⟨_, h1, h2⟩
      refine ⟨(hsw _).1 h1, fun j hj c hc => ?_⟩
      have := h2 j hj
      rw [hsw] at this
      by_contra hp
      exact this ⟨c, hc, by simpa using hp⟩
  constructor
  · intro i hi
    have hi' := (hfa i).2 hi
    have hne : r.rest ≠ [] := by
      rintro h0
      rw [h0] at hi'
      simp [Reader.findIf] at hi'
    unfold Reader.readUntilPred
    rw [readUntilPos_eq _ o 1 r hinv (findIf_hyp p r), if_neg hne, hi']
    rfl
  · intro hno
    have : Reader.findIf p r.rest = none := by
      cases hf : Reader.findIf p r.rest with
      | none => rfl
      | some i => exact absurd ((hfa i).1 hf) (hno i)
    unfold Reader.readUntilPred UntilMissing
    rw [readUntilPos_eq _ o 1 r hinv (findIf_hyp p r), this]

/-- C05 for a character, a set of characters and the complement of a set: they are the predicate version. -/
theorem C05_read_until_char (d : Char) (o : Reader.UntilOpts) (r : Reader) :
    Reader.readUntilChar d o r = Reader.readUntilPred (fun c => c == d) o r := rfl
theorem C05_read_until_any_of (g : Str) (o : Reader.UntilOpts) (r : Reader) :
    Reader.readUntilAnyOf g o r = Reader.readUntilPred (fun c => decide (c ∈ g)) o r := by
  unfold Reader.readUntilAnyOf Reader.readUntilPred
  congr 2; funext c; simp
theorem C05_read_until_none_of (g : Str) (o : Reader.UntilOpts) (r : Reader) :
    Reader.readUntilNoneOf g o r = Reader.readUntilPred (fun c => decide (c ∉ g)) o r := by
  unfold Reader.readUntilNoneOf Reader.readUntilPred
  congr 2; funext c; simp

/-- C05 for a delimiter string. -/
theorem C05_read_until_str (d : Str) (o : Reader.UntilOpts) (r : Reader) (hinv : r.pos ≤ r.src.length)
    (hne : r.rest ≠ []) :
    (∀ i, FirstAt (fun s => d <+: s) r.rest i → Reader.readUntilStr d o r = UntilFound o r i d.length) ∧
    ((∀ i, ¬ FirstAt (fun s => d <+: s) r.rest i) → Reader.readUntilStr d o r = UntilMissing o r) := by
  have hfa : ∀ i, Reader.findStr d r.rest = some i ↔ FirstAt (fun s => d <+: s) r.rest i := by
    intro i
    rw [findStr_some]
    exact ⟨fun ⟨⟨a, b⟩, c⟩ => ⟨a, b, c⟩, fun ⟨a, b, c⟩ => ⟨⟨a, b⟩, c⟩⟩
  unfold Reader.readUntilStr
  rw [readUntilPos_eq _ o d.length r hinv (findStr_hyp d r)]
  constructor
  · intro i hi
    rw [if_neg hne, (hfa i).2 hi]; rfl
  · intro hno
    have : Reader.findStr d r.rest = none := by
      cases hf : Reader.findStr d r.rest with
      | none => rfl
      | some i => exact absurd ((hfa i).1 hf) (hno i)
    rw [this]; rfl

/-- C05: at the end of the input every variant reports eof. -/
theorem C05_read_until_eof (o : Reader.UntilOpts) (r : Reader) (hinv : r.pos ≤ r.src.length) (he : r.rest = []) :
    (∀ d, Reader.readUntilStr d o r = .err r .eof) ∧ (∀ p, Reader.readUntilPred p o r = .err r .eof) := by
  constructor
  · intro d
    unfold Reader.readUntilStr
    rw [readUntilPos_eq _ o d.length r hinv (findStr_hyp d r), if_pos he]
  · intro p
    unfold Reader.readUntilPred
    rw [readUntilPos_eq _ o 1 r hinv (findIf_hyp p r), if_pos he]

example : Reader.readUntilStr "ab".toList { keepDelimiter := true, includeDelimiter := true }
    ⟨"--aab-ab".toList, 1⟩ = .ok ⟨"--aab-ab".toList, 3⟩ "-aab".toList := by decide +kernel
example : Reader.readUntilNoneOf "ab".toList { ignoreEof := true } ⟨"--aabab".toList, 2⟩ =
    .err ⟨"--aabab".toList, 2⟩ .invalidData := by decide +kernel

/-! ## C06: fixed-size reads are all or nothing -/

/-- C06: `read_char` and `peek`. -/
theorem C06_read_char (r : Reader) (hinv : r.pos ≤ r.src.length) :
    (∀ c cs, r.rest = c :: cs → Reader.readChar r = .ok { r with pos := r.pos + 1 } c ∧ Reader.peek r = .ok r c) ∧
    (r.rest = [] → Reader.readChar r = .err r .eof ∧ Reader.peek r = .err r .eof) := by
  rw [Reader.readChar_eq r hinv, Reader.peek_eq r hinv]
  exact ⟨fun c cs h => by rw [h]; exact ⟨rfl, rfl⟩, fun h => by rw [h]; exact ⟨rfl, rfl⟩⟩

/-- C06: `read_n_chars`. -/
theorem C06_read_n_chars (n : Nat) (r : Reader) :
    (∀ s tail, r.rest = s ++ tail → s.length = n → Reader.readNChars n r = .ok { r with pos := r.pos + n } s) ∧
    (r.rest.length < n → Reader.readNChars n r = .err r .eof) := by
  have hl := r.rest_length
  unfold Reader.readNChars
  constructor
  · intro s tail h hn
    rw [h] at hl; simp at hl
    rw [if_pos (by omega), h]
    simp [← hn]
  · intro h
    rw [if_neg (by omega)]

/-- C06: `read_if_match_char`. -/
theorem C06_read_if_match_char (c : Char) (r : Reader) (hinv : r.pos ≤ r.src.length) :
    Reader.readIfMatchChar c r = match r.rest with
      | [] => .err r .eof
      | d :: _ => if d = c then .ok { r with pos := r.pos + 1 } c else .err r .invalidData := by
  unfold Reader.readIfMatchChar
  rw [Reader.getElem?_pos]
  have hl := r.rest_length
  cases hr : r.rest with
  | nil => rw [hr] at hl; simp at hl; rw [if_neg]; simp; omega
  | cons d cs => rw [hr] at hl; simp at hl; rw [if_pos (by omega)]; simp

/-- C06: `read_if_match_str`. -/
theorem C06_read_if_match_str (s : Str) (r : Reader) :
    Reader.readIfMatchStr s r =
      if s <+: r.rest then .ok { r with pos := r.pos + s.length } s
      else if r.rest.length < s.length then .err r .eof else .err r .invalidData := by
  unfold Reader.readIfMatchStr
  have hl := r.rest_length
  by_cases hp : s <+: r.rest
  · have := hp.length_le
    rw [if_pos hp, if_neg (by omega), if_pos (List.prefix_iff_eq_take.1 hp).symm]
  · rw [if_neg hp]
    have : r.rest.take s.length ≠ s := fun h => hp (List.prefix_iff_eq_take.2 h.symm)
    rw [if_neg this, hl]

example : Reader.readIfMatchStr "bc".toList ⟨"abcd".toList, 1⟩ = .ok ⟨"abcd".toList, 3⟩ "bc".toList := by
  decide +kernel

/-! ## C07: subreader is a window of the remaining input -/

/-- The full property C07: for every start address of the input that lets it lie inside the address space. -/
def SubreaderCorrect (addr p len : Nat) (r : Reader) : Prop :=
  Reader.subreader addr p len r =
    if p ≤ r.rest.length then .ok r (.ofStr ((r.rest.drop p).take len)) else .err r .eof

/-- C07 for all offsets that do not wrap around the address space. -/
theorem C07_subreader_window_partial (addr p len : Nat) (r : Reader) (hinv : r.pos ≤ r.src.length)
    (hwrap : addr + r.pos + p < 2 ^ 64) : SubreaderCorrect addr p len r := by
  unfold SubreaderCorrect Reader.subreader
  have hl := r.rest_length
  simp only
  rw [Nat.mod_eq_of_lt (by unfold Reader.addrSpace; exact hwrap)]
  by_cases h : p ≤ r.rest.length
  · rw [if_pos h, if_neg (by omega), if_neg (by omega)]
    congr 2
    simp only [Reader.rest, List.drop_drop]
    rw [show addr + r.pos + p - addr = r.pos + p by omega]
    show List.take (min len _) _ = _
    rw [List.take_eq_take_iff]
    simp only [List.length_drop]
    omega
  · rw [if_neg h, if_pos (by omega)]

example : Reader.subreader 4096 2 3 ⟨"abcdefgh".toList, 1⟩ = .ok ⟨"abcdefgh".toList, 1⟩ (.ofStr "def".toList) := by
  decide +kernel

/-- C07 is violated for offsets that wrap: a subreader at offset `npos` views the text *before* the read position. -/
theorem C07_subreader_violated : ∃ (addr p len : Nat) (r : Reader), r.pos ≤ r.src.length ∧
    addr + r.src.length < 2 ^ 64 ∧ ¬ SubreaderCorrect addr p len r ∧
    Reader.subreader addr p len r = .ok r (.ofStr "abc".toList) :=
  ⟨4096, 2 ^ 64 - 1, 100, ⟨"abc".toList, 1⟩, by decide, by decide, by unfold SubreaderCorrect; decide +kernel,
    by decide +kernel⟩

end Emio
