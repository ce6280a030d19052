import Verif.Props.Reader
import Verif.Spec.ParseInt
/-
Property C01: exactly what parse_int does with numbers that are not representable, for every type.
-/
namespace Emio
open Spec

/-- The reduced value decreases at some digit. -/
def drops (n b : Nat) : Nat → List Nat → Bool
  | _, [] => false
  | a, d :: ds => decide ((a * b + d) % n < a) || drops n b ((a * b + d) % n) ds

theorem cont_mod (n b a : Nat) (ds : List Nat) : cont b (a % n) ds % n = cont b a ds % n := by
  unfold cont
  induction ds generalizing a with
  | nil => simp
  | cons d ds ih =>
    simp only [List.foldl_cons]
    rw [← ih (a % n * b + d), ← ih (a * b + d)]
    congr 2
    rw [Nat.add_mod, Nat.mod_mul_mod, ← Nat.add_mod]

theorem arith_wrap (t : IntTy) (ht : t.signed = false) (x : Nat) :
    Reader.arith t (x : Int) = some ((x % 2 ^ t.bits : Nat) : Int) := by
  simp [Reader.arith, ht]

theorem parseLoop_wraps (t : IntTy) (b : Nat) (ht : t.signed = false) (hb : 2 ≤ b) (hb' : b ≤ 36) (tail : Str)
    (htail : ∀ c ∈ tail.head?, charToDigit c b = none) :
    ∀ (ds : Str) (pos a d : Nat), (∀ c ∈ ds, (symbolValue b c).isSome) →
      (drops (2 ^ t.bits) b a (d :: ds.filterMap (symbolValue b)) = true ∧
        ∃ p, Reader.parseLoop t b false (ds ++ tail) pos a ((a * b % 2 ^ t.bits : Nat) : Int) d = .err p .outOfRange) ∨
      (drops (2 ^ t.bits) b a (d :: ds.filterMap (symbolValue b)) = false ∧
        Reader.parseLoop t b false (ds ++ tail) pos a ((a * b % 2 ^ t.bits : Nat) : Int) d =
        .ok (pos + ds.length) ((cont b (a * b + d) (ds.filterMap (symbolValue b)) % 2 ^ t.bits : Nat) : Int)) := by
  intro ds
  have hadd : ∀ a d : Nat, Reader.addDigit t false (a : Int) ((a * b % 2 ^ t.bits : Nat) : Int) d =
      if (a * b + d) % 2 ^ t.bits < a then .err () .outOfRange
      else .ok () (((a * b + d) % 2 ^ t.bits : Nat) : Int) := by
    intro a d
    have h : ((a * b % 2 ^ t.bits : Nat) : Int) + (d : Int) = ((a * b % 2 ^ t.bits + d : Nat) : Int) := by push_cast; rfl
    have h2 : (a * b % 2 ^ t.bits + d) % 2 ^ t.bits = (a * b + d) % 2 ^ t.bits := by
      simp [Nat.add_mod]
    rw [Reader.addDigit]
    simp only [Bool.false_eq_true, if_false]
    rw [h, arith_wrap t ht, h2]
    simp only [Reader.wentBack, Bool.false_eq_true, if_false, Int.ofNat_lt, decide_eq_true_eq]
  induction ds with
  | nil =>
    intro pos a d _
    by_cases hlt : (a * b + d) % 2 ^ t.bits < a
    · left
      refine ⟨by simp [drops, hlt], pos, ?_⟩
      cases tail with
      | nil => simp only [List.append_nil, parseLoop_nil]; rw [hadd, if_pos hlt]
      | cons c cs => simp only [List.nil_append, parseLoop_cons]; rw [hadd, if_pos hlt]
    · right
      refine ⟨by simpa [drops] using hlt, ?_⟩
      cases tail with
      | nil => simp only [List.append_nil, parseLoop_nil]; rw [hadd, if_neg hlt]; simp [cont]
      | cons c cs =>
        simp only [List.nil_append, parseLoop_cons]; rw [hadd, if_neg hlt, htail c (by simp)]
        simp [cont]
  | cons c cs ih =>
    intro pos a d hds
    obtain ⟨v, hv⟩ := Option.isSome_iff_exists.1 (hds c (by simp))
    have hfm : (c :: cs).filterMap (symbolValue b) = v :: cs.filterMap (symbolValue b) := by
      simp [hv]
    rw [hfm]
    by_cases hlt : (a * b + d) % 2 ^ t.bits < a
    · left
      refine ⟨by simp [drops, hlt], pos, ?_⟩
      simp only [List.cons_append, parseLoop_cons]; rw [hadd, if_pos hlt]
    · have hstep : Reader.parseLoop t b false (c :: cs ++ tail) pos a ((a * b % 2 ^ t.bits : Nat) : Int) d =
          Reader.parseLoop t b false (cs ++ tail) (pos + 1) (((a * b + d) % 2 ^ t.bits : Nat) : Int)
            (((a * b + d) % 2 ^ t.bits * b % 2 ^ t.bits : Nat) : Int) v := by
        have h : (((a * b + d) % 2 ^ t.bits : Nat) : Int) * (b : Int) = (((a * b + d) % 2 ^ t.bits * b : Nat) : Int) := by
          push_cast; rfl
        simp only [List.cons_append, parseLoop_cons]
        rw [hadd, if_neg hlt, charToDigit_of_symbolValue hb' hv]
        simp only
        rw [h, arith_wrap t ht]
      have hd : drops (2 ^ t.bits) b a (d :: v :: cs.filterMap (symbolValue b)) =
          drops (2 ^ t.bits) b ((a * b + d) % 2 ^ t.bits) (v :: cs.filterMap (symbolValue b)) := by
        simp only [drops, hlt, decide_false, Bool.false_or]
      have hc : cont b ((a * b + d) % 2 ^ t.bits * b + v) (cs.filterMap (symbolValue b)) % 2 ^ t.bits =
          cont b (a * b + d) (v :: cs.filterMap (symbolValue b)) % 2 ^ t.bits :=
        cont_mod (2 ^ t.bits) b (a * b + d) (v :: cs.filterMap (symbolValue b))
      rw [hstep, hd]
      rcases ih (pos + 1) ((a * b + d) % 2 ^ t.bits) v (fun x hx => hds x (by simp [hx])) with h | ⟨h1, h2⟩
      · exact .inl h
      · right
        refine ⟨h1, ?_⟩
        rw [h2, hc, List.length_cons]
        congr 1
        omega

theorem drops_iff (n b : Nat) :
    ∀ (ds : List Nat) (a : Nat), drops n b (a % n) ds = true ↔
      ∃ (pre suf : List Nat) (d : Nat), ds = pre ++ d :: suf ∧ cont b a (pre ++ [d]) % n < cont b a pre % n := by
  intro ds
  induction ds with
  | nil => intro a; simp [drops]
  | cons x xs ih =>
    intro a
    have hm : (a % n * b + x) % n = (a * b + x) % n := by
      rw [Nat.add_mod, Nat.mod_mul_mod, ← Nat.add_mod]
    simp only [drops, Bool.or_eq_true, decide_eq_true_eq, hm, ih (a * b + x)]
    constructor
    · rintro (h | ⟨pre, suf, d, rfl, h⟩)
      · exact ⟨[], xs, x, rfl, by simpa [cont] using h⟩
      · exact ⟨x :: pre, suf, d, rfl, by simpa [cont] using h⟩
    · rintro ⟨pre, suf, d, he, h⟩
      cases pre with
      | nil =>
        simp only [List.nil_append, List.cons.injEq] at he
        obtain ⟨rfl, rfl⟩ := he
        left; simpa [cont] using h
      | cons y ys =>
        simp only [List.cons_append, List.cons.injEq] at he
        obtain ⟨rfl, rfl⟩ := he
        exact .inr ⟨ys, suf, d, rfl, by simpa [cont] using h⟩

theorem wrapsDown_iff (n b : Nat) (ds : Str) (h : ∀ c ∈ ds, (symbolValue b c).isSome) :
    WrapsDown n b ds ↔ drops n b 0 (ds.filterMap (symbolValue b)) = true := by
  have h0 : drops n b 0 (ds.filterMap (symbolValue b)) = drops n b (0 % n) (ds.filterMap (symbolValue b)) := by
    rw [Nat.zero_mod]
  rw [h0, drops_iff]
  constructor
  · rintro ⟨pre, suf, c, rfl, hlt⟩
    obtain ⟨v, hv⟩ := Option.isSome_iff_exists.1 (h c (by simp))
    refine ⟨pre.filterMap (symbolValue b), suf.filterMap (symbolValue b), v, by simp [hv], ?_⟩
    simpa [numeralValue, denote, cont, hv] using hlt
  · rintro ⟨pre, suf, d, he, hlt⟩
    rw [List.filterMap_eq_append_iff] at he
    obtain ⟨l1, l2, rfl, rfl, he2⟩ := he
    cases l2 with
    | nil => simp at he2
    | cons c cs =>
      obtain ⟨v, hv⟩ := Option.isSome_iff_exists.1 (h c (by simp))
      simp only [List.filterMap_cons, hv, List.cons.injEq] at he2
      obtain ⟨rfl, rfl⟩ := he2
      refine ⟨l1, cs, c, rfl, ?_⟩
      simpa [numeralValue, denote, cont, hv] using hlt

theorem tail_no_digit {b : Nat} {tail : Str} (hb' : b ≤ 36) (htail : NoDigitNext b tail)
    (hcol : 10 < b → ∀ c ∈ tail.head?, isColonToAt c = false) : ∀ x ∈ tail.head?, charToDigit x b = none := by
  intro x hx
  rw [charToDigit_eq x b hb']
  · exact htail x hx
  · by_cases h10 : b ≤ 10
    · exact Or.inl h10
    · exact Or.inr (hcol (by omega) x hx)

open Classical in
/-- C01, the 32 and 64 bit unsigned types: a number is taken modulo 2^32 or 2^64, and what is noticed of that is that the
reduced value of the digits read so far decreases at some digit. -/
theorem C01_parse_int_wide_unsigned (t : IntTy) (ht : t = u32 ∨ t = u64) (b : Nat) (r : Reader) (sg : Sign)
    (ds tail : Str) (hb : 2 ≤ b) (hb' : b ≤ 36) (hinv : r.pos ≤ r.src.length) (hr : r.rest = sg.text ++ ds ++ tail)
    (hnum : IsNumeral b ds) (htail : NoDigitNext b tail)
    (hcol : 10 < b → ∀ c ∈ tail.head?, isColonToAt c = false) :
    Reader.parseInt t b r =
      if sg = .minus ∨ WrapsDown (2 ^ t.bits) b ds then .err r .outOfRange
      else .ok { r with pos := r.pos + sg.text.length + ds.length }
        ((numeralValue b ds % 2 ^ t.bits : Nat) : Int) := by
  have hw := wrapsDown_iff (2 ^ t.bits) b ds hnum.2
  obtain ⟨c, cs, d, rfl, hd, hall, hval⟩ := isNumeral_cases hnum
  have hr' : r.rest = sg.text ++ c :: (cs ++ tail) := by simpa using hr
  rw [parseInt_run t b hb hb' r hinv sg c d (cs ++ tail) hr' (charToDigit_of_symbolValue hb' hd)]
  have hs : t.signed = false := by rcases ht with rfl | rfl <;> rfl
  have hup : t.upcast = t := by rcases ht with rfl | rfl <;> rfl
  by_cases hmin : sg = .minus
  · rw [if_pos ⟨hs, hmin⟩, if_pos (.inl hmin)]
  · have hmn : isMinus sg = false := by cases sg <;> simp_all [isMinus]
    rw [if_neg (by simp [hmin]), hup, hmn]
    have hfm : (c :: cs).filterMap (symbolValue b) = d :: cs.filterMap (symbolValue b) := by simp [hd]
    rw [hfm] at hw
    have key := parseLoop_wraps t b hs hb hb' tail (tail_no_digit hb' htail hcol) cs (r.pos + sg.text.length + 1) 0 d hall
    simp only [Nat.zero_mul, Nat.zero_mod, Int.natCast_zero] at key
    rcases key with ⟨h1, p, h2⟩ | ⟨h1, h2⟩
    · rw [h2, if_pos (.inr (hw.2 h1))]
    · rw [h2, if_neg (by rw [hw, h1]; simp [hmin])]
      simp only [true_or, if_true, List.length_cons]
      rw [hval]
      congr 2
      · omega
      · simp

example : Reader.parseInt u32 10 (.ofStr "9999999999;".toList) = .ok ⟨"9999999999;".toList, 10⟩ 1410065407 := by
  decide +kernel
example : ¬ WrapsDown (2 ^ u32.bits) 10 "9999999999".toList := by
  rw [wrapsDown_iff _ _ _ (by decide +kernel)]; decide +kernel
example : WrapsDown (2 ^ u32.bits) 10 "4294967296".toList := by
  rw [wrapsDown_iff _ _ _ (by decide +kernel)]; decide +kernel

/-- C01, the 32 and 64 bit signed types: a representable number is returned, for any other the behaviour is undefined. -/
theorem C01_parse_int_wide_signed (t : IntTy) (ht : t = i32 ∨ t = i64) (b : Nat) (r : Reader) (sg : Sign)
    (ds tail : Str) (hb : 2 ≤ b) (hb' : b ≤ 36) (hinv : r.pos ≤ r.src.length) (hr : r.rest = sg.text ++ ds ++ tail)
    (hnum : IsNumeral b ds) (htail : NoDigitNext b tail)
    (hcol : 10 < b → ∀ c ∈ tail.head?, isColonToAt c = false) :
    Reader.parseInt t b r =
      if t.Holds (sg.apply (numeralValue b ds)) then
        .ok { r with pos := r.pos + sg.text.length + ds.length } (sg.apply (numeralValue b ds))
      else .bad .ub := by
  split
  · rename_i h
    exact C01_parse_int_exact_partial t (by rcases ht with rfl | rfl <;> simp [IntTy.Std]) b r sg ds tail hb hb' hinv hr
      hnum htail hcol h (.inl (by rcases ht with rfl | rfl <;> rfl))
  · rename_i h
    exact C01_parse_int_signed_overflow_is_ub t ht b r sg ds tail hb hb' hinv hr hnum h

example : Reader.parseInt i32 10 (.ofStr "-2147483648".toList) = .ok ⟨"-2147483648".toList, 11⟩ (-2147483648) := by
  decide +kernel

/-- C01, the 8 and 16 bit signed types: a representable number is returned, a number that is not representable fails with
`out_of_range` as long as it is representable in 32 bit, and beyond that the behaviour is undefined. -/
theorem C01_parse_int_narrow_signed (t : IntTy) (ht : t = i8 ∨ t = i16) (b : Nat) (r : Reader) (sg : Sign)
    (ds tail : Str) (hb : 2 ≤ b) (hb' : b ≤ 36) (hinv : r.pos ≤ r.src.length) (hr : r.rest = sg.text ++ ds ++ tail)
    (hnum : IsNumeral b ds) (htail : NoDigitNext b tail)
    (hcol : 10 < b → ∀ c ∈ tail.head?, isColonToAt c = false) :
    Reader.parseInt t b r =
      if t.Holds (sg.apply (numeralValue b ds)) then
        .ok { r with pos := r.pos + sg.text.length + ds.length } (sg.apply (numeralValue b ds))
      else if i32.Holds (sg.apply (numeralValue b ds)) then .err r .outOfRange
      else .bad .ub := by
  split
  · rename_i h
    exact C01_parse_int_exact_partial t (by rcases ht with rfl | rfl <;> simp [IntTy.Std]) b r sg ds tail hb hb' hinv hr
      hnum htail hcol h (.inl (by rcases ht with rfl | rfl <;> rfl))
  · rename_i hno
    obtain ⟨c, cs, d, rfl, hd, hall, hval⟩ := isNumeral_cases hnum
    have hr' : r.rest = sg.text ++ c :: (cs ++ tail) := by simpa using hr
    rw [parseInt_run t b hb hb' r hinv sg c d (cs ++ tail) hr' (charToDigit_of_symbolValue hb' hd)]
    have hs : t.signed = true := by rcases ht with rfl | rfl <;> rfl
    have hup : t.upcast = i32 := by rcases ht with rfl | rfl <;> rfl
    have hne : i32 ≠ t := by rcases ht with rfl | rfl <;> decide
    have h0 : sgn (isMinus sg) 0 = 0 := by cases isMinus sg <;> rfl
    rw [if_neg (by simp [hs]), hup]
    by_cases h32 : i32.Holds (sg.apply (numeralValue b (c :: cs)))
    · rw [if_pos h32]
      rw [← sgn_apply, hval] at h32
      have hl := parseLoop_exact i32 b (isMinus sg) hb hb' tail (tail_no_digit hb' htail hcol) cs
        (r.pos + sg.text.length + 1) 0 d hall h32
      rw [h0, Int.zero_mul, ← hval, sgn_apply] at hl
      rw [hl]
      simp only [hne, hno, or_self, if_false]
    · rw [if_neg h32]
      rw [← sgn_apply, hval] at h32
      have hl := parseLoop_signed_overflow i32 b rfl (isMinus sg) hb hb' tail cs (r.pos + sg.text.length + 1) 0 d hall h32
      rw [h0, Int.zero_mul] at hl
      rw [hl]

example : Reader.parseInt i8 10 (.ofStr "+128".toList) = .err (.ofStr "+128".toList) .outOfRange := by decide +kernel
example : Reader.parseInt i8 10 (.ofStr "2147483648".toList) = .bad .ub := by decide +kernel

end Emio
