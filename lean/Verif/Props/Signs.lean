import Verif.Props.Digits17
/-
Property C96: the sign of a number is only shown in front of it.
-/
namespace Emio
open Spec

/-- A number and its negative: an integer of two types, or a floating-point number (also 0, infinity and NaN), by its bits. -/
inductive Spec.Opposite : CoreArg → CoreArg → Prop
  | int (ty ty' : IntTy) (n : Int) (positive : 0 < n) : Opposite (.int ty n) (.int ty' (-n))
  | double (bits : Nat) (positive : bits < 2 ^ 63) : Opposite (.double bits) (.double (bits + 2 ^ 63))

/-- What a number is with sign and all, given what stands for the sign. -/
structure Placing (s : Specs) (place : Str → Str) : Prop where
  one : ∃ pre post, ∀ c, place [c] = pre ++ c :: post
  bare : s.width = 0 → ∀ front, place front = front ++ place []

theorem padded_placing {s s' : Specs} (hw : s'.width = s.width) (d : Align) (lit : Str) :
    Placing s (fun front => padded d s' (front ++ lit)) := by
  constructor
  · unfold padded surround
    split
    · exact ⟨[], lit ++ List.replicate (fillCount s' (lit.length + 1)) s'.fill, fun c => by simp⟩
    · exact ⟨List.replicate (fillCount s' (lit.length + 1)) s'.fill, lit, fun c => by simp⟩
    · exact ⟨List.replicate (fillCount s' (lit.length + 1) / 2) s'.fill,
        lit ++ List.replicate (fillCount s' (lit.length + 1) - fillCount s' (lit.length + 1) / 2) s'.fill, fun c => by simp⟩
    · exact ⟨[], lit, fun c => by simp⟩
  · intro h0 front
    have hf : ∀ n, fillCount s' n = 0 := fun n => by unfold fillCount; rw [hw, h0]; simp
    unfold padded surround
    simp only [hf]
    split <;> simp

theorem number_placing (s : Specs) (pre lit : Str) : Placing s (fun front => paddedNumber s (front ++ pre) lit) := by
  have hp := padded_placing (s := s) (s' := s) rfl .right (pre ++ lit)
  unfold paddedNumber
  by_cases hz : s.zeroFlag = true
  · simp only [hz, if_true]
    constructor
    · exact ⟨[], pre ++ (List.replicate (fillCount s ((pre ++ lit).length + 1)) '0' ++ lit), fun c => by simp⟩
    · intro h0 front
      have hf : ∀ n, fillCount s n = 0 := fun n => by unfold fillCount; rw [h0]; simp
      simp [hf]
  · have hz : s.zeroFlag = false := by simpa using hz
    simp only [hz, Bool.false_eq_true, if_false]
    simpa [List.append_assoc] using hp

theorem finiteText_negated (s : Specs) {bits : Nat} (h : bits < 2 ^ 63) : finiteText s (bits + 2 ^ 63) = finiteText s bits := by
  have e : (bits + 2 ^ 63) % 2 ^ 63 = bits % 2 ^ 63 := by omega
  have hm : magnitude (bits + 2 ^ 63) = magnitude bits := by rw [← magnitude_low (bits + 2 ^ 63), e, magnitude_low]
  unfold finiteText
  rw [hm, e]

/-- How a floating-point number and its negative are written. -/
theorem float_placing (s : Specs) {bits : Nat} (h : bits < 2 ^ 63) :
    ∃ place, Placing s place ∧ actualText s bits = place (signOf s false) ∧ actualText s (bits + 2 ^ 63) = place (signOf s true) := by
  have e : (bits + 2 ^ 63) % 2 ^ 63 = bits % 2 ^ 63 := by omega
  have hm : magnitude (bits + 2 ^ 63) = magnitude bits := by rw [← magnitude_low (bits + 2 ^ 63), e, magnitude_low]
  have he : exponentOf (bits + 2 ^ 63) = exponentOf bits := by rw [← exponentOf_low (bits + 2 ^ 63), e, exponentOf_low]
  have hf : fractionOf (bits + 2 ^ 63) = fractionOf bits := by rw [← fractionOf_low (bits + 2 ^ 63), e, fractionOf_low]
  have hs0 : signBit bits = false := by
    unfold signBit
    rw [show bits / 2 ^ 63 = 0 by omega]
    rfl
  have hs1 : signBit (bits + 2 ^ 63) = true := by
    unfold signBit
    rw [show (bits + 2 ^ 63) / 2 ^ 63 = 1 by omega]
    rfl
  have hfin : IsFinite (bits + 2 ^ 63) ↔ IsFinite bits := by unfold IsFinite; rw [he]
  have hl : LosesZero s (bits + 2 ^ 63) ↔ LosesZero s bits := by unfold LosesZero; rw [hfin, hm]
  have hn : nonFiniteText s (bits + 2 ^ 63) = nonFiniteText s bits := by unfold nonFiniteText; rw [hf]
  have hp := fun lit => number_placing s [] lit
  simp only [List.append_nil] at hp
  unfold actualText floatText
  simp only [hn, hs0, hs1, finiteText_negated s h]
  by_cases h1 : LosesZero s bits
  · rw [if_pos h1, if_pos (hl.2 h1)]
    exact ⟨_, hp _, rfl, rfl⟩
  · by_cases h2 : IsFinite bits
    · rw [if_neg h1, if_neg (mt hl.1 h1), if_pos h2, if_pos (hfin.2 h2)]
      exact ⟨_, hp _, rfl, rfl⟩
    · rw [if_neg h1, if_neg (mt hl.1 h1), if_neg h2, if_neg (mt hfin.1 h2)]
      exact ⟨_, padded_placing (s := s) (s' := if s.zeroFlag then { s with fill := ' ' } else s) (by split <;> rfl) .left
        (nonFiniteText s bits), rfl, rfl⟩

/-- How a number and its negative are written, with any signs. -/
theorem opposite_texts {a b : CoreArg} (h : Opposite a b) (va : ValidArg a) (vb : ValidArg b) (t : SpecText) (wf : t.WellFormed)
    (fits : t.Fits) (ha : CoreTy.Allows a.ty t) (hb : CoreTy.Allows b.ty t) (hO : t.type ≠ some 'O') (hc : t.type ≠ some 'c') :
    ∃ place, Placing t.meaning place ∧
      formatStr ("{:".toList ++ t.text ++ "}".toList) [a.farg] = .ok () (place (signOf t.meaning false)) ∧
      formatStr ("{:".toList ++ t.text ++ "}".toList) [b.farg] = .ok () (place (signOf t.meaning true)) := by
  cases h with
  | int ty ty' n hn =>
    have hc' : t.meaning.type ≠ 'c' := fun h => hc ((meaning_type_some wf 'c' (by decide)).1 h)
    refine ⟨_, number_placing t.meaning (prefixOf t.meaning n) (numeral (t.meaning.type == 'X') (baseOf t.meaning.type) n.natAbs), ?_, ?_⟩
    · rw [C30_integers ty n va.1 va.2 t wf fits ha hO, intText, if_neg hc', decide_eq_false (by omega)]
    · have e : prefixOf t.meaning (-n) = prefixOf t.meaning n := by
        have h0 : n ≠ 0 := by omega
        simp [prefixOf, h0]
      rw [C30_integers ty' (-n) vb.1 vb.2 t wf fits hb hO, intText, if_neg hc', decide_eq_true (by omega), e, Int.natAbs_neg]
  | double bits hbits =>
    obtain ⟨place, hp, h1, h2⟩ := float_placing t.meaning hbits
    exact ⟨place, hp, by rw [render_double bits va t wf fits ha, h1], by rw [render_double _ vb t wf fits hb, h2]⟩

/-- C96: with a sign for positive numbers, plus or blank, a number and its negative are written alike but for that one
character, with any width, alignment, zeros, precision and presentation type: infinity and NaN, too. -/
theorem C96_signs_take_the_same_place {a b : CoreArg} (h : Opposite a b) (va : ValidArg a) (vb : ValidArg b) (t : SpecText)
    (wf : t.WellFormed) (fits : t.Fits) (ha : CoreTy.Allows a.ty t) (hb : CoreTy.Allows b.ty t) (hO : t.type ≠ some 'O')
    (hc : t.type ≠ some 'c') (c : Char) (hsign : t.sign = some c) (hplus : c = '+' ∨ c = ' ') :
    ∃ pre post, formatStr ("{:".toList ++ t.text ++ "}".toList) [a.farg] = .ok () (pre ++ c :: post) ∧
      formatStr ("{:".toList ++ t.text ++ "}".toList) [b.farg] = .ok () (pre ++ '-' :: post) := by
  obtain ⟨place, hp, h1, h2⟩ := opposite_texts h va vb t wf fits ha hb hO hc
  obtain ⟨pre, post, hpp⟩ := hp.one
  refine ⟨pre, post, ?_, ?_⟩
  · rw [h1, ← hpp c]
    have : signOf t.meaning false = [c] := by
      have e : t.meaning.sign = c := by simp [SpecText.meaning, hsign]
      unfold signOf
      rw [e]
      rcases hplus with rfl | rfl <;> rfl
    rw [this]
  · rw [h2, ← hpp '-']
    rfl

/-- C96: without width, the negative number is written with its sign in front, and the rest is the same as for the number
itself: with a sign for positive numbers, without that sign. -/
theorem C96_the_rest_is_the_same {a b : CoreArg} (h : Opposite a b) (va : ValidArg a) (vb : ValidArg b) (t : SpecText)
    (wf : t.WellFormed) (fits : t.Fits) (ha : CoreTy.Allows a.ty t) (hb : CoreTy.Allows b.ty t) (hO : t.type ≠ some 'O')
    (hc : t.type ≠ some 'c') (hw : t.widthValue = 0) :
    ∃ rest, formatStr ("{:".toList ++ t.text ++ "}".toList) [b.farg] = .ok () ('-' :: rest) ∧
      formatStr ("{:".toList ++ t.text ++ "}".toList) [a.farg] =
        .ok () ((if t.sign = some '+' then ['+'] else if t.sign = some ' ' then [' '] else []) ++ rest) := by
  obtain ⟨place, hp, h1, h2⟩ := opposite_texts h va vb t wf fits ha hb hO hc
  have hb := hp.bare (by simpa [SpecText.meaning] using hw)
  refine ⟨place [], ?_, ?_⟩
  · rw [h2, hb]
    rfl
  · rw [h1, hb]
    have : signOf t.meaning false = (if t.sign = some '+' then ['+'] else if t.sign = some ' ' then [' '] else []) := by
      unfold signOf SpecText.meaning
      cases t.sign with
      | none => rfl
      | some c => simp
    rw [this]

/-- A number below zero, or one with its sign bit set. -/
def Spec.HasMinus : CoreArg → Prop
  | .int _ n => n < 0
  | .double bits => 2 ^ 63 ≤ bits
  | _ => False

/-- C96: for a number with a minus sign it makes no difference which sign is asked for positive numbers. -/
theorem C96_minus_is_always_shown {a : CoreArg} (h : HasMinus a) (va : ValidArg a) (t : SpecText) (sign : Option Char)
    (wf : t.WellFormed) (wf' : ({ t with sign := sign } : SpecText).WellFormed) (fits : t.Fits) (ha : CoreTy.Allows a.ty t)
    (hO : t.type ≠ some 'O') :
    formatStr ("{:".toList ++ ({ t with sign := sign } : SpecText).text ++ "}".toList) [a.farg] =
      formatStr ("{:".toList ++ t.text ++ "}".toList) [a.farg] := by
  have fits' : ({ t with sign := sign } : SpecText).Fits := fits
  cases a with
  | int ty n =>
    have hn : n < 0 := h
    have hs : ty.signed = true := by
      have := va.2.1
      unfold IntTy.min at this
      split at this
      · assumption
      · omega
    have ha' : CoreTy.Allows (.int ty) { t with sign := sign } := ⟨ha.1, .inl hs⟩
    rw [C30_integers ty n va.1 va.2 _ wf' fits' ha' hO, C30_integers ty n va.1 va.2 t wf fits ha hO]
    unfold intText
    rw [decide_eq_true hn]
    rfl
  | double bits =>
    have hb : 2 ^ 63 ≤ bits := h
    have ha' : CoreTy.Allows .double { t with sign := sign } := ha
    rw [render_double bits va _ wf' fits' ha', render_double bits va t wf fits ha]
    have hs1 : signBit bits = true := by
      have hv : bits < 2 ^ 64 := va
      unfold signBit
      rw [show bits / 2 ^ 63 = 1 by omega]
      rfl
    unfold actualText floatText
    rw [hs1]
    have hl : LosesZero ({ t with sign := sign } : SpecText).meaning bits ↔ LosesZero t.meaning bits := Iff.rfl
    by_cases h1 : LosesZero t.meaning bits
    · rw [if_pos h1, if_pos (hl.2 h1)]
      rfl
    · rw [if_neg h1, if_neg (mt hl.1 h1)]
      split
      · rfl
      · have hz : ({ t with sign := sign } : SpecText).meaning.zeroFlag = t.meaning.zeroFlag := rfl
        rw [hz]
        split <;> rfl
  | _ => exact h.elim

/-- The hypotheses are met: 42 and -42 with `{:*^+#10x}`, infinities with `{:+}`. -/
example : Opposite (.int i32 42) (.int i32 (-42)) ∧ ValidArg (.int i32 42) ∧ ValidArg (.int i32 (-42)) :=
  ⟨.int i32 i32 42 (by decide), ⟨by unfold IntTy.Std; decide, by decide⟩, ⟨by unfold IntTy.Std; decide, by decide⟩⟩
example : ∃ t : SpecText, t.WellFormed ∧ t.Fits ∧ CoreTy.Allows (.int i32) t ∧ t.type ≠ some 'O' ∧ t.type ≠ some 'c' ∧
    t.sign = some '+' ∧ t.text = "*^+#10x".toList :=
  ⟨{ fill := '*', align := '^', sign := '+', alt := true, width := ['1', '0'], type := 'x' },
    ⟨by simp, by simp, by simp, by simp, by decide, by simp, by intro c hc; left; simp at hc; subst hc; rfl⟩,
    by unfold SpecText.Fits; decide, ⟨⟨by decide, by simp [integerTypes]⟩, .inl rfl⟩, by decide, by decide, rfl, rfl⟩
example : Opposite (.double 0x7FF0000000000000) (.double 0xFFF0000000000000) ∧ ValidArg (.double 0xFFF0000000000000) ∧
    HasMinus (.double 0xFFF0000000000000) :=
  ⟨.double 0x7FF0000000000000 (by decide), by unfold ValidArg; decide, by unfold HasMinus; decide⟩
example : ∃ t : SpecText, t.WellFormed ∧ t.Fits ∧ CoreTy.Allows .double t ∧ t.widthValue = 0 ∧
    ({ t with sign := ' ' } : SpecText).WellFormed ∧ t.text = "+".toList :=
  ⟨{ sign := '+' }, ⟨by simp, by simp, by simp, by simp, by decide, by simp, by simp⟩, by unfold SpecText.Fits; decide,
    ⟨by decide, by simp⟩, rfl, ⟨by simp, by simp, by simp, by simp, by decide, by simp, by simp⟩, rfl⟩

/-- With a width and no sign for positive numbers the texts need not be alike: `{:02}` of 1 and of -1 are "01" and "-1". -/
example : intText ({ zero := true, width := ['2'] } : SpecText).meaning 1 = "01".toList ∧
    intText ({ zero := true, width := ['2'] } : SpecText).meaning (-1) = "-1".toList := by decide

end Emio
