import Verif.Spec.Unified
import Verif.Props.Format
import Verif.Props.Float
/-
Property C70: arguments of other than core types.
-/
namespace Emio
open Spec BufferImpl

theorem unifyInt_std (t : IntTy) : (unifyInt t).Std ∧ (unifyInt t).signed = t.signed := by
  unfold unifyInt
  split
  · rename_i h
    split <;> exact ⟨by decide, h.symm⟩
  · rename_i h
    split <;> exact ⟨by decide, by simp at h; exact h.symm⟩

theorem unifyInt_holds (t : IntTy) (ht : t.Std) (n : Int) (h : t.Holds n) : (unifyInt t).Holds n := by
  obtain ⟨s, b⟩ := t
  have hb : b = 8 ∨ b = 16 ∨ b = 32 ∨ b = 64 := ht
  obtain ⟨h1, h2⟩ := h
  rcases hb with rfl | rfl | rfl | rfl <;> cases s <;>
    simp [unifyInt, IntTy.Holds, IntTy.min, IntTy.max, i32, i64, u32, u64] at h1 h2 ⊢ <;> omega

/-! ### C70 -/

/-- An integer of any type is formatted as the number it is. -/
theorem C70_integers (ty : IntTy) (n : Int) (hty : ty.Std) (hn : ty.Holds n) (t : SpecText) (wf : t.WellFormed)
    (fits : t.Fits) (hal : CoreTy.Allows (.int ty) t) (hO : t.type ≠ some 'O') :
    formatStr ("{:".toList ++ t.text ++ "}".toList) [(UserArg.integer ty n).farg] = .ok () (intText t.meaning n) := by
  refine C30_integers (unifyInt ty) n (unifyInt_std ty).1 (unifyInt_holds ty hty n hn) t wf fits ?_ hO
  have := (unifyInt_std ty).2
  exact ⟨hal.1, by rw [this]; exact hal.2⟩

/-- Integers of two types with the same value are formatted to the same text. -/
theorem C70_same_number (ty ty' : IntTy) (n : Int) (hty : ty.Std) (hty' : ty'.Std) (hn : ty.Holds n) (hn' : ty'.Holds n)
    (t : SpecText) (wf : t.WellFormed) (fits : t.Fits) (hal : CoreTy.Allows (.int ty) t) (hal' : CoreTy.Allows (.int ty') t)
    (hO : t.type ≠ some 'O') :
    formatStr ("{:".toList ++ t.text ++ "}".toList) [(UserArg.integer ty n).farg] =
      formatStr ("{:".toList ++ t.text ++ "}".toList) [(UserArg.integer ty' n).farg] := by
  rw [C70_integers ty n hty hn t wf fits hal hO, C70_integers ty' n hty' hn' t wf fits hal' hO]

example : formatStr "{:#06x}".toList [(UserArg.integer ⟨true, 8⟩ (-42)).farg] = .ok () "-0x02a".toList ∧
    formatStr "{:#06x}".toList [(UserArg.integer ⟨true, 64⟩ (-42)).farg] = .ok () "-0x02a".toList := by decide +kernel

theorem double_fields (s e f : Nat) (hs : s < 2) (he : e < 2 ^ 11) (hf : f < 2 ^ 52) :
    exponentOf (s * 2 ^ 63 + (e * 2 ^ 52 + f)) = e ∧ fractionOf (s * 2 ^ 63 + (e * 2 ^ 52 + f)) = f ∧
    signBit (s * 2 ^ 63 + (e * 2 ^ 52 + f)) = (s == 1) ∧ s * 2 ^ 63 + (e * 2 ^ 52 + f) < 2 ^ 64 := by
  unfold exponentOf fractionOf signBit
  refine ⟨by omega, by omega, ?_, by omega⟩
  have : (s * 2 ^ 63 + (e * 2 ^ 52 + f)) / 2 ^ 63 % 2 = s := by omega
  rw [this]

theorem log2_float {f : Nat} (h0 : f ≠ 0) (hf : f < 2 ^ 23) : f.log2 ≤ 22 ∧ 2 ^ f.log2 ≤ f ∧ f < 2 ^ (f.log2 + 1) :=
  ⟨by have := (Nat.log2_lt h0).2 hf; omega, Nat.log2_self_le h0, Nat.lt_log2_self⟩

/-- The fields of the double made of a float. -/
theorem widen_fields (b : Nat) : ∃ s e f, s < 2 ∧ e < 2 ^ 11 ∧ f < 2 ^ 52 ∧ widenFloat b = s * 2 ^ 63 + (e * 2 ^ 52 + f) ∧
    s = b / 2 ^ 31 % 2 ∧
    (floatExponent b = 255 → e = 2047 ∧ f = floatFraction b * 2 ^ 29) ∧
    (floatExponent b ≠ 255 → floatExponent b ≠ 0 → e = floatExponent b + 896 ∧ f = floatFraction b * 2 ^ 29) ∧
    (floatExponent b = 0 → floatFraction b = 0 → e = 0 ∧ f = 0) ∧
    (floatExponent b = 0 → floatFraction b ≠ 0 → e = (floatFraction b).log2 + 874 ∧
      f = (floatFraction b - 2 ^ (floatFraction b).log2) * 2 ^ (52 - (floatFraction b).log2)) := by
  have he : floatExponent b < 2 ^ 8 := Nat.mod_lt _ (by decide)
  have hf : floatFraction b < 2 ^ 23 := Nat.mod_lt _ (by decide)
  have hs : b / 2 ^ 31 % 2 < 2 := Nat.mod_lt _ (by decide)
  have hw : widenFloat b = b / 2 ^ 31 % 2 * 2 ^ 63 +
    (if floatExponent b = 255 then 2047 * 2 ^ 52 + floatFraction b * 2 ^ 29
     else if floatExponent b ≠ 0 then (floatExponent b + 896) * 2 ^ 52 + floatFraction b * 2 ^ 29
     else if floatFraction b = 0 then 0
     else ((floatFraction b).log2 + 874) * 2 ^ 52 +
      (floatFraction b - 2 ^ (floatFraction b).log2) * 2 ^ (52 - (floatFraction b).log2)) := rfl
  rw [hw]
  generalize floatExponent b = e at *
  generalize floatFraction b = f at *
  generalize b / 2 ^ 31 % 2 = s at *
  by_cases h255 : e = 255
  · exact ⟨s, 2047, f * 2 ^ 29, hs, by decide, by omega, by rw [if_pos h255], rfl, by simp, by simp [h255], by simp [h255],
      by simp [h255]⟩
  rw [if_neg h255]
  by_cases h0 : e = 0
  · rw [if_neg (by simpa using h0)]
    by_cases f0 : f = 0
    · exact ⟨s, 0, 0, hs, by decide, by decide, by rw [if_pos f0]; omega, rfl, by simp [h255], by simp [h0], by simp, by simp [f0]⟩
    · obtain ⟨l1, l2, l3⟩ := log2_float f0 hf
      rw [if_neg f0]
      refine ⟨s, f.log2 + 874, _, hs, by omega, ?_, rfl, rfl, by simp [h255], by simp [h0], by simp [f0], by simp⟩
      have e1 : 2 ^ 52 = 2 ^ f.log2 * 2 ^ (52 - f.log2) := by rw [← pow_add]; congr 1; omega
      rw [e1]
      refine Nat.mul_lt_mul_of_pos_right ?_ (by positivity)
      rw [pow_succ] at l3
      omega
  · exact ⟨s, e + 896, f * 2 ^ 29, hs, by omega, by omega, by rw [if_pos h0], rfl, by simp [h255], by simp, by simp [h0],
      by simp [h0]⟩

/-- A finite float is taken as a double of the same sign and magnitude, ... -/
theorem C70_float_is_exact (b : Nat) (hf : floatExponent b ≠ 255) :
    IsFinite (widenFloat b) ∧ magnitude (widenFloat b) = floatMagnitude b ∧
      signBit (widenFloat b) = (b / 2 ^ 31 % 2 == 1) ∧ widenFloat b < 2 ^ 64 := by
  obtain ⟨s, e, f, h1, h2, h3, h4, h5, _, h7, h8, h9⟩ := widen_fields b
  obtain ⟨g1, g2, g3, g4⟩ := double_fields s e f h1 h2 h3
  have hlt : floatFraction b < 2 ^ 23 := Nat.mod_lt _ (by decide)
  have hle : floatExponent b < 2 ^ 8 := Nat.mod_lt _ (by decide)
  rw [h4]
  refine ⟨?_, ?_, by rw [g3, h5], g4⟩
  · unfold IsFinite
    rw [g1]
    by_cases h0 : floatExponent b = 0
    · by_cases f0 : floatFraction b = 0
      · have := h8 h0 f0; omega
      · have := h9 h0 f0
        have := (log2_float f0 hlt).1
        omega
    · have := h7 hf h0; omega
  · unfold magnitude floatMagnitude
    rw [g1, g2]
    by_cases h0 : floatExponent b = 0
    · rw [if_pos h0]
      by_cases f0 : floatFraction b = 0
      · obtain ⟨rfl, rfl⟩ := h8 h0 f0
        simp [f0]
      · obtain ⟨he, hfr⟩ := h9 h0 f0
        obtain ⟨l1, l2, l3⟩ := log2_float f0 hlt
        rw [if_neg (by omega), he, hfr]
        generalize floatFraction b = m at *
        generalize m.log2 = k at *
        have e1 : ((2 : ℚ) ^ 52 + (((m - 2 ^ k) * 2 ^ (52 - k) : ℕ) : ℚ)) = m * 2 ^ (52 - k) := by
          have e2 : (2 : ℚ) ^ 52 = 2 ^ k * 2 ^ (52 - k) := by rw [← pow_add]; congr 1; omega
          push_cast [Nat.cast_sub l2]
          rw [e2]
          ring
        rw [e1, ← zpow_natCast, mul_assoc, ← zpow_add₀ (by norm_num)]
        have e3 : ((52 - k : ℕ) : ℤ) + (((k + 874 : ℕ) : ℤ) - 1075) = -149 := by
          rw [Nat.cast_sub (show k ≤ 52 by omega)]
          push_cast
          ring
        rw [e3]
    · obtain ⟨he, hfr⟩ := h7 hf h0
      rw [if_neg h0, if_neg (by omega), he, hfr]
      have e1 : ((floatExponent b + 896 : ℕ) : ℤ) - 1075 = ((floatExponent b : ℤ) - 150) + (-29) := by push_cast; ring
      rw [e1, zpow_add₀ (by norm_num)]
      push_cast
      have : (2 : ℚ) ^ (-29 : ℤ) = 1 / 2 ^ 29 := by norm_num [zpow_neg]
      rw [this]
      ring

/-- ... an infinity as an infinity, and NaN as NaN. -/
theorem C70_float_not_finite (b : Nat) (hf : floatExponent b = 255) :
    (IsInf (widenFloat b) ↔ floatFraction b = 0) ∧ (IsNaN (widenFloat b) ↔ floatFraction b ≠ 0) ∧
      signBit (widenFloat b) = (b / 2 ^ 31 % 2 == 1) ∧ widenFloat b < 2 ^ 64 := by
  obtain ⟨s, e, f, h1, h2, h3, h4, h5, h6, _⟩ := widen_fields b
  obtain ⟨g1, g2, g3, g4⟩ := double_fields s e f h1 h2 h3
  obtain ⟨he, hfr⟩ := h6 hf
  rw [h4]
  unfold IsInf IsNaN
  rw [g1, g2, he, hfr]
  refine ⟨?_, ?_, by rw [← he, ← hfr, g3, h5], by rw [← he, ← hfr]; exact g4⟩
  all_goals
    constructor
    · rintro ⟨_, h⟩
      omega
    · intro h
      exact ⟨rfl, by omega⟩

theorem unified_valid (a : UserArg) (h : ValidUser a) : ValidArg a.unified := by
  induction a with
  | core a => exact h
  | integer t n => exact ⟨(unifyInt_std t).1, unifyInt_holds t h.1 n h.2⟩
  | float b =>
    by_cases hf : floatExponent b = 255
    · exact (C70_float_not_finite b hf).2.2.2
    · exact (C70_float_is_exact b hf).2.2.2
  | text s => exact h
  | chars mem =>
    obtain ⟨h0, h1, h2⟩ := h
    have hp : mem.takeWhile (· ≠ '\x00') <+: mem := List.takeWhile_prefix _
    refine ⟨fun c hc => h1 c (hp.subset hc), lt_of_le_of_lt ?_ h2⟩
    obtain ⟨rest, hr⟩ := hp
    have : (quoted '"' mem).length = (quoted '"' (mem.takeWhile (· ≠ '\x00'))).length + (escape rest).length := by
      conv_lhs => rw [← hr]
      simp [quoted, escape]
      omega
    omega
  | enumerator a ih => exact ih h
  | formatAs a ih => exact ih h
  | ptr addr => exact h
  | nullptr => show 0 < 2 ^ 64; decide

/-- What is formatted as a core type is formatted as that, in any format string and next to any arguments: everything
proved about arguments of core types holds for it. -/
theorem C70_valid (args : List UserArg) (hv : ∀ a ∈ args, ValidUser a) :
    args.map UserArg.farg = fargs (args.map UserArg.unified) ∧ ∀ a ∈ args.map UserArg.unified, ValidArg a := by
  refine ⟨by simp [fargs, UserArg.farg, Function.comp_def], fun a ha => ?_⟩
  obtain ⟨u, hu, rfl⟩ := List.mem_map.1 ha
  exact unified_valid u (hv u hu)

/-- A pointer to characters gives the characters before the first NUL, a string with a length all of its characters. -/
theorem C70_strings (s rest : Str) (h0 : '\x00' ∉ s) (hs : ∀ c ∈ s, c.toNat < 256) (hl : (quoted '"' s).length < 2 ^ 31)
    (all : Str) (ha : ∀ c ∈ all, c.toNat < 256) (hal : (quoted '"' all).length < 2 ^ 31) :
    formatStr "{}".toList [(UserArg.chars (s ++ '\x00' :: rest)).farg] = .ok () s ∧
    formatStr "{}".toList [(UserArg.text all).farg] = .ok () all := by
  have e : (UserArg.chars (s ++ '\x00' :: rest)).farg = (CoreArg.string s).farg := by
    unfold UserArg.farg UserArg.unified
    congr 2
    rw [List.takeWhile_append_of_pos (by intro c hc; simp; rintro rfl; exact h0 hc)]
    simp
  rw [e]
  exact ⟨(C32_precision s hs hl ['0'] (by decide) (by decide)).2, (C32_precision all ha hal ['0'] (by decide) (by decide)).2⟩

/-- A finite float without presentation type and precision is formatted to a literal that reads, as a double, as exactly
the number it is. -/
theorem C70_float_text (b : Nat) (hf : floatExponent b ≠ 255) (t : SpecText) (wf : t.WellFormed) (fits : t.Fits)
    (h : t.type = none ∧ t.prec = none) :
    ∃ literal x d, formatStr ("{:".toList ++ t.text ++ "}".toList) [(UserArg.float b).farg] =
        .ok () (paddedNumber t.meaning (signOf t.meaning (b / 2 ^ 31 % 2 == 1)) literal) ∧
      Denotes literal x ∧ ReadsAs x d ∧ magnitude d = floatMagnitude b := by
  obtain ⟨h1, h2, h3, h4⟩ := C70_float_is_exact b hf
  obtain ⟨literal, x, g1, g2, g3⟩ := C39_round_trip (widenFloat b) h4 h1 t wf fits h
  refine ⟨literal, x, _, ?_, g2, g3, ?_⟩
  · rw [← h3]
    exact g1
  · rw [← h2]
    have e1 : exponentOf (widenFloat b % 2 ^ 63) = exponentOf (widenFloat b) := by unfold exponentOf; omega
    have e2 : fractionOf (widenFloat b % 2 ^ 63) = fractionOf (widenFloat b) := by unfold fractionOf; omega
    unfold magnitude
    rw [e1, e2]

/-- 0.1f; the smallest float; an enumerator; a value formatted as a string; a literal with a NUL in it. -/
example : formatStr "{}".toList [(UserArg.float 0x3DCCCCCD).farg] = .ok () "0.10000000149011612".toList ∧
    formatStr "{}".toList [(UserArg.float 1).farg] = .ok () "1.401298464324817e-45".toList ∧
    formatStr "{:+}".toList [(UserArg.enumerator (.integer ⟨true, 8⟩ 7)).farg] = .ok () "+7".toList ∧
    formatStr "{:>4}".toList [(UserArg.formatAs (.text "ab".toList)).farg] = .ok () "  ab".toList ∧
    formatStr "{}".toList [(UserArg.chars "ab\x00c\x00".toList).farg] = .ok () "ab".toList ∧
    formatStr "{}".toList [UserArg.nullptr.farg] = .ok () "0x0".toList := by decide +kernel

example : ValidUser (.chars "ab\x00c\x00".toList) ∧ ValidUser (.float 0x3DCCCCCD) ∧
    ValidUser (.enumerator (.integer ⟨true, 8⟩ 7)) := by
  refine ⟨⟨by decide, by decide, by decide +kernel⟩, by show _ < _; decide, ?_⟩
  show IntTy.Std _ ∧ IntTy.Holds _ _
  decide

end Emio
