import Mathlib.Data.List.TakeWhile
import Verif.Lemmas.FormatArg
import Verif.Lemmas.Dragon
import Verif.Spec.FloatText
/-
Helper lemmas: how digits and exponent of a floating-point number are laid out.
-/
namespace Emio
open Spec

theorem Emits.lift {α : Type} {m : Pure' α} {a : α} {f : α → Fmt Unit} {text : Str} {k : Nat} (h : Yields m a)
    (hf : Emits (f a) text k) : Emits (liftPure m >>= f) text k := by
  intro ops
  obtain ⟨new, h1, h2⟩ := hf ops
  refine ⟨new, ?_, h2⟩
  have : liftPure m ops = .ok ops a := by
    unfold liftPure
    rw [h]
  rw [M.bind_ok this, h1]

/-- Sign and padding around a number that is written into one area. -/
theorem number_emits {s : Specs} (h : s.Ok) (neg : Bool) {n : Nat} {body : Str} (hn : n = body.length) (hlt : n + 1 < 2 ^ 31)
    {k : Nat} (hk : n + 1 ≤ k) {f : Char → Fmt Unit}
    (hf : ∀ sign, Emits (f sign) (signText sign ++ body) k) :
    Emits (do
      let sign ← tryWriteSign s neg
      writePadded .right s ((if neg || s.sign == ' ' || s.sign == '+' then 1 else 0) + n) (f sign))
      (paddedNumber s (signOf s neg) body) k := by
  have hsl : (signOf s neg).length ≤ 1 := by rw [← signOf_length]; split <;> omega
  rw [signOf_length]
  have hl : (signOf s neg).length + n = (signOf s neg ++ body).length := by rw [List.length_append, hn]
  cases hz : s.zeroFlag with
  | true =>
    obtain ⟨hfill, halign⟩ := h.zero hz
    have e : paddedNumber s (signOf s neg) body =
        signOf s neg ++ (List.replicate (fillCount s ((signOf s neg).length + n)) '0' ++ body) := by
      unfold paddedNumber
      rw [if_pos hz, ← hl, List.append_assoc]
    rw [e]
    refine Emits.bind (a := noChar) ?_ ?_
    · intro ops
      obtain ⟨new, g1, g2, g3, g4⟩ := (sign_emits s neg).1 hz ops
      exact ⟨new, g1, g2, g3, fun op ho => by have := g4 op ho; omega⟩
    · have := writePadded_emits_raw .right (Or.inr rfl) s h ((signOf s neg).length + n) (by omega) (hf noChar)
      rw [halign, hfill] at this
      simpa [surround, signText] using this
  | false =>
    obtain ⟨c, hc1, hc2⟩ := (sign_emits s neg).2 hz
    have e : paddedNumber s (signOf s neg) body = [] ++ padded .right s (signOf s neg ++ body) := by
      unfold paddedNumber
      rw [if_neg (by simp [hz])]
      simp
    rw [e]
    refine Emits.bind (a := c) (fun ops => ⟨[], by simp [hc1], rfl, by simp, by simp⟩) ?_
    refine writePadded_emits .right (Or.inr rfl) s h hl (by omega) ?_
    rw [← hc2]
    exact hf c

theorem writeExponent_eq (x : Int) : writeExponent x = exponentText x := by
  unfold writeExponent exponentText
  simp only [writeDecimal_eq false, List.append_nil]
  generalize (if x < 0 then '-' else '+') = c
  split
  · rw [if_neg (by omega)]; rfl
  · split <;> rfl

theorem exponentText_length {x : Int} (h : x.natAbs < 1000) :
    (exponentText x).length = 1 + (if x.natAbs ≥ 100 then 3 else 2) := by
  unfold exponentText
  generalize x.natAbs = n at *
  have key : ∀ n < 1000, ((if n < 10 then ['0'] else []) ++ numeral false 10 n).length = if n ≥ 100 then 3 else 2 := by
    decide +kernel
  rw [List.length_cons, key n h]
  omega

/-- The digits that are written: the significant ones, and zeros up to the precision. -/
def shownDigits (fp : FpSpecs) (digits : Str) : Str :=
  digits.take (significandSize fp digits).toNat ++
    List.replicate (if fp.showpoint then (fp.precision - significandSize fp digits).toNat else 0) '0'

theorem significandSize_range (fp : FpSpecs) {digits : Str} (h : digits ≠ []) (hn : digits.any (· != '0') ∨ digits.length = 1) :
    1 ≤ significandSize fp digits ∧ significandSize fp digits ≤ digits.length := by
  have hl : 0 < digits.length := List.length_pos_iff.2 h
  unfold significandSize
  split
  · rename_i hc
    have hle : (digits.reverse.takeWhile (· == '0')).length ≤ digits.length := by
      have := (List.takeWhile_sublist (· == '0') (l := digits.reverse)).length_le
      simpa using this
    refine ⟨?_, by omega⟩
    rcases hn with hn | hn
    · by_contra hcon
      have heq : (digits.reverse.takeWhile (· == '0')).length = digits.reverse.length := by
        rw [List.length_reverse]; omega
      have h2 : digits.reverse.takeWhile (· == '0') = digits.reverse :=
        (List.takeWhile_sublist _).eq_of_length heq
      rw [List.any_eq_true] at hn
      obtain ⟨c, hc1, hc2⟩ := hn
      have hc1' : c ∈ digits.reverse := by simpa using hc1
      rw [← h2] at hc1'
      have := List.mem_takeWhile_imp hc1'
      simp at hc2 this
      exact hc2 this
    · omega
  · omega

theorem copyN_yields {input : Str} {off count : Int} (h1 : 0 ≤ off) (h2 : 0 ≤ count) (h3 : off + count ≤ input.length) :
    Yields (copyN input off count) ((input.drop off.toNat).take count.toNat) := by
  unfold copyN
  rw [if_neg (by omega)]
  exact Yields.pure _

theorem fillZeros_yields {count : Int} (h : 0 ≤ count) : Yields (fillZeros count) (List.replicate count.toNat '0') := by
  unfold fillZeros
  rw [if_neg (by omega)]
  exact Yields.pure _

theorem writeSignificand_yields {sig : Str} {size integral : Int} (point : Bool) (h1 : 0 ≤ integral) (h2 : integral ≤ size)
    (h3 : size ≤ sig.length) : Yields (writeSignificand sig size integral point)
      ((sig.take integral.toNat) ++ if point then '.' :: (sig.take size.toNat).drop integral.toNat else []) := by
  unfold writeSignificand
  refine Yields.bind (copyN_yields le_rfl h1 (by omega)) ?_
  cases point with
  | false => simpa using Yields.pure _
  | true =>
    simp only [Bool.not_true, Bool.false_eq_true, if_false]
    refine Yields.bind (copyN_yields h1 (by omega) (by omega)) ?_
    have : (sig.drop integral.toNat).take (size - integral).toNat = (sig.take size.toNat).drop integral.toNat := by
      rw [List.drop_take]
      congr 1
      omega
    rw [this]
    exact Yields.pure _

/-- Exponent notation. -/
theorem writeDecimalExp_emits {s : Specs} (h : s.Ok) {fp : FpSpecs} (neg : Bool) {digits : Str} {x : Int} {size : Int}
    (hsize : significandSize fp digits = size) (h1 : 1 ≤ size) (h2 : size ≤ digits.length)
    (hx : x.natAbs < 1000) {k : Nat} (hk : (scientific fp.upper fp.showpoint (shownDigits fp digits) x).length + 1 ≤ k)
    (hk2 : k < 2 ^ 31) :
    Emits (do
      let sign ← tryWriteSign s neg
      writeDecimalExp s fp digits x (neg || s.sign == ' ' || s.sign == '+') sign)
      (paddedNumber s (signOf s neg) (scientific fp.upper fp.showpoint (shownDigits fp digits) x)) k := by
  unfold writeDecimalExp
  simp only [hsize]
  generalize hz : (if fp.showpoint = true then (if fp.precision - size < 0 then 0 else fp.precision - size) else 0 : Int) = zeros
  have hz0 : 0 ≤ zeros := by rw [← hz]; split <;> [split; skip] <;> omega
  have hshown : shownDigits fp digits = digits.take size.toNat ++ List.replicate zeros.toNat '0' := by
    unfold shownDigits
    rw [hsize]
    congr 2
    rw [← hz]
    split <;> [split; skip] <;> omega
  have hzs : fp.showpoint = false → zeros = 0 := by
    intro hc
    rw [← hz, hc]
    simp
  have hbody : digits.take 1 ++ (if (!(!fp.showpoint && decide (size = 1))) = true then '.' :: (digits.take size.toNat).drop 1 else []) ++
      List.replicate zeros.toNat '0' ++ (if fp.upper then 'E' else 'e') :: writeExponent x =
      scientific fp.upper fp.showpoint (shownDigits fp digits) x := by
    rw [writeExponent_eq, hshown]
    unfold scientific
    obtain ⟨c, ds, rfl⟩ : ∃ c ds, digits = c :: ds := by
      cases digits with
      | nil => simp at h2; omega
      | cons c ds => exact ⟨c, ds, rfl⟩
    obtain ⟨m, hm⟩ : ∃ m, size.toNat = m + 1 := ⟨size.toNat - 1, by omega⟩
    rw [hm]
    simp only [List.take_succ_cons, List.take_zero, List.drop_succ_cons, List.drop_zero, List.cons_append, List.nil_append]
    congr 1
    cases hsp : fp.showpoint with
    | true => simp
    | false =>
      rw [hzs hsp]
      by_cases h1' : size = 1
      · have : m = 0 := by omega
        subst this
        simp [h1']
      · have hm0 : m ≠ 0 := by omega
        have hds : ds ≠ [] := by
          rintro rfl
          simp at h2
          omega
        have hl : 0 < ds.length := List.length_pos_iff.2 hds
        rw [if_pos (by simp [h1']), if_pos (Or.inr (by simp; omega))]
        simp
  have hlen : size.toNat + zeros.toNat + (if (!(!fp.showpoint && decide (size = 1))) = true then 1 else 0) + 2 +
      (if x.natAbs ≥ 100 then 3 else 2) = (scientific fp.upper fp.showpoint (shownDigits fp digits) x).length := by
    rw [← hbody, writeExponent_eq]
    simp only [List.length_append, List.length_cons, exponentText_length hx, List.length_replicate, List.length_take]
    split
    · simp only [List.length_cons, List.length_drop, List.length_take]
      omega
    · rename_i hc
      simp at hc
      simp only [List.length_nil]
      omega
  rw [hlen]
  refine number_emits h neg rfl (by omega) hk ?_
  intro sign
  refine Emits.lift (writeSignificand_yields _ (by omega) h1 h2) ?_
  refine Emits.lift (fillZeros_yields hz0) ?_
  have e : signText sign ++ (digits.take (1 : Int).toNat ++ if (!(!fp.showpoint && decide (size = 1))) = true then
      '.' :: (digits.take size.toNat).drop (1 : Int).toNat else []) ++ List.replicate zeros.toNat '0' ++
      (if fp.upper then 'E' else 'e') :: writeExponent x =
      signText sign ++ scientific fp.upper fp.showpoint (shownDigits fp digits) x := by
    rw [← hbody]
    simp [List.append_assoc]
  rw [e]
  rw [signText_length]
  have := emit_emits (.area ((scientific fp.upper fp.showpoint (shownDigits fp digits) x).length + (signText sign).length)
    (signText sign ++ scientific fp.upper fp.showpoint (shownDigits fp digits) x)) (by simp [WOp.Fine]; omega)
  refine this.mono ?_
  have hs1 : (signText sign).length ≤ 1 := by rw [← signText_length]; split <;> omega
  simp only [WOp.need]
  omega

/-- Notation without exponent. -/
theorem writeDecimalFixed_emits {s : Specs} (h : s.Ok) {fp : FpSpecs} (neg : Bool) {digits body : Str} {x : Int} {size : Int}
    (hsize : significandSize fp digits = size)
    (hy : Yields (fixedText (fixedLayout s fp size x) digits size x) body)
    (hl : (fixedLayout s fp size x).numDigits = body.length)
    {k : Nat} (hk : body.length + 1 ≤ k) (hk2 : k < 2 ^ 31) :
    Emits (do
      let sign ← tryWriteSign s neg
      writeDecimalFixed s fp digits x (neg || s.sign == ' ' || s.sign == '+') sign)
      (paddedNumber s (signOf s neg) body) k := by
  unfold writeDecimalFixed
  simp only [hsize, hl, Int.toNat_natCast]
  refine number_emits h neg rfl (by omega) hk ?_
  intro sign
  refine Emits.lift hy ?_
  rw [signText_length]
  refine (emit_emits (.area (body.length + (signText sign).length) (signText sign ++ body)) (by simp [WOp.Fine]; omega)).mono ?_
  have hs1 : (signText sign).length ≤ 1 := by rw [← signText_length]; split <;> omega
  simp only [WOp.need]
  omega

theorem clamp (z : Int) : (if z < 0 then 0 else z) = (z.toNat : Int) := by split <;> omega

/-- The layout of the general format. -/
theorem fixedText_general {s : Specs} {fp : FpSpecs} {digits : Str} {x size : Int} (hg : fp.format = .general)
    (hsp : fp.showpoint = s.alternateForm) (hsize : significandSize fp digits = size) (h1 : 1 ≤ size)
    (h2 : size ≤ digits.length) :
    Yields (fixedText (fixedLayout s fp size x) digits size x) (positional s.alternateForm (shownDigits fp digits) x) ∧
      (fixedLayout s fp size x).numDigits = (positional s.alternateForm (shownDigits fp digits) x).length := by
  unfold shownDigits
  rw [hsize, hsp]
  generalize hz : (if s.alternateForm = true then (fp.precision - size).toNat else 0 : ℕ) = zs
  have hzf : s.alternateForm = false → zs = 0 := by
    intro hc
    rw [← hz, hc]
    simp
  have hzt : s.alternateForm = true → zs = (fp.precision - size).toNat := by
    intro hc
    rw [← hz, hc]
    simp
  have htl : (digits.take size.toNat).length = size.toNat := by rw [List.length_take]; omega
  have hag : (s.alternateForm && decide (fp.format = FpFormat.general)) = s.alternateForm := by rw [hg]; simp
  have hnf : ¬ fp.format = FpFormat.fixed := by rw [hg]; decide
  unfold fixedLayout fixedText positional
  simp only [hag, hsp, clamp]
  have e2 : (if s.alternateForm = true then fp.precision - size else 0).toNat = zs := by
    rw [← hz]; split <;> rfl
  by_cases hx : x < 0
  · have hxn : (x.natAbs : Int) = -x := by omega
    simp only [if_pos hx, if_true]
    refine ⟨?_, ?_⟩
    · refine Yields.bind (fillZeros_yields (Int.natCast_nonneg _)) ?_
      refine Yields.bind (copyN_yields le_rfl (by omega) (by omega)) ?_
      refine Yields.bind (fillZeros_yields (Int.natCast_nonneg _)) ?_
      rw [hxn, e2, Int.toNat_natCast, Int.toNat_natCast]
      have : Yields (pure ('0' :: '.' :: (List.replicate (-x - 1).toNat '0' ++ List.take size.toNat (List.drop (0 : Int).toNat digits) ++
        List.replicate zs '0')) : Pure' Str) _ := Yields.pure _
      simpa [List.append_assoc] using this
    · simp only [List.length_cons, List.length_append, List.length_replicate, htl, hxn, e2]
      omega
  · simp only [if_neg hx]
    by_cases hge : x + 1 ≥ size
    · simp only [if_pos hge]
      have et : List.take (x + 1).toNat (List.take size.toNat digits ++ List.replicate zs '0') =
          List.take size.toNat digits ++ List.replicate (min ((x + 1).toNat - size.toNat) zs) '0' := by
        rw [List.take_append, List.take_of_length_le (by rw [htl]; omega), htl, List.take_replicate]
      have ed : List.drop (x + 1).toNat (List.take size.toNat digits ++ List.replicate zs '0') =
          List.replicate (zs - ((x + 1).toNat - size.toNat)) '0' := by
        rw [List.drop_append, List.drop_eq_nil_of_le (by rw [htl]; omega), htl, List.drop_replicate, List.nil_append]
      have hl : (List.take size.toNat digits ++ List.replicate zs '0').length = size.toNat + zs := by
        rw [List.length_append, htl, List.length_replicate]
      rw [et, ed, hl]
      cases ha : s.alternateForm
      · have hz0 := hzf ha
        simp only [Bool.false_eq_true, if_false, false_or]
        rw [if_neg (by omega)]
        refine ⟨?_, ?_⟩
        · refine Yields.bind (copyN_yields le_rfl (by omega) (by omega)) ?_
          refine Yields.bind (fillZeros_yields (Int.natCast_nonneg _)) ?_
          rw [hz0, Int.toNat_natCast]
          have : (x - size + 1).toNat = (x + 1).toNat - (size.toNat + 0) := by omega
          rw [this]
          have : Yields (pure (List.take size.toNat (List.drop (0 : Int).toNat digits) ++
            List.replicate ((x + 1).toNat - (size.toNat + 0)) '0') : Pure' Str) _ := Yields.pure _
          simpa [List.append_assoc] using this
        · simp only [List.length_append, htl, List.length_replicate, List.length_nil, hz0]
          omega
      · have hz0 := hzt ha
        simp only [if_true, true_or]
        have e3 : (fp.precision - size - (x - size + 1)).toNat = zs - ((x + 1).toNat - size.toNat) := by omega
        refine ⟨?_, ?_⟩
        · refine Yields.bind (copyN_yields le_rfl (by omega) (by omega)) ?_
          refine Yields.bind (fillZeros_yields (Int.natCast_nonneg _)) ?_
          refine Yields.bind (fillZeros_yields (Int.natCast_nonneg _)) ?_
          rw [e3, Int.toNat_natCast, Int.toNat_natCast]
          have e4 : List.replicate (x - size + 1).toNat '0' = List.replicate (min ((x + 1).toNat - size.toNat) zs) '0' ++
              List.replicate ((x + 1).toNat - (size.toNat + zs)) '0' := by
            rw [List.replicate_append_replicate]
            congr 1
            omega
          rw [e4]
          have : Yields (pure (List.take size.toNat (List.drop (0 : Int).toNat digits) ++
            (List.replicate (min ((x + 1).toNat - size.toNat) zs) '0' ++
              List.replicate ((x + 1).toNat - (size.toNat + zs)) '0') ++ '.' ::
            List.replicate (zs - ((x + 1).toNat - size.toNat)) '0') : Pure' Str) _ := Yields.pure _
          simpa [List.append_assoc] using this
        · simp only [List.length_append, htl, List.length_replicate, List.length_cons, e3]
          omega
    · simp only [if_neg hge]
      have et : List.take (x + 1).toNat (List.take size.toNat digits ++ List.replicate zs '0') =
          List.take (x + 1).toNat digits := by
        rw [List.take_append, htl, List.take_take, show (x + 1).toNat - size.toNat = 0 by omega, List.take_zero,
          List.append_nil, show min (x + 1).toNat size.toNat = (x + 1).toNat by omega]
      have ed : List.drop (x + 1).toNat (List.take size.toNat digits ++ List.replicate zs '0') =
          List.drop (x + 1).toNat (List.take size.toNat digits) ++ List.replicate zs '0' := by
        rw [List.drop_append, htl, show (x + 1).toNat - size.toNat = 0 by omega, List.drop_zero]
      have hl : (List.take size.toNat digits ++ List.replicate zs '0').length = size.toNat + zs := by
        rw [List.length_append, htl, List.length_replicate]
      rw [et, ed, hl, if_pos (Or.inr (by omega))]
      rw [if_neg (show ¬ (fp.format = FpFormat.fixed ∧ size > x + 1 ∧ size - (x + 1) < fp.precision) by tauto)]
      rw [e2]
      refine ⟨?_, ?_⟩
      · refine Yields.bind (writeSignificand_yields _ (by omega) (by omega) h2) ?_
        refine Yields.bind (fillZeros_yields (Int.natCast_nonneg _)) ?_
        rw [show (x + 1).toNat - (size.toNat + zs) = 0 by omega]
        rw [Int.toNat_natCast]
        have : Yields (pure (List.take (x + 1).toNat digits ++ (if true = true then '.' :: List.drop (x + 1).toNat (List.take size.toNat digits)
          else []) ++ List.replicate zs '0') : Pure' Str) _ := Yields.pure _
        simpa [List.append_assoc] using this
      · simp only [List.length_append, htl, List.length_replicate, List.length_cons, List.length_take, List.length_drop]
        simp
        omega

/-- The layout of the fixed format. -/
def fixedBody (fp : FpSpecs) (digits : Str) (x : Int) : Str :=
  if x < 0 then '0' :: '.' :: (List.replicate (-x - 1).toNat '0' ++ digits)
  else if x + 1 ≥ digits.length then
    digits ++ List.replicate (x + 1 - digits.length).toNat '0' ++
      (if fp.showpoint then '.' :: List.replicate (if x + 1 = digits.length then fp.precision.toNat else 0) '0' else [])
  else digits.take (x + 1).toNat ++ '.' :: (digits.drop (x + 1).toNat ++
    List.replicate (fp.precision - (digits.length - (x + 1))).toNat '0')

theorem fixedText_fixed {s : Specs} {fp : FpSpecs} {digits : Str} {x : Int} (hg : fp.format = .fixed) (hp : 0 ≤ fp.precision) :
    Yields (fixedText (fixedLayout s fp digits.length x) digits digits.length x) (fixedBody fp digits x) ∧
      (fixedLayout s fp digits.length x).numDigits = (fixedBody fp digits x).length := by
  have hag : (s.alternateForm && decide (fp.format = FpFormat.general)) = false := by rw [hg]; simp
  unfold fixedLayout fixedText fixedBody
  simp only [hag, clamp]
  by_cases hx : x < 0
  · have hxn : (x.natAbs : Int) = -x := by omega
    simp only [if_pos hx, if_true, Bool.false_eq_true, if_false]
    refine ⟨?_, ?_⟩
    · refine Yields.bind (fillZeros_yields (Int.natCast_nonneg _)) ?_
      refine Yields.bind (copyN_yields le_rfl (by omega) (by omega)) ?_
      refine Yields.bind (fillZeros_yields (Int.natCast_nonneg _)) ?_
      rw [hxn, Int.toNat_natCast]
      have : Yields (pure ('0' :: '.' :: (List.replicate (-x - 1).toNat '0' ++ List.take (digits.length : Int).toNat (List.drop (0 : Int).toNat digits) ++
        List.replicate (0 : Int).toNat '0')) : Pure' Str) _ := Yields.pure _
      simpa [List.append_assoc] using this
    · simp only [List.length_cons, List.length_append, List.length_replicate, hxn]
      omega
  · simp only [if_neg hx, Bool.false_eq_true, if_false]
    by_cases hge : x + 1 ≥ digits.length
    · simp only [if_pos hge]
      have ez : x - digits.length + 1 = x + 1 - digits.length := by omega
      simp only [ez]
      cases hsp : fp.showpoint
      · simp only [Bool.false_eq_true, if_false]
        refine ⟨?_, ?_⟩
        · refine Yields.bind (copyN_yields le_rfl (by omega) (by omega)) ?_
          refine Yields.bind (fillZeros_yields (Int.natCast_nonneg _)) ?_
          rw [Int.toNat_natCast]
          have : Yields (pure (List.take (digits.length : Int).toNat (List.drop (0 : Int).toNat digits) ++
            List.replicate (x + 1 - digits.length).toNat '0') : Pure' Str) _ := Yields.pure _
          simpa [List.append_assoc] using this
        · simp only [List.length_append, List.length_replicate, List.length_nil]
          omega
      · simp only [if_true]
        have e3 : (if x + 1 - (digits.length : Int) = 0 then fp.precision else 0).toNat =
            if x + 1 = digits.length then fp.precision.toNat else 0 := by
          by_cases hc : x + 1 = digits.length
          · rw [if_pos (by omega), if_pos hc]
          · rw [if_neg (by omega), if_neg hc]; rfl
        refine ⟨?_, ?_⟩
        · refine Yields.bind (copyN_yields le_rfl (by omega) (by omega)) ?_
          refine Yields.bind (fillZeros_yields (Int.natCast_nonneg _)) ?_
          refine Yields.bind (fillZeros_yields (Int.natCast_nonneg _)) ?_
          simp only [e3, Int.toNat_natCast]
          have : Yields (pure (List.take (digits.length : Int).toNat (List.drop (0 : Int).toNat digits) ++
            List.replicate (x + 1 - digits.length).toNat '0' ++ '.' ::
            List.replicate (if x + 1 = digits.length then fp.precision.toNat else 0) '0') : Pure' Str) _ := Yields.pure _
          simpa [List.append_assoc] using this
        · simp only [List.length_append, List.length_replicate, List.length_cons, e3]
          omega
    · simp only [if_neg hge]
      have e2 : (if fp.format = FpFormat.fixed ∧ (digits.length : Int) > x + 1 ∧ digits.length - (x + 1) < fp.precision then
          fp.precision - (digits.length - (x + 1)) else 0).toNat = (fp.precision - (digits.length - (x + 1))).toNat := by
        by_cases hc : (digits.length : Int) - (x + 1) < fp.precision
        · rw [if_pos ⟨hg, by omega, hc⟩]
        · rw [if_neg (by tauto)]
          omega
      rw [e2]
      refine ⟨?_, ?_⟩
      · refine Yields.bind (writeSignificand_yields _ (by omega) (by omega) le_rfl) ?_
        refine Yields.bind (fillZeros_yields (Int.natCast_nonneg _)) ?_
        have : Yields (pure (List.take (x + 1).toNat digits ++ (if true = true then '.' :: List.drop (x + 1).toNat (List.take (digits.length : Int).toNat digits)
          else []) ++ List.replicate (fp.precision - (digits.length - (x + 1))).toNat '0') : Pure' Str) _ := Yields.pure _
        simp only [Int.toNat_natCast]
        simpa [List.append_assoc] using this
      · simp only [List.length_append, List.length_replicate, List.length_cons, List.length_take, List.length_drop]
        simp
        omega

end Emio
