import Verif.Props.Float
import Verif.Props.Order
import Verif.Spec.General
/-
Property C92: general notation is fixed or exponent notation, depending on the exponent, without zeros at the end.
-/
namespace Emio
open Spec

theorem trimmed_point (a b : Str) (j : ℕ) (h : ∀ c, b.getLast? = some c → c ≠ '0' ∧ c ≠ '.') :
    trimmed (a ++ '.' :: (b ++ List.replicate j '0')) = a ++ (if b = [] then [] else '.' :: b) := by
  have hr : (a ++ '.' :: (b ++ List.replicate j '0')).reverse = List.replicate j '0' ++ (b.reverse ++ '.' :: a.reverse) := by
    simp
  have hd : ∀ l : Str, (List.replicate j '0' ++ l).dropWhile (· == '0') = l.dropWhile (· == '0') := by
    intro l
    induction j with
    | zero => rfl
    | succ j ih => rw [List.replicate_succ, List.cons_append, List.dropWhile_cons_of_pos (by rfl)]; exact ih (by simp)
  unfold trimmed
  rw [if_pos (by simp)]
  simp only [hr, hd]
  rcases List.eq_nil_or_concat b with rfl | ⟨b', c, rfl⟩
  · simp
  · obtain ⟨h1, h2⟩ := h c (by simp)
    simp [h1, h2]

theorem trimmed_plain {s : Str} (h : '.' ∉ s) : trimmed s = s := by
  unfold trimmed
  rw [if_neg h]

/-- What is dropped are zeros, and what is left ends with another digit unless it is a zero alone. -/
theorem dropZeros_split {digits : Str} (h0 : digits ≠ []) :
    digits = dropZeros digits ++ List.replicate (digits.length - (dropZeros digits).length) '0' ∧
    dropZeros digits ≠ [] ∧ (dropZeros digits = ['0'] ∨ ∀ c, (dropZeros digits).getLast? = some c → c ≠ '0') := by
  unfold dropZeros
  split
  · rename_i h
    rw [List.all_eq_true] at h
    have e : digits = List.replicate digits.length '0' := by
      rw [List.eq_replicate_iff]
      exact ⟨rfl, fun c hc => by simpa using h c hc⟩
    refine ⟨?_, by simp, Or.inl rfl⟩
    have hl : digits.length = (digits.length - 1) + 1 := by
      have := List.length_pos_iff.2 h0
      omega
    conv_lhs => rw [e, hl, List.replicate_succ]
    simp
  · rename_i h
    have hs := take_dropZeros digits
    have hz := takeWhile_zeros digits
    have happ := List.takeWhile_append_dropWhile (p := (· == '0')) (l := digits.reverse)
    have hlen : (digits.reverse.takeWhile (· == '0')).length + (digits.reverse.dropWhile (· == '0')).length = digits.length := by
      have := congrArg List.length happ
      rwa [List.length_append, List.length_reverse] at this
    have happ' := congrArg List.reverse happ
    rw [List.reverse_append, List.reverse_reverse] at happ'
    have hne : digits.reverse.dropWhile (· == '0') ≠ [] := by
      intro hn
      apply h
      rw [List.all_eq_true]
      intro c hc
      rw [hn, List.append_nil] at happ
      have hc' : c ∈ digits.reverse.takeWhile (· == '0') := by rw [happ]; simpa using hc
      have := List.mem_takeWhile_imp (p := (· == '0')) hc'
      exact this
    refine ⟨?_, by simpa using hne, Or.inr fun c hc => ?_⟩
    · conv_lhs => rw [← happ', hz, List.reverse_replicate]
      rw [List.length_reverse, ← hlen, Nat.add_sub_cancel]
    · rw [List.getLast?_reverse] at hc
      have := List.head?_dropWhile_not (· == '0') digits.reverse
      rw [hc] at this
      simpa using this

theorem digit_not_point {s : Str} (h : ∀ c ∈ s, c.isDigit = true) : '.' ∉ s := fun hc => by
  have := h _ hc
  revert this
  decide

theorem trimmed_positional {digits : Str} (h : ∀ c ∈ digits, c.isDigit = true) {x : ℤ} (hx : x < digits.length)
    (hz : x < 0 → ∃ c ∈ digits, c ≠ '0') : trimmed (positional false digits x) = positional false (dropZeros digits) x := by
  have h0 : digits ≠ [] := by
    rintro rfl
    obtain ⟨c, hc, _⟩ := hz (by simpa using hx)
    simp at hc
  obtain ⟨e, d0, dl⟩ := dropZeros_split h0
  have hd : ∀ c ∈ dropZeros digits, c.isDigit = true := fun c hc => h c (by rw [e]; simp [hc])
  generalize hj : digits.length - (dropZeros digits).length = j at e
  have hlen : digits.length = (dropZeros digits).length + j := by
    have := congrArg List.length e
    simpa using this
  have hall : dropZeros digits = ['0'] → ∀ c ∈ digits, c = '0' := by
    intro hd0 c hc
    rw [e, hd0] at hc
    simp at hc
    rcases hc with hc | ⟨_, hc⟩ <;> exact hc
  generalize dropZeros digits = d at *
  have last_ok : d ≠ ['0'] → ∀ b, b ≠ [] → (∃ a, d = a ++ b) → ∀ c, b.getLast? = some c → c ≠ '0' ∧ c ≠ '.' := by
    rintro hd0 b hb ⟨a, rfl⟩ c hc
    have hl : (a ++ b).getLast? = some c := by rw [List.getLast?_append, hc]; rfl
    refine ⟨(dl.resolve_left hd0) c hl, ?_⟩
    rintro rfl
    exact digit_not_point hd (List.mem_of_getLast? hl)
  unfold positional
  split
  · rename_i hneg
    obtain ⟨c, hc, hc0⟩ := hz hneg
    have hd0 : d ≠ ['0'] := fun hd0 => hc0 (hall hd0 c hc)
    have hb : ∀ c, (List.replicate (-x - 1).toNat '0' ++ d).getLast? = some c → c ≠ '0' ∧ c ≠ '.' := by
      intro c hc
      refine last_ok hd0 d d0 ⟨[], rfl⟩ c ?_
      rw [List.getLast?_append] at hc
      rcases hdl : d.getLast? with _ | y
      · exact absurd (List.getLast?_eq_none_iff.1 hdl) d0
      · rw [hdl] at hc; exact hc
    have := trimmed_point ['0'] (List.replicate (-x - 1).toNat '0' ++ d) j hb
    rw [if_neg (by simp [d0])] at this
    rw [e]
    simpa using this
  · rename_i hnn
    simp only [Bool.false_eq_true, false_or]
    obtain ⟨k, hk⟩ : ∃ k : ℕ, (x + 1).toNat = k + 1 := ⟨x.toNat, by omega⟩
    have hkn : k + 1 ≤ digits.length := by omega
    rw [hk]
    rw [show k + 1 - digits.length = 0 by omega, List.replicate_zero, List.append_nil]
    by_cases hkl : k + 1 < digits.length
    · rw [if_pos hkl]
      by_cases hkd : k + 1 < d.length
      · rw [if_pos hkd, show k + 1 - d.length = 0 by omega, List.replicate_zero, List.append_nil]
        have hd0 : d ≠ ['0'] := by rintro rfl; simp at hkd
        have hb0 : d.drop (k + 1) ≠ [] := by
          intro hh
          have := congrArg List.length hh
          simp at this
          omega
        have := trimmed_point (d.take (k + 1)) (d.drop (k + 1)) j
          (last_ok hd0 _ hb0 ⟨d.take (k + 1), (List.take_append_drop _ _).symm⟩)
        rw [if_neg hb0] at this
        rw [e, List.take_append_of_le_length (by omega), List.drop_append_of_le_length (by omega)]
        exact this
      · rw [if_neg hkd, List.append_nil]
        have e1 : digits.drop (k + 1) = List.replicate (digits.length - (k + 1)) '0' := by
          conv_lhs => rw [e]
          rw [List.drop_append, List.drop_of_length_le (by omega), List.nil_append, List.drop_replicate]
          congr 1
          omega
        have e2 : digits.take (k + 1) = d.take (k + 1) ++ List.replicate (k + 1 - d.length) '0' := by
          conv_lhs => rw [e]
          rw [List.take_append, List.take_replicate]
          congr 2
          omega
        have := trimmed_point (digits.take (k + 1)) [] (digits.length - (k + 1)) (by simp)
        rw [e1]
        simpa [e2] using this
    · rw [if_neg hkl, if_neg (by omega), List.append_nil, List.append_nil]
      have hk' : k + 1 = digits.length := by omega
      rw [hk', List.take_length, trimmed_plain (digit_not_point h), List.take_of_length_le (by omega)]
      conv_lhs => rw [e]
      rw [hlen, Nat.add_sub_cancel_left]

theorem trimmed_mantissa {digits : Str} (h : ∀ c ∈ digits, c.isDigit = true) (h0 : digits ≠ []) :
    trimmed (mantissa false digits) = mantissa false (dropZeros digits) := by
  have e : ∀ ds : Str, ds ≠ [] → mantissa false ds = positional false ds 0 := by
    intro ds hds
    unfold mantissa positional
    rw [if_neg (show ¬ (0 : ℤ) < 0 by decide)]
    have : 1 - ds.length = 0 := by have := List.length_pos_iff.2 hds; omega
    simp [this]
  rw [e _ h0, e _ (dropZeros_split h0).2.1]
  exact trimmed_positional h (by have := List.length_pos_iff.2 h0; omega) (by simp)

theorem scientific_mantissa (upper point : Bool) (digits : Str) (x : ℤ) :
    scientific upper point digits x = mantissa point digits ++ (if upper then 'E' else 'e') :: exponentText x := rfl

/-- Rounding to `n` significant digits is rounding to a number of decimals, if the number then has a place for each of them. -/
theorem round_decimals {n : ℕ} (hn : 1 ≤ n) {v : ℚ} (hv : 0 ≤ v) (hx : (roundSignificant n v).2 < n) :
    roundHalfEven (v * 10 ^ ((n : ℤ) - 1 - (roundSignificant n v).2).toNat) = (roundSignificant n v).1 := by
  have hz : ∀ q : ℤ, 0 ≤ q → (10 : ℚ) ^ q.toNat = (10 : ℚ) ^ q := by
    intro q hq
    rw [← zpow_natCast, Int.toNat_of_nonneg hq]
  rw [hz _ (by omega)]
  unfold roundSignificant at *
  by_cases h0 : v = 0
  · simp only [if_pos h0]
    rw [h0, zero_mul]
    exact roundHalfEven_zero le_rfl (by norm_num)
  · simp only [if_neg h0] at *
    have hpos : 0 < v := lt_of_le_of_ne hv (Ne.symm h0)
    have a : (10 : ℚ) ^ (Int.log 10 v) ≤ v := by exact_mod_cast Int.zpow_log_le_self (b := 10) (by decide) hpos
    have b : v < (10 : ℚ) ^ (Int.log 10 v + 1) := by exact_mod_cast Int.lt_zpow_succ_log_self (b := 10) (by decide) v
    obtain ⟨_, u2⟩ := unit_range (v := v) (k := Int.log 10 v + 1) n (by simpa using a) b
    rw [show (n : ℤ) - (Int.log 10 v + 1) = n - 1 - Int.log 10 v by ring] at u2
    split
    · rename_i hd
      simp only
      have e : v * (10 : ℚ) ^ ((n : ℤ) - 1 - (Int.log 10 v + 1)) = v * (10 : ℚ) ^ ((n : ℤ) - 1 - Int.log 10 v) / 10 := by
        rw [show (n : ℤ) - 1 - (Int.log 10 v + 1) = (n : ℤ) - 1 - Int.log 10 v - 1 by ring, zpow_sub₀ (by norm_num)]
        rw [zpow_one, mul_div_assoc]
      rw [e]
      generalize hy : v * (10 : ℚ) ^ ((n : ℤ) - 1 - Int.log 10 v) = y at *
      have hy0 : 0 ≤ y := by rw [← hy]; positivity
      have near := roundHalfEven_near hy0
      rw [hd, abs_le] at near
      push_cast at near
      obtain ⟨m, rfl⟩ : ∃ m, n = m + 1 := ⟨n - 1, by omega⟩
      rw [Nat.add_sub_cancel]
      rw [pow_succ] at near u2
      have up : roundHalfEven (y / 10) ≤ 10 ^ m := roundHalfEven_le (by positivity) (by push_cast; linarith)
      have near' := roundHalfEven_near (x := y / 10) (by positivity)
      rw [abs_le] at near'
      have lo : 10 ^ m ≤ roundHalfEven (y / 10) := by
        by_contra hlt
        have : roundHalfEven (y / 10) + 1 ≤ 10 ^ m := by omega
        have : ((roundHalfEven (y / 10) + 1 : ℕ) : ℚ) ≤ ((10 ^ m : ℕ) : ℚ) := by exact_mod_cast this
        push_cast at this
        linarith
      omega
    · rfl

theorem fixed_positional {n : ℕ} (hn : 1 ≤ n) {v : ℚ} (hv : 0 ≤ v) (hx : (roundSignificant n v).2 < n) (alt : Bool) :
    fixedPoint ((n : ℤ) - 1 - (roundSignificant n v).2).toNat alt v =
      positional alt (lastDigits n (roundSignificant n v).1) (roundSignificant n v).2 := by
  obtain ⟨_, g2, g3⟩ := roundSignificant_value hn hv
  rw [fixedPoint_eq, round_decimals hn hv hx]
  have hzero : v = 0 → (roundSignificant n v) = (0, 0) := fun h => by unfold roundSignificant; rw [if_pos h]
  generalize roundSignificant n v = r at *
  obtain ⟨D, x⟩ := r
  simp only at *
  by_cases hneg : x < 0
  · have hp : 0 < 10 ^ ((n : ℤ) - 1 - x).toNat := by positivity
    have hq : n ≤ ((n : ℤ) - 1 - x).toNat := by omega
    have hlt : D < 10 ^ ((n : ℤ) - 1 - x).toNat := lt_of_lt_of_le g2 (Nat.pow_le_pow_right (by decide) hq)
    unfold positional
    rw [if_pos hneg, Nat.div_eq_of_lt hlt, if_pos (Or.inr (by omega))]
    obtain ⟨a, ha⟩ : ∃ a, ((n : ℤ) - 1 - x).toNat = a + n := ⟨((n : ℤ) - 1 - x).toNat - n, by omega⟩
    rw [ha, replicate_zero_digits g2, show (-x - 1).toNat = a by omega]
    rfl
  · unfold positional
    rw [if_neg hneg]
    obtain ⟨k, hk⟩ : ∃ k : ℕ, x = k := ⟨x.toNat, by omega⟩
    subst hk
    have hq : ((n : ℤ) - 1 - k).toNat = n - (k + 1) := by omega
    have hkn : k + 1 ≤ n := by omega
    rw [hq]
    simp only
    rw [show ((k : ℤ) + 1).toNat = k + 1 by omega, lastDigits_length, show k + 1 - n = 0 by omega, List.replicate_zero,
      List.append_nil]
    have hs : lastDigits n D = lastDigits (k + 1) (D / 10 ^ (n - (k + 1))) ++ lastDigits (n - (k + 1)) D := by
      rw [← lastDigits_append]; congr 1; omega
    have ht : (lastDigits n D).take (k + 1) = lastDigits (k + 1) (D / 10 ^ (n - (k + 1))) := by
      rw [hs, List.take_left' (lastDigits_length _ _)]
    have hd : (lastDigits n D).drop (k + 1) = lastDigits (n - (k + 1)) D := by
      rw [hs, List.drop_left' (lastDigits_length _ _)]
    rw [ht, hd]
    have hnum : numeral false 10 (D / 10 ^ (n - (k + 1))) = lastDigits (k + 1) (D / 10 ^ (n - (k + 1))) := by
      have hpos : 0 < 10 ^ (n - (k + 1)) := by positivity
      refine numeral_lastDigits k _ ?_ ?_
      · by_cases h0 : v = 0
        · right
          have := hzero h0
          simp only [Prod.mk.injEq, Nat.cast_eq_zero] at this
          refine ⟨by omega, ?_⟩
          rw [this.1]; simp
        · left
          rw [Nat.le_div_iff_mul_le hpos, ← pow_add, show k + (n - (k + 1)) = n - 1 by omega]
          exact g3 h0
      · rw [Nat.div_lt_iff_lt_mul hpos, ← pow_add, show k + 1 + (n - (k + 1)) = n by omega]
        exact g2
    rw [hnum]
    congr 1
    have : (n - (k + 1) ≠ 0) ↔ k + 1 < n := by omega
    simp only [this]

/-- C92: with type `g`, or without a type but with a precision, a finite double is written with p significant digits (at least
one; 6 if there is no precision), in fixed notation if the exponent is at least -4 and less than p, with exponent
otherwise; zeros at the end are dropped unless the alternate form is asked for (see `generalText`).  The exponent is the one
that type `e` with as many digits shows. -/
theorem C92_general_notation (bits : Nat) (hb : bits < 2 ^ 64) (hf : IsFinite bits) (t : SpecText)
    (wf : t.WellFormed) (fits : t.Fits) (hal : CoreTy.Allows .double t)
    (hg : t.type = some 'g' ∨ t.type = some 'G' ∨ (t.type = none ∧ t.prec ≠ none)) :
    ∃ (D : ℕ) (x : ℤ), D < 10 ^ max (precisionOf t.meaning) 1 ∧
      (magnitude bits ≠ 0 → 10 ^ (max (precisionOf t.meaning) 1 - 1) ≤ D) ∧ (magnitude bits = 0 → x = 0) ∧
      D * (10 : ℚ) ^ (x + 1 - (max (precisionOf t.meaning) 1 : ℕ)) =
        roundDigits (max (precisionOf t.meaning) 1) (magnitude bits) ∧
      formatStr ("{:".toList ++ t.text ++ "}".toList) [(CoreArg.double bits).farg] =
        .ok () (paddedNumber t.meaning (signOf t.meaning (signBit bits))
          (generalText (t.type == some 'G') t.alt (max (precisionOf t.meaning) 1) D x (magnitude bits))) ∧
      ∀ e : SpecText, e.WellFormed → e.Fits → CoreTy.Allows .double e → e.type = some 'e' →
        precisionOf e.meaning + 1 = max (precisionOf t.meaning) 1 →
        formatStr ("{:".toList ++ e.text ++ "}".toList) [(CoreArg.double bits).farg] =
          .ok () (paddedNumber e.meaning (signOf e.meaning (signBit bits))
            (scientific false e.alt (lastDigits (max (precisionOf t.meaning) 1) D) x)) := by
  have hm0 : 0 ≤ magnitude bits := by unfold magnitude; split <;> positivity
  have hr := render_double bits hb t wf fits hal
  have ty : ∀ c, t.meaning.type = c → c ≠ noChar → t.type = some c := by
    intro c h1 h2
    exact (meaning_type_some wf c h2).1 h1
  have hnf' : ¬ (t.meaning.type = 'f' ∨ t.meaning.type = 'F') := by
    rintro (h | h) <;> have := ty _ h (by decide) <;> rcases hg with hg | hg | hg <;> simp [this] at hg
  have hne' : ¬ (t.meaning.type = 'e' ∨ t.meaning.type = 'E') := by
    rintro (h | h) <;> have := ty _ h (by decide) <;> rcases hg with hg | hg | hg <;> simp [this] at hg
  have hnd' : ¬ (t.meaning.type = noChar ∧ t.meaning.precision < 0) := by
    rintro ⟨h1, h2⟩
    have h1' := (meaning_type_none wf).1 h1
    rcases hg with hg | hg | ⟨_, hg⟩
    · simp [h1'] at hg
    · simp [h1'] at hg
    · apply hg
      cases hp : t.prec with
      | none => rfl
      | some p =>
        have : t.precValue < 0 := h2
        rw [SpecText.precValue, hp] at this
        simp at this
        omega
  have hup : (t.meaning.type == 'E' || t.meaning.type == 'F' || t.meaning.type == 'G') = (t.type == some 'G') := by
    rcases hg with hg | hg | ⟨hg, _⟩
    · rw [(meaning_type_some wf 'g' (by decide)).2 hg, hg]; decide
    · rw [(meaning_type_some wf 'G' (by decide)).2 hg, hg]; decide
    · rw [(meaning_type_none wf).2 hg, hg]; decide
  rw [actual_eq (fun h => hnf' h.1)] at hr
  unfold floatText finiteText at hr
  simp only at hr
  rw [if_pos hf, if_neg hnf', if_neg hne', if_neg hnd', hup] at hr
  generalize hn : max (precisionOf t.meaning) 1 = n at hr ⊢
  have hn1 : 1 ≤ n := by omega
  obtain ⟨g1, g2, g3⟩ := roundSignificant_value hn1 hm0
  have hfp := fun alt h => fixed_positional hn1 hm0 (v := magnitude bits) h alt
  have hzero : magnitude bits = 0 → (roundSignificant n (magnitude bits)).2 = 0 := fun h => by
    unfold roundSignificant; rw [if_pos h]
  have halt : t.meaning.alternateForm = t.alt := rfl
  rw [halt] at hr
  refine ⟨(roundSignificant n (magnitude bits)).1, (roundSignificant n (magnitude bits)).2, g2, g3, hzero, g1, ?_, ?_⟩
  · rw [hr]
    refine congrArg (fun z => (Run.ok () (paddedNumber t.meaning (signOf t.meaning (signBit bits)) z) : Run Unit Str)) ?_
    have hdig := digits_lastDigits n (roundSignificant n (magnitude bits)).1
    have hne : lastDigits n (roundSignificant n (magnitude bits)).1 ≠ [] := by
      intro hc
      have := congrArg List.length hc
      rw [lastDigits_length] at this
      simp at this
      omega
    have hnz : (roundSignificant n (magnitude bits)).2 < 0 →
        ∃ c ∈ lastDigits n (roundSignificant n (magnitude bits)).1, c ≠ '0' := by
      intro hneg
      refine lastDigits_first hn1 (g3 fun h => ?_) g2
      rw [hzero h] at hneg
      omega
    have hl := lastDigits_length n (roundSignificant n (magnitude bits)).1
    unfold generalText
    simp only
    generalize (roundSignificant n (magnitude bits)) = r at *
    by_cases hx : r.2 < -4 ∨ (n : ℤ) ≤ r.2
    · rw [if_pos hx, if_neg (show ¬ (-4 ≤ r.2 ∧ r.2 < n) by omega), scientific_mantissa]
      cases t.alt with
      | true => simp
      | false =>
        simp only [Bool.false_eq_true, if_false]
        rw [trimmed_mantissa hdig hne]
    · rw [if_neg hx, if_pos (show -4 ≤ r.2 ∧ r.2 < n by omega), hfp _ (by omega)]
      cases t.alt with
      | true => simp
      | false =>
        simp only [Bool.false_eq_true, if_false]
        rw [trimmed_positional hdig (by rw [hl]; omega) hnz]
  · intro e wf' fits' hal' ht' hp
    have hr' := render_double bits hb e wf' fits' hal'
    have hte := (meaning_type_some wf' 'e' (by decide)).2 ht'
    rw [actual_eq (fun h => by rcases h.1 with h | h <;> rw [hte] at h <;> revert h <;> decide)] at hr'
    unfold floatText finiteText at hr'
    simp only at hr'
    rw [if_pos hf, hte, if_neg (by decide), if_pos (Or.inl rfl), hp] at hr'
    exact hr'

/-- `{:g}`, `{:#g}` and `{:.3}` of 1e6, 100000, 0.0001 and 2/3. -/
example : formatStr "{0:g} {1:g} {2:g} {2:#g} {3:.3} {0:.3} {1:#.0g}".toList (fargs [.double 0x412E848000000000, .double 0x40F86A0000000000,
    .double 0x3F1A36E2EB1C432D, .double 0x3FE5555555555555]) =
    .ok () "1e+06 100000 0.0001 0.000100000 0.667 1e+06 1.e+05".toList := by decide +kernel

/-- The hypotheses are met by `{:.3g}` and 2/3. -/
example : ∃ (D : ℕ) (x : ℤ), formatStr "{:.3g}".toList [(CoreArg.double 0x3FE5555555555555).farg] =
    .ok () (paddedNumber { precision := 3, type := 'g' } [] (generalText false false 3 D x (magnitude 0x3FE5555555555555))) := by
  obtain ⟨D, x, _, _, _, _, h, _⟩ := C92_general_notation 0x3FE5555555555555 (by decide) (by decide +kernel)
    { prec := some ['3'], type := some 'g' } ⟨by simp, by simp, by simp, by simp, by simp, by simp, by simp⟩
    ⟨by decide, by decide⟩ ⟨by decide +kernel, by simp⟩ (Or.inl rfl)
  exact ⟨D, x, h⟩

end Emio
