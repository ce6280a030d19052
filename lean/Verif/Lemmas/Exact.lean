import Verif.Lemmas.Scale
import Mathlib.Algebra.Order.Floor.Semifield
/-
`format_exact` rounds the value to the requested number of digits.
-/
namespace Emio
open Bignum

theorem lastDigits_length (n d : Nat) : (lastDigits n d).length = n := by
  induction n generalizing d with
  | zero => rfl
  | succ n ih => simp [lastDigits, ih]

theorem lastDigits_zero (n : Nat) : lastDigits n 0 = List.replicate n '0' := by
  induction n with
  | zero => rfl
  | succ n ih => rw [lastDigits, Nat.zero_div, ih, List.replicate_succ']

theorem lastDigits_pow (n : Nat) : lastDigits (n + 1) (10 ^ n) = '1' :: List.replicate n '0' := by
  induction n with
  | zero => decide
  | succ n ih =>
    rw [lastDigits, pow_succ, Nat.mul_div_cancel _ (by decide), ih, Nat.mul_mod_left, List.replicate_succ', List.cons_append]

theorem digitCharOf_eq {d : Nat} (h : d < 10) : digitCharOf d = Char.ofNat (48 + d % 10) := by
  unfold digitCharOf
  congr 1
  omega

theorem map_digitCharOf (ds : List Nat) (h : ∀ d ∈ ds, d < 10) :
    ds.map digitCharOf = lastDigits ds.length (Nat.ofDigits 10 ds.reverse) := by
  induction ds using List.reverseRecOn with
  | nil => rfl
  | append_singleton ds d ih =>
    have hd : d < 10 := h d (by simp)
    rw [List.map_append, ih (fun x hx => h x (by simp [hx])), List.reverse_append, List.length_append]
    simp only [List.map_cons, List.map_nil, List.reverse_cons, List.reverse_nil, List.nil_append, List.cons_append,
      List.length_cons, List.length_nil, Nat.ofDigits_cons, lastDigits, Nat.zero_add]
    have e1 : (d + 10 * Nat.ofDigits 10 ds.reverse) / 10 = Nat.ofDigits 10 ds.reverse := by omega
    have e2 : (d + 10 * Nat.ofDigits 10 ds.reverse) % 10 = d := by omega
    rw [e1, e2, digitCharOf_eq hd, Nat.mod_eq_of_lt hd]

/-- Number of trailing nines. -/
def nines (d : Str) : Nat := (d.reverse.takeWhile (· == '9')).length

theorem nines_le (d : Str) : nines d ≤ d.length := by
  unfold nines
  exact le_trans (List.takeWhile_sublist _).length_le (le_of_eq List.length_reverse)

theorem nines_snoc_ne {d : Str} {c : Char} (h : c ≠ '9') : nines (d ++ [c]) = 0 := by
  simp [nines, h]

theorem nines_snoc_nine (d : Str) : nines (d ++ ['9']) = nines d + 1 := by
  simp [nines]

theorem roundUp_snoc_ne {d : Str} {c : Char} (h : c ≠ '9') :
    roundUp (d ++ [c]) = (d ++ [Char.ofNat (c.toNat + 1)], none) := by
  have hn := nines_snoc_ne (d := d) h
  unfold nines at hn
  unfold roundUp
  simp only [hn]
  simp

theorem roundUp_snoc_nine {d : Str} (h : nines d < d.length) :
    roundUp (d ++ ['9']) = ((roundUp d).1 ++ ['0'], none) ∧ (roundUp d).2 = none := by
  have hn := nines_snoc_nine d
  unfold nines at hn h
  unfold roundUp
  simp only [hn]
  have hlt : (List.takeWhile (fun x => x == '9') d.reverse).length + 1 < (d ++ ['9']).length := by simp; exact h
  rw [if_pos hlt, if_pos h]
  refine ⟨?_, rfl⟩
  have e : (d ++ ['9']).length - ((List.takeWhile (fun x => x == '9') d.reverse).length + 1) - 1 =
      d.length - (List.takeWhile (fun x => x == '9') d.reverse).length - 1 := by simp
  rw [e]
  generalize hi : d.length - (List.takeWhile (fun x => x == '9') d.reverse).length - 1 = i
  have hil : i < d.length := by omega
  rw [List.take_append_of_le_length hil.le]
  simp only [List.getD_eq_getElem?_getD, List.getElem?_append_left hil, List.replicate_succ', Prod.mk.injEq, and_true,
    List.append_assoc, List.cons_append]

theorem roundUp_nines {d : Str} (h : nines d = d.length) (h0 : d ≠ []) :
    roundUp d = ('1' :: List.replicate (d.length - 1) '0', some '0') := by
  unfold nines at h
  unfold roundUp
  simp only [h, lt_self_iff_false, if_false]
  rw [if_pos h0]

theorem roundUp_lastDigits : ∀ (n d : Nat), d < 10 ^ n →
    (d + 1 < 10 ^ n → nines (lastDigits n d) < n ∧ roundUp (lastDigits n d) = (lastDigits n (d + 1), none)) ∧
      (d + 1 = 10 ^ n → nines (lastDigits n d) = n) := by
  intro n
  induction n with
  | zero => intro d h; simp [lastDigits, nines] at *
  | succ n ih =>
    intro d h
    rw [pow_succ] at h
    obtain ⟨i1, i2⟩ := ih (d / 10) (by omega)
    have hdiv := Nat.div_add_mod d 10
    rw [lastDigits, pow_succ]
    by_cases h9 : d % 10 = 9
    · have hc : Char.ofNat (48 + d % 10) = '9' := by rw [h9]
      rw [hc, nines_snoc_nine]
      constructor
      · intro hd
        obtain ⟨j1, j2⟩ := i1 (by omega)
        refine ⟨by omega, ?_⟩
        have hl := lastDigits_length n (d / 10)
        have := roundUp_snoc_nine (d := lastDigits n (d / 10)) (by omega)
        rw [this.1, j2, lastDigits]
        have e1 : (d + 1) / 10 = d / 10 + 1 := by omega
        have e2 : (d + 1) % 10 = 0 := by omega
        rw [e1, e2]
      · intro hd
        rw [i2 (by omega)]
    · have hc : Char.ofNat (48 + d % 10) ≠ '9' ∧ Char.ofNat ((Char.ofNat (48 + d % 10)).toNat + 1) =
          Char.ofNat (48 + (d % 10 + 1)) := by
        have : d % 10 < 9 := by omega
        generalize d % 10 = x at this
        have : ∀ x < 9, Char.ofNat (48 + x) ≠ '9' ∧ Char.ofNat ((Char.ofNat (48 + x)).toNat + 1) =
          Char.ofNat (48 + (x + 1)) := by decide
        exact this x (by assumption)
      rw [nines_snoc_ne hc.1, roundUp_snoc_ne hc.1]
      constructor
      · intro hd
        refine ⟨by omega, ?_⟩
        rw [lastDigits]
        have e1 : (d + 1) / 10 = d / 10 := by omega
        have e2 : (d + 1) % 10 = d % 10 + 1 := by omega
        rw [e1, e2, hc.2]
      · intro hd
        omega

theorem roundUp_carry {n d : Nat} (h : d + 1 = 10 ^ (n + 1)) :
    roundUp (lastDigits (n + 1) d) = (lastDigits (n + 1) (10 ^ n), some '0') := by
  have hl := lastDigits_length (n + 1) d
  have hn := (roundUp_lastDigits (n + 1) d (by omega)).2 h
  rw [roundUp_nines (by omega) (by intro hc; rw [hc] at hl; cases hl), lastDigits_pow, hl]
  rfl

theorem lastDigits_odd {n d : Nat} (hn : 0 < n) : ((lastDigits n d).getLastD '0').toNat % 2 = d % 2 := by
  obtain ⟨n, rfl⟩ := Nat.exists_eq_add_of_lt hn
  rw [Nat.zero_add, lastDigits, List.getLastD_concat]
  have h : d % 10 % 2 = d % 2 := by omega
  rw [← h]
  have hx : d % 10 < 10 := by omega
  generalize d % 10 = x at hx
  have : ∀ x < 10, (Char.ofNat (48 + x)).toNat % 2 = x % 2 := by decide
  exact this x hx

theorem roundHalfEven_div (n s : Nat) (hs : 0 < s) : roundHalfEven ((n : ℚ) / s) =
    if s < 2 * (n % s) ∨ (2 * (n % s) = s ∧ (n / s) % 2 = 1) then n / s + 1 else n / s := by
  have hq : (0 : ℚ) < s := by exact_mod_cast hs
  unfold roundHalfEven
  have hfl : ⌊(n : ℚ) / s⌋₊ = n / s := Nat.floor_div_eq_div n s
  simp only [hfl]
  have hr : (n : ℚ) / s - ((n / s : ℕ) : ℚ) = ((n % s : ℕ) : ℚ) / s := by
    have : (n : ℚ) = ((s * (n / s) + n % s : ℕ) : ℚ) := by rw [Nat.div_add_mod]
    push_cast at this
    field_simp
    linarith
  rw [hr]
  have h1 : ((n % s : ℕ) : ℚ) / s < 1 / 2 ↔ 2 * (n % s) < s := by
    rw [div_lt_div_iff₀ hq (by norm_num), one_mul, mul_comm]
    exact_mod_cast Iff.rfl
  have h2 : 1 / 2 < ((n % s : ℕ) : ℚ) / s ↔ s < 2 * (n % s) := by
    rw [div_lt_div_iff₀ (by norm_num) hq, one_mul, mul_comm]
    exact_mod_cast Iff.rfl
  simp only [h1, h2]
  split_ifs <;> omega

/-- The digits and the exponent of a value below `10 ^ k`, rounded to the integer `d` in units of `10 ^ (k - len)`. -/
def roundedDigits (len d : Nat) (k n : Int) : Str × Int :=
  if d < 10 ^ len then (lastDigits len d, k)
  else if len = 0 then (if k + 1 > -n then (['1'], k + 1) else ([], k + 1))
  else (lastDigits len (10 ^ (len - 1)), k + 1)

theorem exactRound_canon {s rem len d : Nat} {k n : Int} (hs : s * 160 < Cap) (hr : rem < 10 * s)
    (hd : d < 10 ^ len) :
    Yields (exactRound (canon rem) (canon s) (lastDigits len d) k n)
      (roundedDigits len (if 10 * s < 2 * rem ∨ (2 * rem = 10 * s ∧ d % 2 = 1) then d + 1 else d) k n) := by
  unfold exactRound
  refine Yields.bind (Yields.need (mulSmall_canon (by decide) (by decide) (by omega))) ?_
  refine Yields.bind (Yields.need (cmp_canon (by omega) (by omega))) ?_
  simp only [lastDigits_length]
  have hcond : (compare rem (s * 5) == Ordering.gt ||
      compare rem (s * 5) == Ordering.eq && (decide (len > 0) && ((lastDigits len d).getLastD '0').toNat % 2 == 1)) =
      decide (10 * s < 2 * rem ∨ (2 * rem = 10 * s ∧ d % 2 = 1)) := by
    have hodd : (decide (len > 0) && ((lastDigits len d).getLastD '0').toNat % 2 == 1) = decide (d % 2 = 1) := by
      by_cases h0 : len = 0
      · subst h0
        have : d = 0 := by simpa using hd
        subst this
        rfl
      · rw [lastDigits_odd (Nat.pos_of_ne_zero h0), decide_eq_true (Nat.pos_of_ne_zero h0), Bool.true_and]
        rfl
    rw [hodd, Bool.eq_iff_iff]
    simp only [Bool.or_eq_true, beq_iff_eq, Nat.compare_eq_gt, Bool.and_eq_true, Nat.compare_eq_eq, decide_eq_true_iff]
    omega
  rw [hcond]
  by_cases hup : 10 * s < 2 * rem ∨ (2 * rem = 10 * s ∧ d % 2 = 1)
  · rw [decide_eq_true hup, if_pos hup]
    simp only [if_true]
    by_cases hc : d + 1 < 10 ^ len
    · rw [((roundUp_lastDigits len d hd).1 hc).2, roundedDigits, if_pos hc]
      exact Yields.pure _
    · rw [roundedDigits, if_neg hc]
      cases len with
      | zero =>
        simp only [lastDigits, roundUp, List.reverse_nil, List.takeWhile_nil, List.length_nil, lt_self_iff_false, if_false,
          ne_eq, not_true_eq_false, if_true]
        by_cases hk : k + 1 > -n
        · rw [if_pos hk, if_pos hk]
          exact Yields.pure _
        · rw [if_neg hk, if_neg hk]
          exact Yields.pure _
      | succ len =>
        rw [roundUp_carry (by omega)]
        have hl := lastDigits_length (len + 1) (10 ^ len)
        simp only [Nat.add_one_ne_zero, if_false, hl, lt_self_iff_false, and_false, Nat.add_sub_cancel]
        have ht : List.take (len + 1) (lastDigits (len + 1) (10 ^ len)) = lastDigits (len + 1) (10 ^ len) := by
          apply List.take_of_length_le
          omega
        rw [ht]
        split <;> exact Yields.pure _
  · rw [decide_eq_false hup, if_neg hup, roundedDigits, if_pos hd]
    exact Yields.pure _

/-- The finite doubles that are not zero. -/
structure FiniteOk (dec : Finite) : Prop where
  pos : 0 < dec.mant
  small : dec.mant + dec.plus ≤ 2 ^ 55
  low : -1076 ≤ dec.exp
  high : dec.exp ≤ 970

/-- The value of a decoded double. -/
def Finite.value (dec : Finite) : ℚ := dec.mant * (2 : ℚ) ^ dec.exp

/-- The number of digits. -/
def digitsLen (mode : ExactMode) (k n : Int) : Nat :=
  match mode with
  | .significandDigits => n.toNat
  | .decimalPoint => (k + n).toNat

theorem formatExact_canon {dec : Finite} (ok : FiniteOk dec) (mode : ExactMode) (n : Int)
    (hmode : mode = .significandDigits → 0 ≤ n) :
    ∃ k : Int, (10 : ℚ) ^ (k - 1) ≤ dec.value ∧ dec.value < (10 : ℚ) ^ k ∧
      Yields (formatExact dec mode n)
        (roundedDigits (digitsLen mode k n) (roundHalfEven (dec.value * (10 : ℚ) ^ ((digitsLen mode k n : ℤ) - k))) k n) := by
  obtain ⟨pos, small, low, high⟩ := ok
  have small' : dec.mant ≤ 2 ^ 55 := by omega
  obtain ⟨f1, f2, f3⟩ := scale_fits pos small' low high
  have hdiv := scaled_div dec.mant dec.exp (estimateScalingFactor dec.mant dec.exp)
  have ys := scaleBy_canon (x := 1) (p5 := (scaling dec.exp (estimateScalingFactor dec.mant dec.exp)).2.1)
    (p2 := (scaling dec.exp (estimateScalingFactor dec.mant dec.exp)).1) (by decide) (by
      rw [Nat.one_mul]; exact lt_of_le_of_lt (Nat.le_mul_of_pos_right _ (by decide)) f1)
  rw [Nat.one_mul] at ys
  have ym := scaleBy_canon (x := dec.mant) (p5 := (scaling dec.exp (estimateScalingFactor dec.mant dec.exp)).2.2.2)
    (p2 := (scaling dec.exp (estimateScalingFactor dec.mant dec.exp)).2.2.1) pos (by
      change dec.mant * scaleNum _ _ < _
      omega)
  change Yields _ (canon (scaleDen _ _)) at ys
  change Yields _ (canon (dec.mant * scaleNum _ _)) at ym
  obtain ⟨spec1, spec2⟩ := estimate_spec pos small' low high
  have hs0 := scaleDen_pos dec.exp (estimateScalingFactor dec.mant dec.exp)
  unfold formatExact
  simp only
  generalize scaling dec.exp (estimateScalingFactor dec.mant dec.exp) = sc at *
  generalize scaleDen dec.exp (estimateScalingFactor dec.mant dec.exp) = s at *
  generalize dec.mant * scaleNum dec.exp (estimateScalingFactor dec.mant dec.exp) = m at *
  generalize estimateScalingFactor dec.mant dec.exp = k0 at *
  have h10 : (0 : ℚ) < (10 : ℚ) ^ k0 := by positivity
  have hsq : (0 : ℚ) < s := by exact_mod_cast hs0
  have hcmp : s ≤ m ↔ (10 : ℚ) ^ k0 ≤ dec.value := by
    have : (1 : ℚ) ≤ (m : ℚ) / s ↔ (1 : ℚ) ≤ dec.value / (10 : ℚ) ^ k0 := by rw [hdiv]; rfl
    rw [le_div_iff₀ hsq, le_div_iff₀ h10, one_mul, one_mul] at this
    rw [← this]
    norm_cast
  -- the rest, for the final exponent and numerator
  have rest : ∀ (k : Int) (m' len : Nat), m' < 10 * s → (m' : ℚ) / s = dec.value * (10 : ℚ) ^ (1 - k) →
      len = digitsLen mode k n →
      Yields (do
        if len > 0 then
          let scale2 ← need ((canon s).mulPow2 1)
          let scale4 ← need ((canon s).mulPow2 2)
          let scale8 ← need ((canon s).mulPow2 3)
          let (dst, rest) ← exactLoop (canon s) scale2 scale4 scale8 len (canon m')
          match rest with
          | none => return (dst, k)
          | some mant => exactRound mant (canon s) dst k n
        else exactRound (canon m') (canon s) [] k n)
        (roundedDigits (digitsLen mode k n) (roundHalfEven (dec.value * (10 : ℚ) ^ ((digitsLen mode k n : ℤ) - k))) k n) := by
    intro k m' len hm' hval hlen
    rw [← hlen]
    obtain ⟨v1, v2, v3⟩ := expand_value hs0 len m' hm'
    have hN : dec.value * (10 : ℚ) ^ ((len : ℤ) - k) = ((m' * 10 ^ len : ℕ) : ℚ) / ((10 * s : ℕ) : ℚ) := by
      have : (10 : ℚ) ^ ((len : ℤ) - k) = (10 : ℚ) ^ (1 - k) * 10 ^ len / 10 := by
        rw [show (len : ℤ) - k = (1 - k) + len - 1 by ring, zpow_sub₀ (by norm_num), zpow_add₀ (by norm_num), zpow_natCast,
          zpow_one]
      rw [this]
      rw [div_eq_iff hsq.ne'] at hval
      push_cast
      rw [hval]
      field_simp
    have hrem : (expand s len m').2 = m' * 10 ^ len % (10 * s) := by
      rw [← v1, Nat.mul_add_mod]
      exact (Nat.mod_eq_of_lt v2).symm
    have hquo : Nat.ofDigits 10 (expand s len m').1.reverse = m' * 10 ^ len / (10 * s) := by
      rw [← v1, Nat.mul_add_div (by omega), Nat.div_eq_of_lt v2, Nat.add_zero]
    have hds : (expand s len m').1.map digitCharOf = lastDigits len (m' * 10 ^ len / (10 * s)) := by
      rw [map_digitCharOf _ v3, expand_length, hquo]
    have hlt : m' * 10 ^ len / (10 * s) < 10 ^ len := by
      rw [Nat.div_lt_iff_lt_mul (by omega), mul_comm]
      exact Nat.mul_lt_mul_of_pos_left hm' (by positivity)
    rw [hN, roundHalfEven_div _ _ (by omega)]
    rw [hrem] at v2
    have hround := exactRound_canon (k := k) (n := n) f1 v2 hlt
    by_cases h0 : len > 0
    · rw [if_pos h0]
      refine Yields.bind (Yields.need (mulPow2_canon (Or.inl hs0.ne') (by omega))) ?_
      refine Yields.bind (Yields.need (mulPow2_canon (Or.inl hs0.ne') (by omega))) ?_
      refine Yields.bind (Yields.need (mulPow2_canon (Or.inl hs0.ne') (by omega))) ?_
      obtain ⟨r, l1, l2⟩ := exactLoop_canon hs0 (by omega) len m' hm'
      refine Yields.bind l1 ?_
      rw [hds]
      rcases l2 with rfl | ⟨rfl, l2⟩
      · rw [hrem]
        exact hround
      · rw [hrem] at l2
        simp only
        rw [if_neg (by omega), roundedDigits, if_pos hlt]
        exact Yields.pure _
    · rw [if_neg h0]
      have : len = 0 := by omega
      subst this
      have e : (expand s 0 m').2 = m' := rfl
      rw [← hrem, e] at hround
      rw [← hrem, e]
      exact hround
  have hlenv : ∃ le : Nat × Nat, Yields (exactLen mode k0 n) le ∧ (le.1 = digitsLen mode k0 n) ∧
      (le.1 + le.2 = digitsLen mode (k0 + 1) n) := by
    cases mode with
    | significandDigits =>
      refine ⟨(n.toNat, 0), ?_, rfl, rfl⟩
      have := hmode rfl
      unfold exactLen
      simp only
      rw [if_neg (by omega)]
      exact Yields.pure _
    | decimalPoint =>
      unfold exactLen
      by_cases hk : k0 + n ≥ 0
      · refine ⟨((k0 + n).toNat, 1), ?_, rfl, ?_⟩
        · simp only
          rw [if_pos hk]
          exact Yields.pure _
        · simp only [digitsLen]
          omega
      · refine ⟨(0, 0), ?_, ?_, ?_⟩
        · simp only
          rw [if_neg hk]
          exact Yields.pure _
        all_goals simp only [digitsLen]; omega
  obtain ⟨⟨len, extra⟩, hl1, hl2, hl3⟩ := hlenv
  by_cases hge : s ≤ m
  · refine ⟨k0 + 1, ?_, spec2, ?_⟩
    · rw [add_sub_cancel_right]
      exact hcmp.1 hge
    · rw [ofU32_eq (by decide) (by decide), ofU64_eq pos.ne' (by omega)]
      refine Yields.bind ys (Yields.bind ym (Yields.bind hl1 (Yields.bind (ge_canon (by omega) (by omega)) ?_)))
      rw [decide_eq_true hge]
      simp only [if_true]
      refine Yields.bind (Yields.pure _) ?_
      refine rest (k0 + 1) m (len + extra) f2 ?_ hl3
      rw [hdiv, show (1 : ℤ) - (k0 + 1) = -k0 by ring, zpow_neg]
      rfl
  · refine ⟨k0, spec1.le, lt_of_not_ge (fun hc => hge (hcmp.2 hc)), ?_⟩
    rw [ofU32_eq (by decide) (by decide), ofU64_eq pos.ne' (by omega)]
    refine Yields.bind ys (Yields.bind ym (Yields.bind hl1 (Yields.bind (ge_canon (by omega) (by omega)) ?_)))
    rw [decide_eq_false hge]
    simp only [Bool.false_eq_true, if_false]
    refine Yields.bind (Yields.need (mulSmall_canon (by decide) (by decide) (by omega))) ?_
    refine rest k0 (m * 10) len (by omega) ?_ hl2
    push_cast
    rw [mul_comm (m : ℚ), mul_div_assoc, hdiv, zpow_sub₀ (by norm_num), zpow_one]
    unfold Finite.value
    ring

end Emio
