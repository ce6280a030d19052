import Verif.Lemmas.Decode
/-
The digit generation of `format_shortest`, in natural numbers.
-/
namespace Emio
open Bignum

/-- `a ≤ b`, or `a < b` if the bounds do not count. -/
def within (inc : Bool) (a b : Nat) : Bool := if inc then decide (a ≤ b) else decide (a < b)

theorem roundingOf_compare (inc : Bool) (a b : Nat) : roundingOf inc (compare a b) = within inc a b := by
  unfold roundingOf within
  cases inc
  · simp only [Bool.false_eq_true, if_false]
    rw [Bool.eq_iff_iff, beq_iff_eq, decide_eq_true_iff, Nat.compare_eq_lt]
  · simp only [if_true]
    rw [Bool.eq_iff_iff, bne_iff_ne, decide_eq_true_iff, Ne, Nat.compare_eq_gt]
    omega

theorem within_le {inc : Bool} {a b : Nat} (h : within inc a b = true) : a ≤ b := by
  unfold within at h
  cases inc <;> simp at h <;> omega

theorem within_not {inc : Bool} {a b : Nat} (h : within inc a b = false) : b ≤ a := by
  unfold within at h
  cases inc <;> simp at h <;> omega

/-- The digit loop of `format_shortest` with numbers instead of bignums. -/
def shortGen (inc : Bool) (s : Nat) : Nat → Nat → Nat → Nat → Option (List Nat × Nat × Bool × Bool)
  | 0, _, _, _ => none
  | room + 1, m, a, c =>
    if within inc (m % s) a || within inc s (m % s + c) then
      some ([m / s], m % s, within inc (m % s) a, within inc s (m % s + c))
    else (shortGen inc s room (m % s * 10) (a * 10) (c * 10)).map (fun x => (m / s :: x.1, x.2))

theorem shortestLoop_canon {inc : Bool} {s : Nat} (hs0 : 0 < s) (hs : s * 160 < Cap) : ∀ room m a c x,
    m < 10 * s → a ≤ 10 * s → c ≤ 10 * s → shortGen inc s room m a c = some x →
    Yields (shortestLoop inc (canon s) (canon (s * 2 ^ 1)) (canon (s * 2 ^ 2)) (canon (s * 2 ^ 3)) room (canon m) (canon a)
      (canon c)) (x.1.map digitCharOf, canon x.2.1, x.2.2.1, x.2.2.2) := by
  intro room
  induction room with
  | zero => intro m a c x _ _ _ h; simp [shortGen] at h
  | succ room ih =>
    intro m a c x hm ha hc h
    have hr : m % s < s := Nat.mod_lt _ hs0
    unfold shortestLoop
    refine Yields.bind (nextDigit_canon (by omega) (by omega)) ?_
    simp only
    refine Yields.bind (Yields.need (cmp_canon (by omega) (by omega))) ?_
    refine Yields.bind (Yields.need (add_canon (by omega))) ?_
    refine Yields.bind (Yields.need (cmp_canon (by omega) (by omega))) ?_
    rw [roundingOf_compare, roundingOf_compare]
    rw [shortGen] at h
    by_cases hst : (within inc (m % s) a || within inc s (m % s + c)) = true
    · rw [if_pos hst] at h ⊢
      cases h
      exact Yields.pure _
    · rw [if_neg hst] at h ⊢
      rw [Option.map_eq_some_iff] at h
      obtain ⟨y, h1, rfl⟩ := h
      simp only [Bool.or_eq_true, not_or, Bool.not_eq_true] at hst
      have n1 := within_not hst.1
      have n2 := within_not hst.2
      refine Yields.bind (Yields.need (mulSmall_canon (by decide) (by decide) (by omega))) ?_
      refine Yields.bind (Yields.need (mulSmall_canon (by decide) (by decide) (by omega))) ?_
      refine Yields.bind (Yields.need (mulSmall_canon (by decide) (by decide) (by omega))) ?_
      refine Yields.bind (ih _ _ _ _ (by omega) (by omega) (by omega) h1) ?_
      exact Yields.pure _

/-- Rounding down after `i + 1` digits stays inside the bounds. -/
def downAt (inc : Bool) (s m a i : Nat) : Bool := within inc (m * 10 ^ i % s) (a * 10 ^ i)

/-- Rounding up after `i + 1` digits stays inside the bounds. -/
def upAt (inc : Bool) (s m c i : Nat) : Bool := within inc s (m * 10 ^ i % s + c * 10 ^ i)

theorem shift_mod (s m i : Nat) : m % s * 10 * 10 ^ i % s = m * 10 ^ (i + 1) % s := by
  rw [pow_succ, mul_assoc, Nat.mod_mul_mod, mul_comm (10 ^ i)]

theorem downAt_shift (inc : Bool) (s m a i : Nat) : downAt inc s (m % s * 10) (a * 10) i = downAt inc s m a (i + 1) := by
  unfold downAt
  rw [shift_mod, pow_succ, mul_assoc, mul_comm 10]

theorem upAt_shift (inc : Bool) (s m a i : Nat) : upAt inc s (m % s * 10) (a * 10) i = upAt inc s m a (i + 1) := by
  unfold upAt
  rw [shift_mod, pow_succ, mul_assoc a, mul_comm 10]

/-- The loop stops at the first position where rounding is possible. -/
theorem shortGen_spec {inc : Bool} {s : Nat} (hs0 : 0 < s) : ∀ room m a c, m < 10 * s →
    (∃ i < room, downAt inc s m a i = true ∨ upAt inc s m c i = true) →
    ∃ i ds, i < room ∧ shortGen inc s room m a c = some (ds, m * 10 ^ i % s, downAt inc s m a i, upAt inc s m c i) ∧
      ds.length = i + 1 ∧ Nat.ofDigits 10 ds.reverse = m * 10 ^ i / s ∧ (∀ d ∈ ds, d < 10) ∧
      (downAt inc s m a i = true ∨ upAt inc s m c i = true) ∧
      ∀ j < i, downAt inc s m a j = false ∧ upAt inc s m c j = false := by
  intro room
  induction room with
  | zero => intro m a c _ ⟨i, hi, _⟩; omega
  | succ room ih =>
    intro m a c hm ⟨i, hi, hst⟩
    have hd : m / s < 10 := by
      rw [Nat.div_lt_iff_lt_mul hs0]
      exact hm
    rw [shortGen]
    have e1 : within inc (m % s) a = downAt inc s m a 0 := by simp [downAt]
    have e2 : within inc s (m % s + c) = upAt inc s m c 0 := by simp [upAt]
    rw [e1, e2]
    by_cases h0 : (downAt inc s m a 0 || upAt inc s m c 0) = true
    · rw [if_pos h0]
      refine ⟨0, [m / s], by omega, by simp, rfl, by simp, by simp [hd], by simpa using h0, by simp⟩
    · rw [if_neg h0]
      have hi0 : i ≠ 0 := by
        rintro rfl
        apply h0
        simpa using hst
      obtain ⟨j, rfl⟩ := Nat.exists_eq_succ_of_ne_zero hi0
      have hr : m % s < s := Nat.mod_lt _ hs0
      obtain ⟨i', ds, g1, g2, g3, g4, g5, g6, g7⟩ := ih (m % s * 10) (a * 10) (c * 10) (by omega)
        ⟨j, by omega, by rw [downAt_shift, upAt_shift]; exact hst⟩
      simp only [downAt_shift, upAt_shift, shift_mod] at g2 g6 g7
      refine ⟨i' + 1, m / s :: ds, by omega, ?_, by simp [g3], ?_, ?_, g6, ?_⟩
      · rw [g2]
        rfl
      · rw [List.reverse_cons, Nat.ofDigits_append, List.length_reverse, g3, g4, Nat.ofDigits_singleton]
        have : m * 10 ^ (i' + 1) = m % s * 10 * 10 ^ i' + s * (10 ^ (i' + 1) * (m / s)) := by
          conv_lhs => rw [← Nat.div_add_mod m s]
          ring
        rw [this, Nat.add_mul_div_left _ _ hs0]
      · intro d hd'
        rcases List.mem_cons.1 hd' with rfl | hd'
        · exact hd
        · exact g5 d hd'
      · intro j hj
        cases j with
        | zero => simpa [not_or] using h0
        | succ j => exact g7 j (by omega)

/-- After `i` steps the bounds are wider than a unit. -/
theorem stops_at {inc : Bool} {s m a c i : Nat} (h : s < (a + c) * 10 ^ i) :
    downAt inc s m a i = true ∨ upAt inc s m c i = true := by
  by_contra hc
  rw [not_or, Bool.not_eq_true, Bool.not_eq_true] at hc
  have h1 := within_not hc.1
  have h2 := within_not hc.2
  rw [Nat.add_mul] at h
  omega

/-- What `format_shortest` computes, in natural numbers: numerator `m`, distances `a` and `c` to the bounds, denominator
`s` and decimal exponent `k`. -/
structure ShortestNat (dec : Finite) (k : Int) (m a c s : Nat) : Prop where
  den_pos : 0 < s
  value : (m : ℚ) / s = dec.mant * (2 : ℚ) ^ dec.exp * (10 : ℚ) ^ (1 - k)
  minus : (a : ℚ) / s = dec.minus * (2 : ℚ) ^ dec.exp * (10 : ℚ) ^ (1 - k)
  plus : (c : ℚ) / s = dec.plus * (2 : ℚ) ^ dec.exp * (10 : ℚ) ^ (1 - k)
  low : within dec.inclusive s (m + c) = true
  high : within dec.inclusive (10 * s) (m + c) = false
  fits : s * 160 < Cap

set_option maxHeartbeats 1600000 in
theorem formatShortest_canon {dec : Finite} (ok : FiniteOk dec) (h1 : dec.minus = 1) (h2 : dec.plus = 1 ∨ dec.plus = 2)
    (h3 : 1 < dec.mant) (h4 : dec.mant + dec.plus < (dec.minus + dec.plus) * 10 ^ 16) :
    ∃ (k : Int) (m a c s i : Nat), ShortestNat dec k m a c s ∧ i < 17 ∧
      (downAt dec.inclusive s m a i = true ∨ upAt dec.inclusive s m c i = true) ∧
      (∀ j < i, downAt dec.inclusive s m a j = false ∧ upAt dec.inclusive s m c j = false) ∧
      Yields (formatShortest dec)
        (lastDigits (i + 1) (m * 10 ^ i / s +
          if upAt dec.inclusive s m c i = true ∧
            (downAt dec.inclusive s m a i = false ∨ s ≤ 2 * (m * 10 ^ i % s)) then 1 else 0), k) := by
  obtain ⟨pos, small, low, high⟩ := ok
  have pos' : 0 < dec.mant + dec.plus := by omega
  obtain ⟨f1, f2, f3⟩ := scale_fits pos' small low high
  have hdiv := fun n => scaled_div n dec.exp (estimateScalingFactor (dec.mant + dec.plus) dec.exp)
  have hnum := scaleNum_pos dec.exp (estimateScalingFactor (dec.mant + dec.plus) dec.exp)
  have ys := scaleBy_canon (x := 1) (p5 := (scaling dec.exp (estimateScalingFactor (dec.mant + dec.plus) dec.exp)).2.1)
    (p2 := (scaling dec.exp (estimateScalingFactor (dec.mant + dec.plus) dec.exp)).1) (by decide) (by
      rw [Nat.one_mul]; exact lt_of_le_of_lt (Nat.le_mul_of_pos_right _ (by decide)) f1)
  rw [Nat.one_mul] at ys
  have yx : ∀ x, 0 < x → x ≤ dec.mant + dec.plus → Yields (scaleBy (canon x)
      (scaling dec.exp (estimateScalingFactor (dec.mant + dec.plus) dec.exp)).2.2.2
      (scaling dec.exp (estimateScalingFactor (dec.mant + dec.plus) dec.exp)).2.2.1)
      (canon (x * scaleNum dec.exp (estimateScalingFactor (dec.mant + dec.plus) dec.exp))) := by
    intro x hx hx'
    apply scaleBy_canon hx
    change x * scaleNum _ _ < _
    have := Nat.mul_le_mul_right (scaleNum dec.exp (estimateScalingFactor (dec.mant + dec.plus) dec.exp)) hx'
    omega
  change Yields _ (canon (scaleDen _ _)) at ys
  have hs0 := scaleDen_pos dec.exp (estimateScalingFactor (dec.mant + dec.plus) dec.exp)
  unfold formatShortest
  simp only
  generalize scaling dec.exp (estimateScalingFactor (dec.mant + dec.plus) dec.exp) = sc at *
  generalize scaleDen dec.exp (estimateScalingFactor (dec.mant + dec.plus) dec.exp) = s at *
  generalize scaleNum dec.exp (estimateScalingFactor (dec.mant + dec.plus) dec.exp) = f at *
  generalize estimateScalingFactor (dec.mant + dec.plus) dec.exp = k0 at *
  have hsq : (0 : ℚ) < s := by exact_mod_cast hs0
  have hfa : (dec.mant + dec.plus) * f = dec.mant * f + dec.plus * f := Nat.add_mul _ _ _
  -- the rest, for the final exponent and numerators
  have rest : ∀ (k : Int) (m a c : Nat), ShortestNat dec k m a c s → a + c = 3 * a ∨ a + c = 2 * a →
      s < (a + c) * 10 ^ 16 → 
      ∃ i, i < 17 ∧
      (downAt dec.inclusive s m a i = true ∨ upAt dec.inclusive s m c i = true) ∧
      (∀ j < i, downAt dec.inclusive s m a j = false ∧ upAt dec.inclusive s m c j = false) ∧
      Yields (do
        let scale2 ← need ((canon s).mulPow2 1)
        let scale4 ← need ((canon s).mulPow2 2)
        let scale8 ← need ((canon s).mulPow2 3)
        let (ds, m, down, up) ← shortestLoop dec.inclusive (canon s) scale2 scale4 scale8 maxDigits10 (canon m) (canon a) (canon c)
        let roundUpNow ← (if up then (if !down then pure true else do
          let m2 ← need (m.mulPow2 1)
          m2.ge (canon s)) else pure false)
        shortestRound ds k roundUpNow)
        (lastDigits (i + 1) (m * 10 ^ i / s +
          if upAt dec.inclusive s m c i = true ∧
            (downAt dec.inclusive s m a i = false ∨ s ≤ 2 * (m * 10 ^ i % s)) then 1 else 0), k) := by
    intro k m a c st hac hbig
    have hlow := within_le st.low
    have hhigh := within_not st.high
    have hc0 : 0 < c := by
      rcases Nat.eq_zero_or_pos c with h | h
      · subst h
        rcases hac with h | h
        · have : a = 0 := by omega
          subst this
          omega
        · have : a = 0 := by omega
          subst this
          omega
      · exact h
    have hm : m < 10 * s := by omega
    have ha : a ≤ 10 * s := by omega
    obtain ⟨i, ds, g1, g2, g3, g4, g5, g6, g7⟩ := shortGen_spec (inc := dec.inclusive) hs0 17 m a c hm
      ⟨16, by decide, stops_at hbig⟩
    refine ⟨i, g1, g6, g7, ?_⟩
    refine Yields.bind (Yields.need (mulPow2_canon (Or.inl hs0.ne') (by omega))) ?_
    refine Yields.bind (Yields.need (mulPow2_canon (Or.inl hs0.ne') (by omega))) ?_
    refine Yields.bind (Yields.need (mulPow2_canon (Or.inl hs0.ne') (by omega))) ?_
    refine Yields.bind (shortestLoop_canon hs0 f1 17 m a c _ hm ha (by omega) g2) ?_
    simp only
    rw [map_digitCharOf _ g5, g3, g4]
    have hr : m * 10 ^ i % s < s := Nat.mod_lt _ hs0
    have hyes : Yields (if upAt dec.inclusive s m c i = true then (if (!downAt dec.inclusive s m a i) = true then pure true else do
          let m2 ← need ((canon (m * 10 ^ i % s)).mulPow2 1)
          m2.ge (canon s)) else pure false) (decide (upAt dec.inclusive s m c i = true ∧
            (downAt dec.inclusive s m a i = false ∨ s ≤ 2 * (m * 10 ^ i % s)))) := by
      cases hu : upAt dec.inclusive s m c i with
      | false => exact Yields.pure _
      | true =>
        cases hdn : downAt dec.inclusive s m a i with
        | false => exact Yields.pure _
        | true =>
          simp only [if_true, Bool.not_true, Bool.false_eq_true, if_false, true_and, Bool.true_eq_false, false_or]
          refine Yields.bind (Yields.need (mulPow2_canon (Or.inr (by decide)) (by omega))) ?_
          have := ge_canon (a := m * 10 ^ i % s * 2 ^ 1) (b := s) (by omega) (by omega)
          rw [show m * 10 ^ i % s * 2 ^ 1 = 2 * (m * 10 ^ i % s) by omega] at this ⊢
          exact this
    refine Yields.bind hyes ?_
    have hlt : m * 10 ^ i / s < 10 ^ (i + 1) := by
      rw [Nat.div_lt_iff_lt_mul hs0, pow_succ]
      calc m * 10 ^ i < 10 * s * 10 ^ i := Nat.mul_lt_mul_of_pos_right hm (by positivity)
        _ = 10 ^ i * 10 * s := by ring
    by_cases hup : upAt dec.inclusive s m c i = true ∧
            (downAt dec.inclusive s m a i = false ∨ s ≤ 2 * (m * 10 ^ i % s))
    · rw [decide_eq_true hup, if_pos hup, shortestRound, if_pos rfl]
      have hno : m * 10 ^ i / s + 1 < 10 ^ (i + 1) := by
        rcases Nat.lt_or_ge (m * 10 ^ i / s + 1) (10 ^ (i + 1)) with h | h
        · exact h
        · exfalso
          have he : m * 10 ^ i / s + 1 = 10 ^ (i + 1) := by omega
          have hmod := Nat.div_add_mod (m * 10 ^ i) s
          have hu := hup.1
          have hh := st.high
          unfold upAt within at hu
          unfold within at hh
          have hsum : s * (m * 10 ^ i / s) + s = 10 * s * 10 ^ i := by
            rw [← Nat.mul_succ, Nat.succ_eq_add_one, he, pow_succ]
            ring
          have key : m * 10 ^ i % s + c * 10 ^ i + 10 * s * 10 ^ i = (m + c) * 10 ^ i + s := by
            rw [Nat.add_mul]
            omega
          cases hinc : dec.inclusive with
          | false =>
            rw [hinc] at hu hh
            simp only [Bool.false_eq_true, if_false, decide_eq_true_iff, decide_eq_false_iff_not, not_lt] at hu hh
            have := Nat.mul_le_mul_right (10 ^ i) hh
            omega
          | true =>
            rw [hinc] at hu hh
            simp only [if_true, decide_eq_true_iff, decide_eq_false_iff_not, not_le] at hu hh
            have := Nat.mul_lt_mul_of_pos_right hh (show 0 < 10 ^ i by positivity)
            omega
      rw [((roundUp_lastDigits _ _ hlt).1 hno).2]
      exact Yields.pure _
    · rw [decide_eq_false hup, if_neg hup, shortestRound]
      exact Yields.pure _
  have hplus : dec.plus * f = f ∨ dec.plus * f = 2 * f := by
    rcases h2 with h | h <;> rw [h]
    · left; omega
    · right; rfl
  have hbig0 : s < ((1 + dec.plus) * f) * 10 ^ 16 * 10 := by
    rw [h1] at h4
    calc s < 10 * ((dec.mant + dec.plus) * f) := f3
      _ < 10 * (((1 + dec.plus) * 10 ^ 16) * f) :=
        Nat.mul_lt_mul_of_pos_left (Nat.mul_lt_mul_of_pos_right h4 hnum) (by decide)
      _ = _ := by ring
  have e1f : (1 + dec.plus) * f = f + dec.plus * f := by ring
  rw [ofU32_eq (by decide) (by decide), ofU64_eq (by omega) (by omega), ofU64_eq (by omega) (by omega), ofU64_eq (by omega) (by omega)]
  by_cases hge : within dec.inclusive s ((dec.mant + dec.plus) * f) = true
  · have hz : (10 : ℚ) ^ (1 - (k0 + 1)) = ((10 : ℚ) ^ k0)⁻¹ := by
      rw [show (1 : ℤ) - (k0 + 1) = -k0 by ring, zpow_neg]
    have st : ShortestNat dec (k0 + 1) (dec.mant * f) (dec.minus * f) (dec.plus * f) s := by
      refine ⟨hs0, ?_, ?_, ?_, ?_, ?_, f1⟩
      · rw [hdiv, hz]; rfl
      · rw [hdiv, hz]; rfl
      · rw [hdiv, hz]; rfl
      · rw [← hfa]; exact hge
      · rw [← hfa]
        unfold within
        cases dec.inclusive <;> simp <;> omega
    have hle := within_le hge
    obtain ⟨i, r1, r2, r3, r4⟩ := rest _ _ _ _ st (by rw [h1]; omega) (by
      rw [h1] at h4 ⊢
      calc s ≤ (dec.mant + dec.plus) * f := hle
        _ < ((1 + dec.plus) * 10 ^ 16) * f := Nat.mul_lt_mul_of_pos_right h4 hnum
        _ = _ := by ring)
    refine ⟨k0 + 1, _, _, _, s, i, st, r1, r2, r3, ?_⟩
    refine Yields.bind ys (Yields.bind (yx _ pos (by omega)) (Yields.bind (yx _ (by omega) (by omega))
      (Yields.bind (yx _ (by omega) (by omega)) ?_)))
    refine Yields.bind (Yields.need (add_canon (by omega))) ?_
    refine Yields.bind (Yields.need (cmp_canon (by omega) (by omega))) ?_
    rw [roundingOf_compare, ← hfa]
    rw [hge]
    simp only [if_true]
    refine Yields.bind (Yields.pure _) (Yields.bind (Yields.pure _) (Yields.bind (Yields.pure _) ?_))
    exact r4
  · rw [Bool.not_eq_true] at hge
    have hz : (10 : ℚ) ^ (1 - k0) = 10 * ((10 : ℚ) ^ k0)⁻¹ := by
      rw [zpow_sub₀ (by norm_num), zpow_one]
      rfl
    have st : ShortestNat dec k0 (dec.mant * f * 10) (dec.minus * f * 10) (dec.plus * f * 10) s := by
      have hx : ∀ n : ℕ, ((n * f * 10 : ℕ) : ℚ) / s = n * (2 : ℚ) ^ dec.exp * (10 : ℚ) ^ (1 - k0) := by
        intro n
        have := hdiv n
        rw [Nat.cast_mul, mul_comm, mul_div_assoc, this, hz]
        push_cast
        ring
      refine ⟨hs0, hx _, hx _, hx _, ?_, ?_, f1⟩
      · unfold within
        cases dec.inclusive <;> simp <;> omega
      · unfold within at hge ⊢
        cases hinc : dec.inclusive
        · rw [hinc] at hge
          simp at hge ⊢
          omega
        · rw [hinc] at hge
          simp at hge ⊢
          omega
    obtain ⟨i, r1, r2, r3, r4⟩ := rest _ _ _ _ st (by rw [h1]; omega) (by
      rw [h1]
      calc s < ((1 + dec.plus) * f) * 10 ^ 16 * 10 := hbig0
        _ = _ := by ring)
    refine ⟨k0, _, _, _, s, i, st, r1, r2, r3, ?_⟩
    refine Yields.bind ys (Yields.bind (yx _ pos (by omega)) (Yields.bind (yx _ (by omega) (by omega))
      (Yields.bind (yx _ (by omega) (by omega)) ?_)))
    refine Yields.bind (Yields.need (add_canon (by omega))) ?_
    refine Yields.bind (Yields.need (cmp_canon (by omega) (by omega))) ?_
    rw [roundingOf_compare, ← hfa]
    rw [hge]
    simp only [Bool.false_eq_true, if_false]
    have hmn : dec.mant * f * 10 < Cap := by omega
    have hpn : dec.plus * f * 10 < Cap := by omega
    refine Yields.bind (Yields.need (mulSmall_canon (by decide) (by decide) hmn)) ?_
    refine Yields.bind (Yields.need (mulSmall_canon (by decide) (by decide) (by rw [h1]; omega))) ?_
    refine Yields.bind (Yields.need (mulSmall_canon (by decide) (by decide) hpn)) ?_
    exact r4

end Emio
