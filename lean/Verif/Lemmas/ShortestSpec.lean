import Verif.Lemmas.Shortest
/-
`format_shortest` yields the shortest decimal within the bounds, and the closest of those.
-/
namespace Emio
open Bignum

/-- The lower bound. -/
def Finite.lo (d : Finite) : ℚ := ((d.mant : ℚ) - d.minus) * (2 : ℚ) ^ d.exp

/-- The upper bound. -/
def Finite.hi (d : Finite) : ℚ := ((d.mant : ℚ) + d.plus) * (2 : ℚ) ^ d.exp

/-- Inside of the bounds. -/
def Finite.In (d : Finite) (x : ℚ) : Prop :=
  if d.inclusive = true then d.lo ≤ x ∧ x ≤ d.hi else d.lo < x ∧ x < d.hi

theorem Finite.In.convex {d : Finite} {x y z : ℚ} (hx : d.In x) (hy : d.In y) (h1 : x ≤ z) (h2 : z ≤ y) : d.In z := by
  unfold Finite.In at *
  split at hx <;> rename_i h
  · rw [if_pos h] at hy ⊢
    exact ⟨by linarith [hx.1], by linarith [hy.2]⟩
  · rw [if_neg h] at hy ⊢
    exact ⟨by linarith [hx.1], by linarith [hy.2]⟩

theorem Finite.In.value {d : Finite} (h1 : 0 < d.minus) (h2 : 0 < d.plus) : d.In d.value := by
  have p : (0 : ℚ) < (2 : ℚ) ^ d.exp := by positivity
  have a : (0 : ℚ) < d.minus := by exact_mod_cast h1
  have b : (0 : ℚ) < d.plus := by exact_mod_cast h2
  have l : d.lo < d.value := by
    unfold Finite.lo Finite.value
    exact mul_lt_mul_of_pos_right (by linarith) p
  have h : d.value < d.hi := by
    unfold Finite.hi Finite.value
    exact mul_lt_mul_of_pos_right (by linarith) p
  unfold Finite.In
  split
  · exact ⟨l.le, h.le⟩
  · exact ⟨l, h⟩

section
variable {d : Finite} {k : Int} {m a c s : Nat} (st : ShortestNat d k m a c s)
include st

/-- Everything at step `i`, in units of `1 / s` of the last digit. -/
theorem ShortestNat.scaled (i : Nat) : ∃ σ : ℚ, 0 < σ ∧ σ * d.value = ((m * 10 ^ i : ℕ) : ℚ) ∧
    σ * d.lo + ((a * 10 ^ i : ℕ) : ℚ) = ((m * 10 ^ i : ℕ) : ℚ) ∧ σ * d.hi = (((m + c) * 10 ^ i : ℕ) : ℚ) ∧
    ∀ t : ℕ, σ * (t * (10 : ℚ) ^ (k - 1 - i)) = ((s * t : ℕ) : ℚ) := by
  have hs : (0 : ℚ) < s := by exact_mod_cast st.den_pos
  have v := st.value
  have u := st.minus
  have w := st.plus
  rw [div_eq_iff hs.ne'] at u v w
  refine ⟨s * (10 : ℚ) ^ (1 - k) * 10 ^ i, by positivity, ?_, ?_, ?_, ?_⟩
  · push_cast
    rw [v]
    unfold Finite.value
    ring
  · push_cast
    rw [u, v]
    unfold Finite.lo
    ring
  · push_cast
    rw [v, w]
    unfold Finite.hi
    ring
  · intro t
    have : (10 : ℚ) ^ (1 - k) * 10 ^ i * (10 : ℚ) ^ (k - 1 - i) = 1 := by
      rw [← zpow_natCast, ← zpow_add₀ (by norm_num), ← zpow_add₀ (by norm_num), show 1 - k + (i : ℤ) + (k - 1 - i) = 0 by ring,
        zpow_zero]
    calc _ = s * t * ((10 : ℚ) ^ (1 - k) * 10 ^ i * (10 : ℚ) ^ (k - 1 - i)) := by ring
      _ = _ := by rw [this]; push_cast; ring

/-- Membership of the grid points. -/
theorem ShortestNat.in_iff (i t : Nat) : d.In (t * (10 : ℚ) ^ (k - 1 - i)) ↔
    (within d.inclusive (m * 10 ^ i) (s * t + a * 10 ^ i) = true ∧ within d.inclusive (s * t) ((m + c) * 10 ^ i) = true) := by
  obtain ⟨σ, p, e1, e2, e3, e4⟩ := st.scaled i
  have l1 : d.lo ≤ t * (10 : ℚ) ^ (k - 1 - i) ↔ m * 10 ^ i ≤ s * t + a * 10 ^ i := by
    rw [← mul_le_mul_iff_right₀ p, e4, ← add_le_add_iff_right ((a * 10 ^ i : ℕ) : ℚ), e2]
    norm_cast
  have l2 : d.lo < t * (10 : ℚ) ^ (k - 1 - i) ↔ m * 10 ^ i < s * t + a * 10 ^ i := by
    rw [← mul_lt_mul_iff_right₀ p, e4, ← add_lt_add_iff_right ((a * 10 ^ i : ℕ) : ℚ), e2]
    norm_cast
  have l3 : t * (10 : ℚ) ^ (k - 1 - i) ≤ d.hi ↔ s * t ≤ (m + c) * 10 ^ i := by
    rw [← mul_le_mul_iff_right₀ p, e4, e3]
    norm_cast
  have l4 : t * (10 : ℚ) ^ (k - 1 - i) < d.hi ↔ s * t < (m + c) * 10 ^ i := by
    rw [← mul_lt_mul_iff_right₀ p, e4, e3]
    norm_cast
  unfold Finite.In within
  cases d.inclusive
  · simp only [Bool.false_eq_true, if_false, decide_eq_true_iff]
    rw [l2, l4]
  · simp only [if_true, decide_eq_true_iff]
    rw [l1, l3]

theorem ShortestNat.le_value (i t : Nat) : t * (10 : ℚ) ^ (k - 1 - i) ≤ d.value ↔ t ≤ m * 10 ^ i / s := by
  obtain ⟨σ, p, e1, e2, e3, e4⟩ := st.scaled i
  rw [← mul_le_mul_iff_right₀ p, e4, e1, Nat.le_div_iff_mul_le st.den_pos, Nat.cast_le, mul_comm]

theorem ShortestNat.plus_pos (h : 0 < d.plus) : 0 < c := by
  have hs : (0 : ℚ) < s := by exact_mod_cast st.den_pos
  have hp : (0 : ℚ) < d.plus := by exact_mod_cast h
  have w := st.plus
  have : (0 : ℚ) < (c : ℚ) / s := by
    rw [w]
    positivity
  rw [lt_div_iff₀ hs, zero_mul] at this
  exact_mod_cast this

theorem ShortestNat.down_iff (h : 0 < d.plus) (i : Nat) : downAt d.inclusive s m a i = true ↔
    d.In ((m * 10 ^ i / s : ℕ) * (10 : ℚ) ^ (k - 1 - i)) := by
  rw [st.in_iff]
  have h := Nat.div_add_mod (m * 10 ^ i) s
  have hc : 0 < c * 10 ^ i := Nat.mul_pos (st.plus_pos (by assumption)) (by positivity)
  unfold downAt within
  rw [Nat.add_mul]
  generalize m * 10 ^ i % s = r at *
  generalize s * (m * 10 ^ i / s) = q at *
  cases d.inclusive
  · simp only [Bool.false_eq_true, if_false, decide_eq_true_iff]
    omega
  · simp only [if_true, decide_eq_true_iff]
    omega

theorem ShortestNat.up_iff (i : Nat) : upAt d.inclusive s m c i = true ↔
    d.In ((m * 10 ^ i / s + 1 : ℕ) * (10 : ℚ) ^ (k - 1 - i)) := by
  rw [st.in_iff]
  have h := Nat.div_add_mod (m * 10 ^ i) s
  have hr : m * 10 ^ i % s < s := Nat.mod_lt _ st.den_pos
  unfold upAt within
  rw [Nat.add_mul, Nat.mul_add, Nat.mul_one]
  generalize m * 10 ^ i % s = r at *
  generalize s * (m * 10 ^ i / s) = q at *
  cases d.inclusive
  · simp only [Bool.false_eq_true, if_false, decide_eq_true_iff]
    omega
  · simp only [if_true, decide_eq_true_iff]
    omega

/-- Rounding is possible at step `i` if any multiple of the unit is within the bounds. -/
theorem ShortestNat.stops (h1 : 0 < d.minus) (h2 : 0 < d.plus) {i t : Nat} (h : d.In (t * (10 : ℚ) ^ (k - 1 - i))) :
    (t * (10 : ℚ) ^ (k - 1 - i) ≤ d.value → downAt d.inclusive s m a i = true) ∧
      (d.value < t * (10 : ℚ) ^ (k - 1 - i) → upAt d.inclusive s m c i = true) := by
  have pw : (0 : ℚ) < (10 : ℚ) ^ (k - 1 - i) := by positivity
  constructor
  · intro hv
    rw [st.down_iff h2]
    refine Finite.In.convex h (Finite.In.value h1 h2) ?_ ((st.le_value i _).2 le_rfl)
    have := (st.le_value i t).1 hv
    exact mul_le_mul_of_nonneg_right (by exact_mod_cast this) pw.le
  · intro hv
    rw [st.up_iff]
    refine Finite.In.convex (Finite.In.value h1 h2) h ?_ ?_
    · refine le_of_lt (lt_of_not_ge ?_)
      intro hc
      have := (st.le_value i _).1 hc
      omega
    · have : ¬ t ≤ m * 10 ^ i / s := fun hc => absurd ((st.le_value i t).2 hc) (not_le.2 hv)
      refine mul_le_mul_of_nonneg_right ?_ pw.le
      exact_mod_cast (show m * 10 ^ i / s + 1 ≤ t by omega)

theorem ShortestNat.lo_pos (h : d.minus < d.mant) : 0 < d.lo := by
  have : (d.minus : ℚ) < d.mant := by exact_mod_cast h
  unfold Finite.lo
  have p : (0 : ℚ) < (2 : ℚ) ^ d.exp := by positivity
  exact mul_pos (by linarith) p

theorem ShortestNat.hi_low : (10 : ℚ) ^ (k - 1) ≤ d.hi := by
  obtain ⟨σ, p, e1, e2, e3, e4⟩ := st.scaled 0
  have := e4 1
  rw [Nat.cast_one, one_mul, Nat.cast_zero, sub_zero] at this
  rw [← mul_le_mul_iff_right₀ p, this, e3]
  exact_mod_cast (by simpa using within_le st.low)

end

theorem Finite.In.pos {d : Finite} {x : ℚ} (hx : d.In x) (h : 0 < d.lo) : 0 < x := by
  unfold Finite.In at hx
  split at hx
  · linarith [hx.1]
  · linarith [hx.1]

theorem Finite.In.le_hi {d : Finite} {x : ℚ} (hx : d.In x) : x ≤ d.hi := by
  unfold Finite.In at hx
  split at hx
  · exact hx.2
  · exact hx.2.le

theorem Finite.In.lo_le {d : Finite} {x : ℚ} (hx : d.In x) : d.lo ≤ x := by
  unfold Finite.In at hx
  split at hx
  · exact hx.1
  · exact hx.1.le

/-- A multiple of a larger unit is a multiple of a smaller one. -/
theorem grid_multiple (t : ℕ) {q g : ℤ} (h : g ≤ q) : ∃ t' : ℕ, (t : ℚ) * (10 : ℚ) ^ q = t' * (10 : ℚ) ^ g := by
  obtain ⟨n, hn⟩ := Int.le.dest h
  refine ⟨t * 10 ^ n, ?_⟩
  rw [← hn, zpow_add₀ (by norm_num), zpow_natCast]
  push_cast
  ring

theorem pow_grid (k : Int) (i : ℕ) : ∃ t : ℕ, (10 : ℚ) ^ (k - 1) = t * (10 : ℚ) ^ (k - 1 - i) := by
  obtain ⟨t, h⟩ := grid_multiple 1 (show k - 1 - i ≤ k - 1 by omega)
  exact ⟨t, by rw [← h]; simp⟩

/-- What `format_shortest` guarantees. -/
structure ShortestSpec (d : Finite) (n D : ℕ) (k : ℤ) : Prop where
  n_pos : 1 ≤ n
  n_le : n ≤ 17
  D_low : 10 ^ (n - 1) ≤ D
  D_high : D < 10 ^ n
  within : d.In (D * (10 : ℚ) ^ (k - n))
  shortest : ∀ (n' D' : ℕ) (q : ℤ), D' < 10 ^ n' → d.In (D' * (10 : ℚ) ^ q) → n ≤ n'
  closest : ∀ (D' : ℕ) (q : ℤ), D' < 10 ^ n → d.In (D' * (10 : ℚ) ^ q) →
    |d.value - D * (10 : ℚ) ^ (k - n)| ≤ |d.value - D' * (10 : ℚ) ^ q| ∧
      (|d.value - D * (10 : ℚ) ^ (k - n)| = |d.value - D' * (10 : ℚ) ^ q| → D' * (10 : ℚ) ^ q ≤ D * (10 : ℚ) ^ (k - n))

theorem shortest_spec {d : Finite} (ok : FiniteOk d) (h1 : d.minus = 1) (h2 : d.plus = 1 ∨ d.plus = 2)
    (h3 : 1 < d.mant) (h4 : d.mant + d.plus < (d.minus + d.plus) * 10 ^ 16)
    (hsmall : ∀ k : ℤ, d.value < (10 : ℚ) ^ (k - 1) → (10 : ℚ) ^ (k - 1) ≤ d.hi → 95 * (10 : ℚ) ^ (k - 1) ≤ 100 * d.value) :
    ∃ n D k, ShortestSpec d n D k ∧ Yields (formatShortest d) (lastDigits n D, k) := by
  obtain ⟨k, m, a, c, s, i, st, hi, hstop, hbefore, hy⟩ := formatShortest_canon ok h1 h2 h3 h4
  have m1 : 0 < d.minus := by omega
  have p1 : 0 < d.plus := by omega
  have hlo : 0 < d.lo := st.lo_pos (by omega)
  have hInV := Finite.In.value m1 p1
  have pw : (0 : ℚ) < (10 : ℚ) ^ (k - 1 - i) := by positivity
  have hkn : k - ((i + 1 : ℕ) : ℤ) = k - 1 - i := by push_cast; ring
  have hq1 := (st.le_value i _).2 le_rfl
  have hq2 : d.value < ((m * 10 ^ i / s + 1 : ℕ) : ℚ) * (10 : ℚ) ^ (k - 1 - i) := by
    refine lt_of_not_ge ?_
    intro hc
    have := (st.le_value i _).1 hc
    omega
  -- the comparison of the two candidates
  have hhalf : s ≤ 2 * (m * 10 ^ i % s) ↔ ((m * 10 ^ i / s + 1 : ℕ) : ℚ) * (10 : ℚ) ^ (k - 1 - i) - d.value ≤
      d.value - ((m * 10 ^ i / s : ℕ) : ℚ) * (10 : ℚ) ^ (k - 1 - i) := by
    obtain ⟨σ, p, e1, e2, e3, e4⟩ := st.scaled i
    rw [← mul_le_mul_iff_right₀ p, mul_sub, mul_sub, e1, e4, e4]
    have h := Nat.div_add_mod (m * 10 ^ i) s
    rw [Nat.mul_add, Nat.mul_one]
    have hmid : ((m * 10 ^ i : ℕ) : ℚ) = ((s * (m * 10 ^ i / s) : ℕ) : ℚ) + ((m * 10 ^ i % s : ℕ) : ℚ) := by
      rw [← Nat.cast_add, h]
    rw [hmid]
    generalize s * (m * 10 ^ i / s) = q at *
    generalize m * 10 ^ i % s = r at *
    rw [Nat.cast_add]
    constructor
    · intro h'
      have : (s : ℚ) ≤ 2 * r := by exact_mod_cast h'
      linarith
    · intro h'
      have : (s : ℚ) ≤ 2 * r := by linarith
      exact_mod_cast this
  generalize hq : m * 10 ^ i / s = q at *
  have hdown := st.down_iff p1 i
  have hup := st.up_iff i
  rw [hq] at hdown hup
  -- the chosen candidate is at least as good as any multiple of the unit
  have hbest : ∃ D : ℕ, D = q + (if upAt d.inclusive s m c i = true ∧
      (downAt d.inclusive s m a i = false ∨ s ≤ 2 * (m * 10 ^ i % s)) then 1 else 0) ∧
      d.In (D * (10 : ℚ) ^ (k - 1 - i)) ∧ ∀ t : ℕ, d.In (t * (10 : ℚ) ^ (k - 1 - i)) →
        |d.value - D * (10 : ℚ) ^ (k - 1 - i)| ≤ |d.value - t * (10 : ℚ) ^ (k - 1 - i)| ∧
        (|d.value - D * (10 : ℚ) ^ (k - 1 - i)| = |d.value - t * (10 : ℚ) ^ (k - 1 - i)| →
          t * (10 : ℚ) ^ (k - 1 - i) ≤ D * (10 : ℚ) ^ (k - 1 - i)) := by
    refine ⟨_, rfl, ?_⟩
    have cand : ∀ t : ℕ, (t * (10 : ℚ) ^ (k - 1 - i) ≤ d.value → d.value - q * (10 : ℚ) ^ (k - 1 - i) ≤
        |d.value - t * (10 : ℚ) ^ (k - 1 - i)|) ∧ (d.value < t * (10 : ℚ) ^ (k - 1 - i) →
        ((q + 1 : ℕ) : ℚ) * (10 : ℚ) ^ (k - 1 - i) - d.value ≤ |d.value - t * (10 : ℚ) ^ (k - 1 - i)|) := by
      intro t
      constructor
      · intro hv
        rw [abs_of_nonneg (by linarith)]
        have := (st.le_value i t).1 hv
        rw [hq] at this
        have : (t : ℚ) ≤ q := by exact_mod_cast this
        linarith [mul_le_mul_of_nonneg_right this pw.le]
      · intro hv
        rw [abs_of_neg (by linarith)]
        have : ¬ t ≤ q := by
          intro hc
          rw [← hq] at hc
          exact absurd ((st.le_value i t).2 hc) (not_le.2 hv)
        have : ((q + 1 : ℕ) : ℚ) ≤ t := by exact_mod_cast (show q + 1 ≤ t by omega)
        linarith [mul_le_mul_of_nonneg_right this pw.le]
    by_cases hu : upAt d.inclusive s m c i = true ∧ (downAt d.inclusive s m a i = false ∨ s ≤ 2 * (m * 10 ^ i % s))
    · rw [if_pos hu]
      refine ⟨hup.1 hu.1, ?_⟩
      intro t ht
      rw [abs_of_neg (by linarith)]
      rcases le_or_gt ((t : ℚ) * (10 : ℚ) ^ (k - 1 - i)) d.value with hv | hv
      · rcases hu.2 with hd | hd
        · rw [((st.stops m1 p1 ht).1 hv)] at hd
          cases hd
        · have := hhalf.1 hd
          exact ⟨by linarith [(cand t).1 hv], fun _ => by linarith⟩
      · refine ⟨by linarith [(cand t).2 hv], fun h => ?_⟩
        rw [abs_of_neg (by linarith)] at h
        linarith
    · rw [if_neg hu, Nat.add_zero]
      have hd : downAt d.inclusive s m a i = true := by
        by_contra hc
        rcases hstop with h | h
        · exact hc h
        · exact hu ⟨h, Or.inl (by simpa using hc)⟩
      refine ⟨hdown.1 hd, ?_⟩
      intro t ht
      rw [abs_of_nonneg (by linarith)]
      rcases le_or_gt ((t : ℚ) * (10 : ℚ) ^ (k - 1 - i)) d.value with hv | hv
      · refine ⟨(cand t).1 hv, fun h => ?_⟩
        rw [abs_of_nonneg (by linarith)] at h
        linarith
      · have hu' := (st.stops m1 p1 ht).2 hv
        have : ¬ s ≤ 2 * (m * 10 ^ i % s) := fun hc => hu ⟨hu', Or.inr hc⟩
        rw [hhalf, not_le] at this
        have hc := (cand t).2 hv
        exact ⟨by linarith, fun h => by linarith⟩
  obtain ⟨D, hD, hDin, hDbest⟩ := hbest
  rw [← hD] at hy
  -- the first digit
  have hlead : 10 ^ i ≤ D ∧ (d.value < (10 : ℚ) ^ (k - 1) → i = 0 ∧ D = 1) := by
    rcases le_or_gt ((10 : ℚ) ^ (k - 1)) d.value with hv | hv
    · refine ⟨?_, fun h => absurd h (not_lt.2 hv)⟩
      have e : (10 : ℚ) ^ (k - 1) = ((10 ^ i : ℕ) : ℚ) * (10 : ℚ) ^ (k - 1 - i) := by
        push_cast
        rw [← zpow_natCast, ← zpow_add₀ (by norm_num)]
        congr 1
        ring
      rw [e] at hv
      have := (st.le_value i _).1 hv
      omega
    · have hin : d.In (((1 : ℕ) : ℚ) * (10 : ℚ) ^ (k - 1 - (0 : ℕ))) := by
        have hl := st.low
        have hv1 : ¬ 1 ≤ m * 10 ^ 0 / s := by
          intro hc
          have := (st.le_value 0 1).2 hc
          rw [Nat.cast_one, one_mul, Nat.cast_zero, sub_zero] at this
          linarith
        have hms : m < s := by
          by_contra hc
          apply hv1
          rw [pow_zero, Nat.mul_one, Nat.le_div_iff_mul_le st.den_pos]
          omega
        rw [st.in_iff]
        unfold within at hl ⊢
        cases hinc : d.inclusive
        · rw [hinc] at hl
          simp at hl ⊢
          omega
        · rw [hinc] at hl
          simp at hl ⊢
          omega
      have hup0 : upAt d.inclusive s m c 0 = true := (st.stops m1 p1 hin).2 (by
        rw [Nat.cast_one, one_mul, Nat.cast_zero, sub_zero]
        exact hv)
      have hi0 : i = 0 := by
        by_contra hc
        have := (hbefore 0 (by omega)).2
        rw [hup0] at this
        cases this
      subst hi0
      have hq0 : q = 0 := by
        rw [← hq]
        have hv1 : ¬ 1 ≤ m * 10 ^ 0 / s := by
          intro hc
          have := (st.le_value 0 1).2 hc
          rw [Nat.cast_one, one_mul, Nat.cast_zero, sub_zero] at this
          linarith
        omega
      have hdn : downAt d.inclusive s m a 0 = false := by
        rw [Bool.eq_false_iff]
        intro hc
        have := (hdown.1 hc).pos hlo
        rw [hq0, Nat.cast_zero, zero_mul] at this
        exact lt_irrefl _ this
      rw [if_pos ⟨hup0, Or.inl hdn⟩, hq0] at hD
      exact ⟨by omega, fun _ => ⟨rfl, hD⟩⟩
  have hDlt : D < 10 ^ (i + 1) := by
    have hle := hDin.le_hi
    obtain ⟨σ, p, e1, e2, e3, e4⟩ := st.scaled i
    rw [← mul_le_mul_iff_right₀ p, e4, e3] at hle
    have hin := (st.in_iff i D).1 hDin
    have hh := st.high
    have hin2 := hin.2
    unfold within at hin2 hh
    have p10 : 0 < 10 ^ i := by positivity
    have : s * D < s * 10 ^ (i + 1) := by
      have e : s * 10 ^ (i + 1) = 10 * s * 10 ^ i := by ring
      rw [e]
      cases hinc : d.inclusive
      · rw [hinc] at hin2 hh
        simp only [Bool.false_eq_true, if_false, decide_eq_true_iff, decide_eq_false_iff_not, not_lt] at hin2 hh
        exact lt_of_lt_of_le hin2 (Nat.mul_le_mul_right _ hh)
      · rw [hinc] at hin2 hh
        simp only [if_true, decide_eq_true_iff, decide_eq_false_iff_not, not_le] at hin2 hh
        exact lt_of_le_of_lt hin2 (Nat.mul_lt_mul_of_pos_right hh p10)
    exact Nat.lt_of_mul_lt_mul_left this
  -- a candidate with fewer digits and a smaller unit lies below `10 ^ (k - 1)`
  have hbelow : ∀ (n' D' : ℕ) (q : ℤ), D' < 10 ^ n' → q + n' ≤ k - 1 → (D' : ℚ) * (10 : ℚ) ^ q < (10 : ℚ) ^ (k - 1) := by
    intro n' D' q h h'
    have : (D' : ℚ) < 10 ^ n' := by exact_mod_cast h
    calc (D' : ℚ) * (10 : ℚ) ^ q < 10 ^ n' * (10 : ℚ) ^ q := mul_lt_mul_of_pos_right this (by positivity)
      _ = (10 : ℚ) ^ (n' + q : ℤ) := by rw [zpow_add₀ (by norm_num), zpow_natCast]
      _ ≤ (10 : ℚ) ^ (k - 1) := zpow_le_zpow_right₀ (by norm_num) (by omega)
  refine ⟨i + 1, D, k, ⟨by omega, by omega, by simpa using hlead.1, hDlt, by rw [hkn]; exact hDin, ?_, ?_⟩, hy⟩
  · intro n' D' q' hD' hin
    by_contra hcon
    have hi0 : i ≠ 0 := by
      rintro rfl
      have : n' = 0 := by omega
      subst this
      have : D' = 0 := by simpa using hD'
      subst this
      have := hin.pos hlo
      simp at this
    have hv : (10 : ℚ) ^ (k - 1) ≤ d.value := by
      by_contra hc
      exact hi0 (hlead.2 (not_le.1 hc)).1
    have hn' : n' ≠ 0 := by
      rintro rfl
      have : D' = 0 := by simpa using hD'
      subst this
      have := hin.pos hlo
      simp at this
    have none : ∀ t : ℕ, ¬ d.In (t * (10 : ℚ) ^ (k - 1 - (n' - 1 : ℕ))) := by
      intro t ht
      have hb := hbefore (n' - 1) (by omega)
      have hs := st.stops m1 p1 ht
      rcases le_or_gt ((t : ℚ) * (10 : ℚ) ^ (k - 1 - (n' - 1 : ℕ))) d.value with h | h
      · rw [hs.1 h] at hb
        cases hb.1
      · rw [hs.2 h] at hb
        cases hb.2
    rcases le_or_gt (k - 1 - (n' - 1 : ℕ)) q' with hqk | hqk
    · obtain ⟨t, ht⟩ := grid_multiple D' hqk
      rw [ht] at hin
      exact none t hin
    · have hb := hbelow n' D' q' hD' (by omega)
      obtain ⟨t, ht⟩ := pow_grid k (n' - 1)
      apply none t
      rw [← ht]
      exact Finite.In.convex hin hInV hb.le hv
  · intro D' q' hD' hin
    rw [hkn]
    rcases le_or_gt (k - 1 - i) q' with hqk | hqk
    · obtain ⟨t, ht⟩ := grid_multiple D' hqk
      rw [ht] at hin ⊢
      exact hDbest t hin
    · have hb := hbelow (i + 1) D' q' hD' (by push_cast; omega)
      rcases le_or_gt ((10 : ℚ) ^ (k - 1)) d.value with hv | hv
      · obtain ⟨t, ht⟩ := pow_grid k i
        have := hDbest t (by rw [← ht]; exact Finite.In.convex hin hInV hb.le hv)
        have this := this.1
        have hstrict : |d.value - t * (10 : ℚ) ^ (k - 1 - i)| < |d.value - D' * (10 : ℚ) ^ q'| := by
          rw [← ht, abs_of_nonneg (by linarith), abs_of_nonneg (by linarith)]
          linarith
        exact ⟨by linarith, fun h => by linarith⟩
      · obtain ⟨rfl, rfl⟩ := hlead.2 hv
        have h95 := hsmall k hv st.hi_low
        have hX : (D' : ℚ) * (10 : ℚ) ^ q' ≤ 9 / 10 * (10 : ℚ) ^ (k - 1) := by
          have hD9 : (D' : ℚ) ≤ 9 := by
            have : D' ≤ 9 := by
              rw [Nat.zero_add, pow_one] at hD'
              omega
            exact_mod_cast this
          have hq' : (10 : ℚ) ^ q' ≤ (10 : ℚ) ^ (k - 1 - 1) := zpow_le_zpow_right₀ (by norm_num) (by push_cast at hqk; omega)
          rw [zpow_sub_one₀ (by norm_num)] at hq'
          calc (D' : ℚ) * (10 : ℚ) ^ q' ≤ 9 * ((10 : ℚ) ^ (k - 1) * 10⁻¹) :=
                mul_le_mul hD9 hq' (by positivity) (by norm_num)
            _ = _ := by ring
        have e : ((1 : ℕ) : ℚ) * (10 : ℚ) ^ (k - 1 - ((0 : ℕ) : ℤ)) = (10 : ℚ) ^ (k - 1) := by simp
        rw [e, abs_of_neg (by linarith), abs_of_nonneg (by linarith)]
        exact ⟨by linarith, fun _ => by linarith⟩

end Emio
