import Verif.Lemmas.Reads
/-
The shortest digits of a double read as that double.
-/
namespace Emio

/-- The middles between subnormal numbers have many digits. -/
theorem no_tie {D t : Nat} {q : ℤ} (hD : D < 10 ^ 17) (h : (D : ℚ) * (10 : ℚ) ^ q = ((2 * t + 1 : ℕ) : ℚ) * (2 : ℚ) ^ (-1075 : ℤ)) :
    False := by
  have e2 : (2 : ℚ) ^ (-1075 : ℤ) = 1 / ((2 ^ 1075 : ℕ) : ℚ) := by
    rw [show (-1075 : ℤ) = -((1075 : ℕ) : ℤ) by norm_num, zpow_neg, zpow_natCast, one_div, Nat.cast_pow]
    rfl
  have g2 : ((2 ^ 1075 : ℕ) : ℚ) ≠ 0 := by exact_mod_cast (show 2 ^ 1075 ≠ 0 by positivity)
  have hpow : ∃ p, 2 ^ 1075 = 2 * p := ⟨2 ^ 1074, by rw [← pow_succ']⟩
  rw [e2, mul_one_div, eq_div_iff g2] at h
  rcases lt_or_ge q 0 with hq | hq
  · obtain ⟨j, rfl⟩ := Int.exists_eq_neg_ofNat hq.le
    have g3 : ((10 ^ j : ℕ) : ℚ) ≠ 0 := by exact_mod_cast (show 10 ^ j ≠ 0 by positivity)
    have e3 : (10 : ℚ) ^ (-(j : ℤ)) = 1 / ((10 ^ j : ℕ) : ℚ) := by
      rw [zpow_neg, zpow_natCast, one_div, Nat.cast_pow]
      rfl
    rw [e3, mul_one_div, div_mul_eq_mul_div, div_eq_iff g3] at h
    have h' : D * 2 ^ 1075 = (2 * t + 1) * 10 ^ j := by exact_mod_cast h
    rw [show (10 : ℕ) = 2 * 5 by rfl, mul_pow] at h'
    rcases Nat.lt_or_ge j 1075 with hj | hj
    · obtain ⟨r, hr⟩ := Nat.exists_eq_add_of_lt hj
      rw [hr, show j + r + 1 = j + (r + 1) by ring, pow_add] at h'
      have h'' : 2 ^ j * (D * 2 ^ (r + 1)) = 2 ^ j * ((2 * t + 1) * 5 ^ j) := by
        rw [← mul_assoc, mul_comm (2 ^ j) D, mul_assoc, h']
        ring
      have h3 := Nat.eq_of_mul_eq_mul_left (by positivity) h''
      have o1 : Odd ((2 * t + 1) * 5 ^ j) := Odd.mul ⟨t, rfl⟩ (Odd.pow (by decide))
      have o2 : Even (D * 2 ^ (r + 1)) := Even.mul_left (by rw [pow_succ]; exact even_two.mul_left _) _
      rw [h3] at o2
      exact (Nat.not_even_iff_odd.2 o1) o2
    · obtain ⟨r, rfl⟩ := Nat.exists_eq_add_of_le hj
      have h'' : 2 ^ 1075 * D = 2 ^ 1075 * ((2 * t + 1) * 2 ^ r * 5 ^ (1075 + r)) := by
        rw [mul_comm, h', pow_add 2]
        ring
      have h3 := Nat.eq_of_mul_eq_mul_left (by positivity) h''
      have h5 : 5 ^ 1075 ≤ 5 ^ (1075 + r) := Nat.pow_le_pow_right (by decide) (Nat.le_add_right _ _)
      have h6 : 5 ^ (1075 + r) ≤ (2 * t + 1) * 2 ^ r * 5 ^ (1075 + r) := Nat.le_mul_of_pos_left _ (Nat.mul_pos (Nat.succ_pos _) (Nat.two_pow_pos _))
      have h7 : 10 ^ 17 ≤ 5 ^ 1075 := by decide +kernel
      generalize (2 * t + 1) * 2 ^ r * 5 ^ (1075 + r) = z at *
      generalize 5 ^ (1075 + r) = w at *
      generalize 5 ^ 1075 = w' at *
      omega
  · lift q to ℕ using hq
    obtain ⟨p, hp⟩ := hpow
    rw [hp, zpow_natCast] at h
    have h' : D * 10 ^ q * (2 * p) = 2 * t + 1 := by exact_mod_cast h
    have : D * 10 ^ q * (2 * p) = 2 * (D * 10 ^ q * p) := by ring
    omega

theorem shortest_of_spec {b : Nat} {d : Finite} (sp : DecodeSpec b d) (h0 : b ≠ 0) (hb : b < 2047 * 2 ^ 52)
    (hne : b ≠ 2 ^ 52) {n D : ℕ} {k : ℤ} (s : ShortestSpec d n D k) : Shortest b n D k := by
  have hlo := sp.lo_eq hne
  have hhi := sp.hi_eq
  have hinc := sp.inclusive
  have toIn : ∀ x, ReadsAs x b → d.In x := by
    intro x hx
    rw [readsAs_iff h0 hb] at hx
    unfold Finite.In
    rw [hlo, hhi]
    split
    · refine ⟨?_, ?_⟩
      · rcases hx.1 with h | ⟨h, _⟩ <;> linarith
      · rcases hx.2 with h | ⟨h, _⟩ <;> linarith
    · rename_i hi
      rw [hinc] at hi
      simp only [Bool.or_eq_true, decide_eq_true_iff, not_or] at hi
      refine ⟨?_, ?_⟩
      · rcases hx.1 with h | ⟨_, h⟩
        · exact h
        · exact absurd h hi.2
      · rcases hx.2 with h | ⟨_, h⟩
        · exact h
        · exact absurd h hi.2
  refine ⟨s.n_pos, s.n_le, s.D_low, s.D_high, ?_, ?_, ?_⟩
  · have hw := s.within
    rw [readsAs_iff h0 hb]
    unfold Finite.In at hw
    rw [hlo, hhi] at hw
    split at hw
    · rename_i hi
      by_cases hev : fractionOf b % 2 = 0
      · refine ⟨?_, ?_⟩
        · rcases lt_or_eq_of_le hw.1 with h | h
          · exact Or.inl h
          · exact Or.inr ⟨h, hev⟩
        · rcases lt_or_eq_of_le hw.2 with h | h
          · exact Or.inl h
          · exact Or.inr ⟨h, hev⟩
      · rw [hinc] at hi
        simp only [Bool.or_eq_true, decide_eq_true_iff, hev, or_false] at hi
        obtain ⟨u1, u2⟩ := sp.ulp hi
        have hD : D < 10 ^ 17 := lt_of_lt_of_le s.D_high (Nat.pow_le_pow_right (by decide) s.n_le)
        refine ⟨Or.inl (lt_of_le_of_ne hw.1 ?_), Or.inl (lt_of_le_of_ne hw.2 ?_)⟩
        · intro he
          rw [← hlo] at he
          unfold Finite.lo at he
          rw [u1, u2, sp.minus_one] at he
          apply no_tie (t := b - 1) hD (q := k - n)
          rw [← he]
          congr 1
          have : ((2 * b : ℕ) : ℚ) = ((2 * (b - 1) + 1 : ℕ) : ℚ) + 1 := by
            rw [show 2 * b = 2 * (b - 1) + 1 + 1 by omega]
            push_cast
            ring
          rw [this]
          push_cast
          ring
        · intro he
          rw [← hhi] at he
          unfold Finite.hi at he
          have hp : d.plus = 1 := by
            have hp := sp.plus
            have h1 := magnitude_succ hb
            rw [h1] at hp
            have hu : ulpExp b = -1074 := by unfold ulpExp; rw [if_pos hi]
            have h2z : (2 : ℚ) ^ (-1074 : ℤ) = 2 * (2 : ℚ) ^ (-1075 : ℤ) := by
              rw [← two_zpow_succ]
              norm_num
            rw [hu, u1, h2z] at hp
            have pp : (2 : ℚ) ^ (-1075 : ℤ) ≠ 0 := by positivity
            have : (d.plus : ℚ) = 1 := by
              apply mul_right_cancel₀ pp
              rw [hp]
              ring
            exact_mod_cast this
          rw [u1, u2, hp] at he
          apply no_tie (t := b) hD (q := k - n)
          rw [he]
          push_cast
          ring
    · exact ⟨Or.inl hw.1, Or.inl hw.2⟩
  · intro n' D' q h1 h2
    exact s.shortest n' D' q h1 (toIn _ h2)
  · intro D' q h1 h2
    rw [← sp.value]
    exact s.closest D' q h1 (toIn _ h2)

theorem frac_lt {A e B f : ℕ} (h : A * 2 ^ f < B * 10 ^ e) :
    (A : ℚ) * (10 : ℚ) ^ (-(e : ℤ)) < (B : ℚ) * (2 : ℚ) ^ (-(f : ℤ)) := by
  have g1 : (0 : ℚ) < (10 : ℚ) ^ e := by positivity
  have g2 : (0 : ℚ) < (2 : ℚ) ^ f := by positivity
  rw [zpow_neg, zpow_neg, zpow_natCast, zpow_natCast, ← div_eq_mul_inv, ← div_eq_mul_inv, div_lt_div_iff₀ g1 g2]
  exact_mod_cast h

theorem frac_gt {A e B f : ℕ} (h : B * 10 ^ e < A * 2 ^ f) :
    (B : ℚ) * (2 : ℚ) ^ (-(f : ℤ)) < (A : ℚ) * (10 : ℚ) ^ (-(e : ℤ)) := by
  have g1 : (0 : ℚ) < (10 : ℚ) ^ e := by positivity
  have g2 : (0 : ℚ) < (2 : ℚ) ^ f := by positivity
  rw [zpow_neg, zpow_neg, zpow_natCast, zpow_natCast, ← div_eq_mul_inv, ← div_eq_mul_inv, div_lt_div_iff₀ g2 g1]
  exact_mod_cast h

/-- The smallest normal number. -/
theorem shortest_min_normal : Shortest (2 ^ 52) 17 22250738585072014 (-307) := by
  have z : (2 : ℚ) ^ (-1074 : ℤ) = 2 * (2 : ℚ) ^ (-1075 : ℤ) := by
    rw [← two_zpow_succ]
    norm_num
  have mag : magnitude (2 ^ 52) = ((2 ^ 53 : ℕ) : ℚ) * (2 : ℚ) ^ (-1075 : ℤ) := by
    rw [magnitude_eq, show mantissaOf (2 ^ 52) = 2 ^ 52 by decide, show ulpExp (2 ^ 52) = -1074 by decide, z]
    push_cast
    ring
  have up : halfUp (2 ^ 52) = ((2 ^ 53 + 1 : ℕ) : ℚ) * (2 : ℚ) ^ (-1075 : ℤ) := by
    unfold halfUp
    rw [mag, magnitude_eq (2 ^ 52 + 1), show mantissaOf (2 ^ 52 + 1) = 2 ^ 52 + 1 by decide,
      show ulpExp (2 ^ 52 + 1) = -1074 by decide, z]
    push_cast
    ring
  have down : halfDown (2 ^ 52) = ((2 ^ 53 - 1 : ℕ) : ℚ) * (2 : ℚ) ^ (-1075 : ℤ) := by
    unfold halfDown
    rw [mag, magnitude_eq (2 ^ 52 - 1), show mantissaOf (2 ^ 52 - 1) = 2 ^ 52 - 1 by decide,
      show ulpExp (2 ^ 52 - 1) = -1074 by decide, z]
    rw [show 2 ^ 52 - 1 = 4503599627370495 by decide, show 2 ^ 53 - 1 = 9007199254740991 by decide]
    push_cast
    ring
  have reads := readsAs_iff (b := 2 ^ 52) (by decide) (by decide)
  have hx : (22250738585072014 : ℕ) * (10 : ℚ) ^ ((-307 : ℤ) - (17 : ℕ)) = (22250738585072014 : ℕ) * (10 : ℚ) ^ (-((324 : ℕ) : ℤ)) := by
    norm_num
  have e : (2 : ℚ) ^ (-1075 : ℤ) = (2 : ℚ) ^ (-((1075 : ℕ) : ℤ)) := by norm_num
  rw [e] at mag up down
  have small : ∀ (n' D' : ℕ) (q : ℤ), D' < 10 ^ n' → q + n' ≤ -308 → ¬ ReadsAs (D' * (10 : ℚ) ^ q) (2 ^ 52) := by
    intro n' D' q h1 h2 h3
    rw [reads] at h3
    have hlt : (D' : ℚ) * (10 : ℚ) ^ q < ((1 : ℕ) : ℚ) * (10 : ℚ) ^ (-((308 : ℕ) : ℤ)) := by
      have : (D' : ℚ) < 10 ^ n' := by exact_mod_cast h1
      calc (D' : ℚ) * (10 : ℚ) ^ q < 10 ^ n' * (10 : ℚ) ^ q := mul_lt_mul_of_pos_right this (by positivity)
        _ = (10 : ℚ) ^ (n' + q : ℤ) := by rw [zpow_add₀ (by norm_num), zpow_natCast]
        _ ≤ (10 : ℚ) ^ (-((308 : ℕ) : ℤ)) := zpow_le_zpow_right₀ (by norm_num) (by push_cast; omega)
        _ = _ := by rw [Nat.cast_one, one_mul]
    have := frac_lt (A := 1) (e := 308) (B := 2 ^ 53 - 1) (f := 1075) (by decide +kernel)
    rw [← down] at this
    rcases h3.1 with h | ⟨h, _⟩ <;> linarith
  -- the distance is at most half a unit
  have m1 := frac_lt (A := 44501477170144027) (e := 324) (B := 2 ^ 54) (f := 1075) (by decide +kernel)
  have m2 := frac_gt (A := 44501477170144029) (e := 324) (B := 2 ^ 54) (f := 1075) (by decide +kernel)
  have mag2 : ((2 ^ 54 : ℕ) : ℚ) * (2 : ℚ) ^ (-((1075 : ℕ) : ℤ)) = 2 * magnitude (2 ^ 52) := by
    rw [mag]
    push_cast
    ring
  rw [mag2] at m1 m2
  refine ⟨by decide, by decide, by decide, by decide, ?_, ?_, ?_⟩
  · rw [hx, reads, up, down]
    exact ⟨Or.inl (frac_gt (by decide +kernel)), Or.inl (frac_lt (by decide +kernel))⟩
  · intro n' D' q h1 h2
    by_contra hc
    rcases le_or_gt (-323 : ℤ) q with hq | hq
    · obtain ⟨t, ht⟩ := grid_multiple D' hq
      rw [ht, reads, up, down] at h2
      have pw : (0 : ℚ) < (10 : ℚ) ^ (-323 : ℤ) := by positivity
      rcases Nat.lt_or_ge t 2225073858507202 with h | h
      · have a1 := frac_lt (A := 2225073858507201) (e := 323) (B := 2 ^ 53 - 1) (f := 1075) (by decide +kernel)
        have a2 : (t : ℚ) ≤ (2225073858507201 : ℕ) := by exact_mod_cast (show t ≤ 2225073858507201 by omega)
        have a3 := mul_le_mul_of_nonneg_right a2 pw.le
        rw [show (-323 : ℤ) = -((323 : ℕ) : ℤ) by norm_num] at a3 h2
        rcases h2.1 with h | ⟨h, _⟩ <;> linarith
      · have a1 := frac_gt (A := 2225073858507202) (e := 323) (B := 2 ^ 53 + 1) (f := 1075) (by decide +kernel)
        have a2 : ((2225073858507202 : ℕ) : ℚ) ≤ t := by exact_mod_cast h
        have a3 := mul_le_mul_of_nonneg_right a2 pw.le
        rw [show (-323 : ℤ) = -((323 : ℕ) : ℤ) by norm_num] at a3 h2
        rcases h2.2 with h | ⟨h, _⟩ <;> linarith
    · exact small n' D' q h1 (by omega) h2
  · intro D' q h1 h2
    rcases le_or_gt (-324 : ℤ) q with hq | hq
    · obtain ⟨t, ht⟩ := grid_multiple D' hq
      rw [ht, hx]
      rw [show (-324 : ℤ) = -((324 : ℕ) : ℤ) by norm_num]
      have pw : (0 : ℚ) < (10 : ℚ) ^ (-((324 : ℕ) : ℤ)) := by positivity
      generalize (10 : ℚ) ^ (-((324 : ℕ) : ℤ)) = u at *
      generalize magnitude (2 ^ 52) = v at *
      have hlow : v - (22250738585072014 : ℕ) * u < u / 2 := by
        push_cast at m1 m2 ⊢
        linarith
      have hhigh : -(u / 2) < v - (22250738585072014 : ℕ) * u := by
        push_cast at m1 m2 ⊢
        linarith
      have habs : |v - (22250738585072014 : ℕ) * u| ≤ u / 2 := by
        rw [abs_le]
        push_cast at m1 m2 ⊢
        constructor <;> linarith
      have hstrict : |v - (22250738585072014 : ℕ) * u| < u / 2 := abs_lt.2 ⟨hhigh, hlow⟩
      rcases Nat.lt_trichotomy t 22250738585072014 with h | h | h
      · have : (t : ℚ) ≤ 22250738585072013 := by exact_mod_cast (show t ≤ 22250738585072013 by omega)
        have := mul_le_mul_of_nonneg_right this pw.le
        push_cast at m1 m2
        rw [abs_of_nonneg (show 0 ≤ v - t * u by linarith)]
        have far := lt_trans hstrict (show u / 2 < v - t * u by linarith)
        exact ⟨far.le, fun h => absurd h far.ne⟩
      · rw [h]
        exact ⟨le_rfl, fun _ => le_rfl⟩
      · have : (22250738585072015 : ℚ) ≤ t := by exact_mod_cast (show 22250738585072015 ≤ t by omega)
        have := mul_le_mul_of_nonneg_right this pw.le
        push_cast at m1 m2
        rw [abs_of_neg (show v - t * u < 0 by linarith)]
        have far := lt_trans hstrict (show u / 2 < -(v - t * u) by linarith)
        exact ⟨far.le, fun h => absurd h far.ne⟩
    · exact absurd h2 (small 17 D' q h1 (by omega))

/-- The digits of every finite double that is not zero. -/
theorem shortest_double {bits : Nat} (hb : bits < 2 ^ 64) (hf : IsFinite bits) (h0 : bits % 2 ^ 63 ≠ 0) :
    ∃ n D k, Shortest (bits % 2 ^ 63) n D k ∧ Yields (formatShortest (decode bits).finite) (lastDigits n D, k) := by
  obtain ⟨_, _, sp⟩ := decode_spec hb hf h0
  have hlt : bits % 2 ^ 63 < 2047 * 2 ^ 52 := by
    unfold IsFinite exponentOf at hf
    omega
  by_cases hne : bits % 2 ^ 63 = 2 ^ 52
  · refine ⟨17, 22250738585072014, -307, by rw [hne]; exact shortest_min_normal, ?_⟩
    have : bits = 2 ^ 52 ∨ bits = 2 ^ 63 + 2 ^ 52 := by omega
    rcases this with rfl | rfl
    · unfold Yields; decide +kernel
    · unfold Yields; decide +kernel
  · obtain ⟨n, D, k, s, y⟩ := shortest_spec sp.ok sp.minus_one sp.plus_one
      (by have := sp.ok.pos; have := sp.even; omega) sp.size (sp.small hlt h0)
    exact ⟨n, D, k, shortest_of_spec sp h0 hlt hne s, y⟩

end Emio
