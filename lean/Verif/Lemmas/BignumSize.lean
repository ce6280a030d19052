import Verif.Props.Bignum
/-
Which sizes the small operations of the big integers leave.
-/
namespace Emio
open Bignum

theorem carry_step {r x q p : Nat} (hr : r < W) (hx : x ≤ W) :
    r + W * q + x < W * p ↔ q + (decide (W ≤ r + x)).toNat < p := by
  have h : r + W * q + x < W * p ↔ (r + x + W * q) / W < p := by
    rw [Nat.div_lt_iff_lt_mul W_pos, Nat.mul_comm p]
    have : r + W * q + x = r + x + W * q := by omega
    rw [this]
  rw [h, Nat.add_mul_div_left _ _ W_pos]
  by_cases hc : W ≤ r + x
  · have : (r + x) / W = 1 := by
      rw [Nat.div_eq_iff W_pos]; omega
    simp [hc, this, Nat.add_comm]
  · have : (r + x) / W = 0 := Nat.div_eq_of_lt (by omega)
    simp [hc, this]

theorem borrow_step {r x q : Nat} (hr : r < W) (hx : x ≤ W) :
    x ≤ r + W * q ↔ (decide (r < x)).toNat ≤ q := by
  by_cases hc : r < x
  · simp only [hc, decide_true, Bool.toNat_true]
    constructor
    · intro h
      rcases Nat.eq_zero_or_pos q with rfl | h'
      · omega
      · exact h'
    · intro h
      have := Nat.mul_le_mul_left W h
      omega
  · simp only [hc, decide_false, Bool.toNat_false]
    simp only [Nat.zero_le, iff_true]
    omega

theorem mod_pow_succ' (n m : Nat) : n % W ^ (m + 1) = n % W + W * (n / W % W ^ m) := by
  rw [pow_succ, Nat.mul_comm, Nat.mod_mul]

/-- The number of rounds of the carry: the fewest blocks into which the carry fits. -/
theorem carryLoop_count : ∀ k n (c : Bool), n + c.toNat < W ^ k →
    n % W ^ (carryLoop (blocks k n) c).2 + c.toNat < W ^ (carryLoop (blocks k n) c).2 ∧
      ∀ j < (carryLoop (blocks k n) c).2, W ^ j ≤ n % W ^ j + c.toNat := by
  intro k
  induction k with
  | zero =>
    intro n c h
    simp only [pow_zero] at h
    cases c
    · refine ⟨?_, ?_⟩
      · simp [blocks, carryLoop]; omega
      · intro j hj; simp [blocks, carryLoop] at hj
    · simp at h
  | succ k ih =>
    intro n c h
    cases c with
    | false =>
      have e : (carryLoop (blocks (k + 1) n) false).2 = 0 := by rw [blocks_succ]; rfl
      rw [e]
      refine ⟨?_, ?_⟩
      · simp; omega
      · intro j hj; omega
    | true =>
      have hb : n % W < W := Nat.mod_lt _ W_pos
      have e := carryingAdd_eq (a := n % W) (b := 0) (c := true) hb W_pos
      simp only [Bool.toNat_true, Nat.add_zero] at e h ⊢
      rw [blocks_succ]
      simp only [carryLoop, e]
      have hc : (n + 1) / W = n / W + (decide (W ≤ n % W + 1)).toNat := by
        by_cases hle : W ≤ n % W + 1 <;> simp only [hle, decide_true, decide_false, Bool.toNat_true, Bool.toNat_false] <;>
          simp only [W] at * <;> omega
      have hlt : n / W + (decide (W ≤ n % W + 1)).toNat < W ^ k := by
        rw [← hc]
        rw [pow_succ, Nat.mul_comm] at h
        exact Nat.div_lt_of_lt_mul h
      obtain ⟨i1, i2⟩ := ih (n / W) (decide (W ≤ n % W + 1)) hlt
      refine ⟨?_, ?_⟩
      · rw [mod_pow_succ', pow_succ, Nat.mul_comm _ W, carry_step hb W_pos]
        exact i1
      · intro j hj
        cases j with
        | zero => simp
        | succ j =>
          rw [← not_lt, mod_pow_succ', pow_succ, Nat.mul_comm _ W, carry_step hb W_pos, not_lt]
          exact i2 j (by omega)

/-- The number of rounds of the borrow: the fewest blocks that can be borrowed from. -/
theorem borrowLoop_count : ∀ k n (c : Bool), c.toNat ≤ n → n < W ^ k →
    c.toNat ≤ n % W ^ (borrowLoop (blocks k n) c).2 ∧
      ∀ j < (borrowLoop (blocks k n) c).2, n % W ^ j < c.toNat := by
  intro k
  induction k with
  | zero =>
    intro n c h hn
    simp only [pow_zero] at hn
    cases c
    · refine ⟨by simp, ?_⟩
      intro j hj; simp [blocks, borrowLoop] at hj
    · simp at h; omega
  | succ k ih =>
    intro n c h hn
    cases c with
    | false =>
      have e : (borrowLoop (blocks (k + 1) n) false).2 = 0 := by rw [blocks_succ]; rfl
      rw [e]
      refine ⟨by simp, ?_⟩
      intro j hj; omega
    | true =>
      have hb : n % W < W := Nat.mod_lt _ W_pos
      have e := borrowingSub_eq (a := n % W) (b := 0) (c := true) hb W_pos
      simp only [Bool.toNat_true, Nat.zero_add] at e h ⊢
      rw [blocks_succ]
      simp only [borrowLoop, e]
      have hc : (decide (n % W < 1)).toNat ≤ n / W := by
        by_cases hle : n % W < 1 <;> simp only [hle, decide_true, decide_false, Bool.toNat_true, Bool.toNat_false] <;>
          simp only [W] at * <;> omega
      have hlt : n / W < W ^ k := by
        rw [pow_succ, Nat.mul_comm] at hn
        exact Nat.div_lt_of_lt_mul hn
      obtain ⟨i1, i2⟩ := ih (n / W) (decide (n % W < 1)) hc hlt
      refine ⟨?_, ?_⟩
      · rw [mod_pow_succ', borrow_step hb W_pos]
        exact i1
      · intro j hj
        cases j with
        | zero => simp [Nat.mod_one]
        | succ j =>
          rw [← not_le, mod_pow_succ', borrow_step hb W_pos, not_le]
          exact i2 j (by omega)

/-- The size that `add_small_at` leaves. -/
theorem addSmallAt_size {sz n i k : Nat} {z : Bignum} (hi : i < 34) (hk : k < W) (h : n + k * W ^ i < W ^ 34)
    (hz : (Bignum.mk sz (blocks 34 n)).addSmallAt i k = some z) :
    ∃ m, z.size = i + m ∧ 1 ≤ m ∧ n / W ^ i % W ^ m + k < W ^ m ∧ ∀ j, 1 ≤ j → j < m → W ^ j ≤ n / W ^ i % W ^ j + k := by
  obtain ⟨t, ht⟩ : ∃ t, 34 = i + (t + 1) := ⟨33 - i, by omega⟩
  unfold addSmallAt at hz
  have hd : (blocks 34 n).drop i = blocks (t + 1) (n / W ^ i) := by
    rw [blocks_drop (by omega)]; congr 1; omega
  have hpos : 0 < W ^ i := Nat.pow_pos W_pos
  have hm : n / W ^ i + k < W ^ (t + 1) := by
    rw [← Nat.add_mul_div_right _ _ hpos]
    refine Nat.div_lt_of_lt_mul ?_
    rw [← pow_add, ← ht]; exact h
  simp only at hz
  rw [hd, blocks_succ] at hz
  generalize n / W ^ i = m at hm hz ⊢
  have hb : m % W < W := Nat.mod_lt _ W_pos
  have e := carryingAdd_eq (a := m % W) (b := k) (c := false) hb hk
  simp only [Bool.toNat_false, Nat.add_zero] at e
  simp only [e] at hz
  have hc : (m + k) / W = m / W + (decide (W ≤ m % W + k)).toNat := by
    by_cases hle : W ≤ m % W + k <;> simp only [hle, decide_true, decide_false, Bool.toNat_true, Bool.toNat_false] <;>
      simp only [W] at * <;> omega
  have hlt : m / W + (decide (W ≤ m % W + k)).toNat < W ^ t := by
    rw [← hc]
    rw [pow_succ, Nat.mul_comm] at hm
    exact Nat.div_lt_of_lt_mul hm
  obtain ⟨i1, i2⟩ := carryLoop_count _ _ _ hlt
  obtain rfl := Option.some.inj hz
  refine ⟨1 + (carryLoop (blocks t (m / W)) (decide (W ≤ m % W + k))).2, by simp; omega, by omega, ?_, ?_⟩
  · rw [Nat.add_comm 1, mod_pow_succ', pow_succ, Nat.mul_comm _ W, carry_step hb hk.le]
    exact i1
  · intro j hj hj2
    obtain ⟨j, rfl⟩ : ∃ i, j = i + 1 := ⟨j - 1, by omega⟩
    rw [← not_lt, mod_pow_succ', pow_succ, Nat.mul_comm _ W, carry_step hb hk.le, not_lt]
    exact i2 j (by omega)

/-- The size that `sub_small` leaves. -/
theorem subSmall_size {sz n k : Nat} {z : Bignum} (hk : k < W) (hn : n < W ^ 34) (h : k ≤ n)
    (hz : (Bignum.mk sz (blocks 34 n)).subSmall k = some z) :
    ∃ m, z.size = (if m = sz ∧ sz ≠ 1 then sz - 1 else sz) ∧ 1 ≤ m ∧ k ≤ n % W ^ m ∧ ∀ j, 1 ≤ j → j < m → n % W ^ j < k := by
  unfold subSmall at hz
  rw [show (34 : Nat) = 33 + 1 by rfl, blocks_succ 33 n] at hz
  have hb : n % W < W := Nat.mod_lt _ W_pos
  have e := borrowingSub_eq (a := n % W) (b := k) (c := false) hb hk
  simp only [Bool.toNat_false, Nat.add_zero] at e
  simp only [e] at hz
  have hc : (decide (n % W < k)).toNat ≤ n / W := by
    by_cases hle : n % W < k <;> simp only [hle, decide_true, decide_false, Bool.toNat_true, Bool.toNat_false] <;>
      simp only [W] at * <;> omega
  have hlt : n / W < W ^ 33 := by
    rw [show (34 : Nat) = 33 + 1 by rfl, pow_succ, Nat.mul_comm] at hn
    exact Nat.div_lt_of_lt_mul hn
  obtain ⟨i1, i2⟩ := borrowLoop_count _ _ _ hc hlt
  obtain rfl := Option.some.inj hz
  refine ⟨1 + (borrowLoop (blocks 33 (n / W)) (decide (n % W < k))).2, rfl, by omega, ?_, ?_⟩
  · rw [Nat.add_comm 1, mod_pow_succ', borrow_step hb hk.le]
    exact i1
  · intro j hj hj2
    obtain ⟨j, rfl⟩ : ∃ i, j = i + 1 := ⟨j - 1, by omega⟩
    rw [← not_le, mod_pow_succ', borrow_step hb hk.le, not_le]
    exact i2 j (by omega)

theorem represents_of_holds {z : Bignum} {n : Nat} (h : Holds z n) : Represents z n ↔ z.size = limbs n := by
  obtain ⟨h1, h2⟩ := holds_iff.1 h
  rw [represents_iff]
  constructor
  · rintro ⟨rfl, _⟩; rfl
  · intro hs
    refine ⟨?_, ?_⟩
    · obtain ⟨sz, b⟩ := z
      simp only at h1 hs
      subst h1 hs
      rfl
    · rw [cap_pow]; exact h2

end Emio
