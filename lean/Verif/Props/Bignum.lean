import Verif.Props.Float
import Verif.Lemmas.BignumRest
/-
Property C65: the other operations of the big integers are exact.
-/
namespace Emio
open Bignum

/-- The 34 blocks of a big integer have the value `n`; nothing is said about its size. -/
structure Holds (x : Bignum) (n : Nat) : Prop where
  length : x.base.length = 34
  blocks : ∀ d ∈ x.base, d < 2 ^ 32
  value : Nat.ofDigits (2 ^ 32) x.base = n

theorem holds_iff {x : Bignum} {n : Nat} : Holds x n ↔ x.base = Emio.blocks 34 n ∧ n < W ^ 34 := by
  have hW : (2 ^ 32 : Nat) = W := by decide
  constructor
  · rintro ⟨h1, h2, h3⟩
    rw [hW] at h2 h3
    refine ⟨?_, ?_⟩
    · rw [← h3, ← h1]; exact (blocks_ofDigits _ h2).symm
    · rw [← h3, ← h1]; exact Nat.ofDigits_lt_base_pow_length (by decide) h2
  · rintro ⟨h1, h2⟩
    refine ⟨by rw [h1]; exact blocks_length _ _, ?_, ?_⟩
    · rw [hW, h1]; exact Bignum.blocks_lt _ _
    · rw [hW, h1]; exact ofDigits_blocks _ _ h2

theorem Represents.holds {x : Bignum} {n : Nat} (h : Represents x n) : Holds x n := ⟨h.length, h.blocks, h.value⟩

theorem cap_pow : (2 ^ 1088 : Nat) = W ^ 34 := by decide +kernel

/-- `get_bit(i)` is the bit with weight 2^i. -/
theorem C65_get_bit {x : Bignum} {a : Nat} (hx : Holds x a) (i : Nat) (hi : i < 1088) :
    x.getBit i = some (a / 2 ^ i % 2) := by
  obtain ⟨h1, _⟩ := holds_iff.1 hx
  unfold getBit
  rw [h1, blocks_get (by omega)]
  simp only [Nat.shiftRight_eq_div_pow, Nat.and_one_is_mod]
  congr 1
  have e : (2 : Nat) ^ i = W ^ (i / 32) * 2 ^ (i % 32) := by
    rw [show W = 2 ^ 32 by decide, ← pow_mul, ← pow_add, Nat.div_add_mod]
  rw [e, ← Nat.div_div_eq_div_mul]
  generalize a / W ^ (i / 32) = m
  have hb : i % 32 < 32 := Nat.mod_lt _ (by decide)
  generalize i % 32 = b at hb
  have h := Nat.testBit_mod_two_pow m 32 b
  rw [Nat.testBit_eq_decide_div_mod_eq, Nat.testBit_eq_decide_div_mod_eq, decide_eq_true hb, Bool.true_and,
    decide_eq_decide] at h
  have hW : W = 2 ^ 32 := by decide
  rw [hW]
  omega

/-- Adding 32 bits at block `i`, or at the lowest block, is exact in value. -/
theorem C65_add_small_partial {x : Bignum} {a : Nat} (hx : Holds x a) (i k : Nat) (hi : i < 34) (hk : k < 2 ^ 32)
    (h : a + k * (2 ^ 32) ^ i < 2 ^ 1088) :
    (∃ z, x.addSmallAt i k = some z ∧ Holds z (a + k * (2 ^ 32) ^ i)) ∧
      (i = 0 → ∃ z, x.addSmall k = some z ∧ Holds z (a + k)) := by
  have hW : (2 ^ 32 : Nat) = W := by decide
  obtain ⟨h1, h2⟩ := holds_iff.1 hx
  rw [hW] at hk h
  rw [cap_pow] at h
  obtain ⟨sz, base⟩ := x
  obtain rfl : base = _ := h1
  obtain ⟨sz', h3⟩ := addSmallAt_blocks (sz := sz) hi hk h
  refine ⟨⟨_, h3, ?_⟩, ?_⟩
  · rw [hW]; exact holds_iff.2 ⟨rfl, h⟩
  · rintro rfl
    simp only [pow_zero, Nat.mul_one] at h3 h
    exact ⟨_, h3, holds_iff.2 ⟨rfl, h⟩⟩

/-- Subtracting 32 bits is exact in value. -/
theorem C65_sub_small_partial {x : Bignum} {a : Nat} (hx : Holds x a) (k : Nat) (hk : k < 2 ^ 32) (h : k ≤ a) :
    ∃ z, x.subSmall k = some z ∧ Holds z (a - k) := by
  obtain ⟨h1, h2⟩ := holds_iff.1 hx
  obtain ⟨sz, base⟩ := x
  obtain rfl : base = _ := h1
  obtain ⟨sz', h3⟩ := subSmall_blocks (sz := sz) hk h2 h
  exact ⟨_, h3, holds_iff.2 ⟨rfl, by omega⟩⟩

theorem represents_digits {x : Bignum} {a : Nat} (hx : Represents x a) :
    ∃ ds, x.digits = some ds ∧ ds.length = limbs a ∧ (∀ d ∈ ds, d < W) ∧ Nat.ofDigits W ds = a := by
  obtain ⟨rfl, h⟩ := represents_iff.1 hx
  rw [cap_pow] at h
  have hl : limbs a ≤ 34 := limbs_le h
  refine ⟨blocks (limbs a) a, ?_, blocks_length _ _, Bignum.blocks_lt _ _, ofDigits_blocks _ _ ((limbs_le_iff _ _).1 le_rfl)⟩
  have e : (canon a).base = blocks 34 a := rfl
  have e2 : (canon a).size = limbs a := rfl
  unfold digits
  rw [e, e2, blocks_length, if_pos hl, blocks_take hl]

/-- Multiplication of two big integers, and with digits, is exact in value. -/
theorem C65_mul_partial {x y : Bignum} {a b : Nat} (hx : Represents x a) (hy : Represents y b) (h : a * b < 2 ^ 1088) :
    (∃ z, x.mul y = some z ∧ Holds z (a * b)) ∧
      ∀ ds, y.digits = some ds → ∃ z, x.mulDigits ds = some z ∧ Holds z (a * b) := by
  obtain ⟨ds, h1, h2, h3, h4⟩ := represents_digits hx
  obtain ⟨es, k1, k2, k3, k4⟩ := represents_digits hy
  rw [cap_pow] at h
  have hl : a ≠ 0 → b ≠ 0 → limbs a + limbs b ≤ 35 := by
    intro ha hb
    by_contra hgt
    have e1 : W ^ (limbs a - 1) ≤ a := (lt_limbs_iff _ _).1 (by have := limbs_pos ha; omega)
    have e2 : W ^ (limbs b - 1) ≤ b := (lt_limbs_iff _ _).1 (by have := limbs_pos hb; omega)
    have e3 := Nat.mul_le_mul e1 e2
    rw [← pow_add] at e3
    have e4 : W ^ 34 ≤ W ^ (limbs a - 1 + (limbs b - 1)) := Nat.pow_le_pow_right W_pos (by omega)
    omega
  have hne : ∀ (n : Nat) (l : List Nat), l.length = limbs n → l ≠ [] → n ≠ 0 := by
    rintro n l hl h0 rfl
    rw [limbs_zero] at hl
    exact h0 (List.length_eq_zero_iff.1 hl)
  have e0 : ofU32 0 = ⟨1, blocks 34 0⟩ := by decide
  have key : ∃ z, x.mulDigits es = some z ∧ Holds z (a * b) := by
    unfold mulDigits
    simp only [h1]
    split
    · rename_i hgt
      obtain ⟨sz, h5⟩ := mulRows_blocks (max := ds) h3 es 0 1 0 k3 (fun h0 => by
        have hb := hne b es k2 h0
        by_cases ha : a = 0
        · subst ha; rw [limbs_zero] at h2; omega
        · have := hl ha hb; omega) (by rw [k4, h4]; simpa [Nat.mul_comm] using h)
      rw [e0]
      refine ⟨_, h5, holds_iff.2 ⟨?_, h⟩⟩
      rw [k4, h4]
      simp [Nat.mul_comm]
    · rename_i hle
      obtain ⟨sz, h5⟩ := mulRows_blocks (max := es) k3 ds 0 1 0 h3 (fun h0 => by
        have ha := hne a ds h2 h0
        by_cases hb : b = 0
        · subst hb; rw [limbs_zero] at k2
          have : ds.length ≠ 0 := fun h => h0 (List.length_eq_zero_iff.1 h)
          omega
        · have := hl ha hb; omega) (by rw [k4, h4]; simpa using h)
      rw [e0]
      refine ⟨_, h5, holds_iff.2 ⟨?_, h⟩⟩
      rw [k4, h4]
      simp
  refine ⟨?_, ?_⟩
  · unfold mul
    simp only [k1]
    exact key
  · intro l hl'
    rw [k1] at hl'
    obtain rfl := Option.some.inj hl'
    exact key

/-- Division by 32 bits gives quotient and remainder. -/
theorem C65_div_rem_small_partial {x : Bignum} {a : Nat} (hx : Represents x a) (k : Nat) (h0 : k ≠ 0) (hk : k < 2 ^ 32) :
    ∃ z, x.divRemSmall k = some (z, a % k) ∧ Holds z (a / k) := by
  obtain ⟨ds, h1, h2, h3, h4⟩ := represents_digits hx
  obtain ⟨rfl, h⟩ := represents_iff.1 hx
  rw [cap_pow] at h
  have hkW : k < W := hk
  obtain ⟨i1, i2, i3, i4⟩ := divLoop_eq (k := k) (by omega) hkW ds.reverse 0 (by simpa using h3) (by omega)
  simp only [Nat.zero_mul, Nat.zero_add, List.reverse_reverse, h4, List.length_reverse] at i1 i3 i4
  unfold divRemSmall
  simp only [h1, h0, false_and, if_false]
  rw [i4, Nat.mod_eq_of_lt (lt_trans (Nat.mod_lt _ (by omega)) hkW)]
  refine ⟨_, rfl, ?_⟩
  have hl : limbs a ≤ 34 := limbs_le h
  have e : (canon a).base = blocks 34 a := rfl
  have e2 : (canon a).size = limbs a := rfl
  have hdiv : a / W ^ limbs a = 0 := Nat.div_eq_of_lt ((limbs_le_iff _ _).1 le_rfl)
  have hlen : limbs a ≤ 34 := hl
  refine ⟨?_, ?_, ?_⟩
  · simp only [List.length_append, List.length_reverse, e, e2, i1, List.length_drop, blocks_length, h2]
    omega
  · intro d hd
    rcases List.mem_append.1 hd with hd | hd
    · exact i2 d (by simpa using hd)
    · rw [e] at hd
      exact Bignum.blocks_lt _ _ d (List.mem_of_mem_drop hd)
  · show Nat.ofDigits W _ = _
    rw [Nat.ofDigits_append, i3, e, e2, blocks_drop hl, hdiv, blocks_zero]
    have : ∀ n, Nat.ofDigits W (List.replicate n 0) = 0 := by
      intro n
      induction n with
      | zero => rfl
      | succ n ih => rw [List.replicate_succ, Nat.ofDigits_cons, ih]; simp
    rw [this]
    simp

/-- The property: the results are numbers with the right size, which all other operations rely on. -/
def SmallOperationsAreExact : Prop :=
  ∀ (x y : Bignum) (a b k : Nat), Represents x a → Represents y b → k < 2 ^ 32 →
    (a + k < 2 ^ 1088 → ∀ z, x.addSmall k = some z → Represents z (a + k)) ∧
    (k ≤ a → ∀ z, x.subSmall k = some z → Represents z (a - k)) ∧
    (a * b < 2 ^ 1088 → ∀ z, x.mul y = some z → Represents z (a * b)) ∧
    (∀ z r, x.divRemSmall k = some (z, r) → Represents z (a / k))

/-- 2^32 + 5. -/
def aLargeNumber : Bignum := canon (2 ^ 32 + 5)

/-- `add_small` sets the size to the number of blocks it has changed: 2^32 + 5 plus 1 has size 1. -/
theorem C65_add_small_violated : ¬ SmallOperationsAreExact := by
  intro h
  have hx : Represents aLargeNumber (2 ^ 32 + 5) := represents_iff.2 ⟨rfl, by decide +kernel⟩
  have := (h _ _ _ _ 1 hx hx (by decide)).1 (by decide +kernel) ⟨1, blocks 34 (2 ^ 32 + 6)⟩ (by decide +kernel)
  exact absurd this.size.1 (by decide)

/-- `sub_small` reduces the size if the borrow reaches the last block, even if something is left there: 2^33 minus 1 has
size 1. -/
theorem C65_sub_small_violated : ¬ SmallOperationsAreExact := by
  intro h
  have hx : Represents (canon (2 ^ 33)) (2 ^ 33) := represents_iff.2 ⟨rfl, by decide +kernel⟩
  have := (h _ _ _ _ 1 hx hx (by decide)).2.1 (by decide) ⟨1, blocks 34 (2 ^ 33 - 1)⟩ (by decide +kernel)
  exact absurd this.size.1 (by decide)

/-- `mul` leaves the size that the last partial sum has: here block 5 is not 0, but the size is 5. -/
theorem C65_mul_violated : ¬ SmallOperationsAreExact := by
  intro h
  have hx : Represents (canon (2 ^ 65 - 1)) (2 ^ 65 - 1) := represents_iff.2 ⟨rfl, by decide +kernel⟩
  have hy : Represents (canon (2 ^ 96 - 1)) (2 ^ 96 - 1) := represents_iff.2 ⟨rfl, by decide +kernel⟩
  have := (h _ _ _ _ 1 hx hy (by decide)).2.2.1 (by decide +kernel) ⟨5, blocks 34 ((2 ^ 65 - 1) * (2 ^ 96 - 1))⟩
    (by decide +kernel)
  exact absurd this.size.1 (by decide)

/-- `div_rem_small` leaves the size: 2^32 divided by 2 has size 2. -/
theorem C65_div_rem_small_violated : ¬ SmallOperationsAreExact := by
  intro h
  have hx : Represents (canon (2 ^ 32)) (2 ^ 32) := represents_iff.2 ⟨rfl, by decide +kernel⟩
  have := (h _ _ _ _ 2 hx hx (by decide)).2.2.2 ⟨2, blocks 34 (2 ^ 31)⟩ 0 (by decide +kernel)
  exact absurd (this.size.2 (by decide)) (by decide)

/-- The wrong size matters: afterwards 2^32 + 6 compares less than 2^32 + 5. -/
example : (aLargeNumber.addSmall 1).bind (·.cmp aLargeNumber) = some .lt := by decide +kernel

example : Represents aLargeNumber (2 ^ 32 + 5) ∧ (2 ^ 32 + 5) * (2 ^ 32 + 5) < 2 ^ 1088 :=
  ⟨represents_iff.2 ⟨rfl, by decide +kernel⟩, by decide +kernel⟩

end Emio
