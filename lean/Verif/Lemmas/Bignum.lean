import Verif.Model.Bignum
import Mathlib.Tactic.Ring
import Mathlib.Tactic.Linarith
import Mathlib.Tactic.Positivity
/-
The operations of bignum.hpp compute with natural numbers: `canon n` is the representation of `n` the operations keep up.
-/
namespace Emio

theorem W_pos : 0 < W := by decide

/-- The `k` lowest blocks of `n`. -/
def blocks : Nat → Nat → List Nat
  | 0, _ => []
  | k + 1, n => n % W :: blocks k (n / W)

/-- Number of blocks of `n`. -/
def limbs (n : Nat) : Nat := if _h : n = 0 then 0 else limbs (n / W) + 1
termination_by n
decreasing_by exact Nat.div_lt_self (by omega) (by decide)

theorem limbs_zero : limbs 0 = 0 := by rw [limbs]; simp

theorem limbs_pos {n : Nat} (h : n ≠ 0) : limbs n = limbs (n / W) + 1 := by
  rw [limbs, dif_neg h]

theorem limbs_le_iff (k : Nat) : ∀ n, limbs n ≤ k ↔ n < W ^ k := by
  induction k with
  | zero =>
    intro n
    by_cases h : n = 0
    · simp [h, limbs_zero]
    · rw [limbs_pos h]
      simp
      omega
  | succ k ih =>
    intro n
    by_cases h : n = 0
    · subst h
      simp [limbs_zero, Nat.pow_pos W_pos]
    · rw [limbs_pos h, Nat.add_le_add_iff_right, ih, Nat.div_lt_iff_lt_mul W_pos, Nat.pow_succ]

theorem lt_limbs_iff (k n : Nat) : k < limbs n ↔ W ^ k ≤ n := by
  have := limbs_le_iff k n
  omega

theorem limbs_eq {n s : Nat} (h1 : W ^ s ≤ n) (h2 : n < W ^ (s + 1)) : limbs n = s + 1 := by
  have := (lt_limbs_iff s n).2 h1
  have := (limbs_le_iff (s + 1) n).2 h2
  omega

theorem blocks_succ (k n : Nat) : blocks (k + 1) n = n % W :: blocks k (n / W) := rfl

theorem blocks_length (k n : Nat) : (blocks k n).length = k := by
  induction k generalizing n with
  | zero => rfl
  | succ k ih => simp [blocks, ih]

theorem blocks_zero (k : Nat) : blocks k 0 = List.replicate k 0 := by
  induction k with
  | zero => rfl
  | succ k ih => simp [blocks, ih, List.replicate_succ]

theorem blocks_split (s t n : Nat) : blocks (s + t) n = blocks s n ++ blocks t (n / W ^ s) := by
  induction s generalizing n with
  | zero => simp [blocks]
  | succ s ih =>
    rw [show s + 1 + t = (s + t) + 1 by omega]
    simp only [blocks, ih, List.cons_append]
    rw [Nat.div_div_eq_div_mul, Nat.pow_succ, Nat.mul_comm]

theorem blocks_get {k n i : Nat} (h : i < k) : (blocks k n)[i]? = some (n / W ^ i % W) := by
  induction k generalizing n i with
  | zero => omega
  | succ k ih =>
    cases i with
    | zero => simp [blocks]
    | succ i =>
      simp only [blocks, List.getElem?_cons_succ]
      rw [ih (by omega), Nat.div_div_eq_div_mul, Nat.pow_succ, Nat.mul_comm]

namespace Bignum

/-- The representation of `n`. -/
def canon (n : Nat) : Bignum := ⟨limbs n, blocks maxBlocks n⟩

/-- Numbers that have a representation. -/
def Cap : Nat := W ^ maxBlocks

theorem cap_eq : Cap = 2 ^ 1088 := by decide +kernel

theorem limbs_le {n : Nat} (h : n < Cap) : limbs n ≤ maxBlocks := (limbs_le_iff _ _).2 h

theorem ofU32_eq {v : Nat} (h0 : v ≠ 0) (h : v < W) : ofU32 v = canon v := by
  unfold ofU32 canon
  have e1 : limbs v = 1 := limbs_eq (s := 0) (by simp; omega) (by simpa using h)
  have e2 : blocks maxBlocks v = v :: List.replicate 33 0 := by
    show blocks (33 + 1) v = _
    rw [blocks_succ, Nat.mod_eq_of_lt h, Nat.div_eq_of_lt h, blocks_zero]
  rw [e1, e2]

theorem ofU64_eq {v : Nat} (h0 : v ≠ 0) (h : v < 2 ^ 64) : ofU64 v = canon v := by
  unfold ofU64 canon
  have hw : v / W < W := by simp only [W]; omega
  have e2 : blocks maxBlocks v = (v % W) :: (v / W % W) :: List.replicate 32 0 := by
    show blocks (32 + 1 + 1) v = _
    rw [blocks_succ, blocks_succ, Nat.div_eq_of_lt hw, blocks_zero]
  rw [e2, Nat.mod_eq_of_lt hw]
  congr 1
  split
  · rename_i hp
    exact (limbs_eq (s := 1) (by simp only [W] at *; omega) (by simp only [W]; omega)).symm
  · rename_i hp
    exact (limbs_eq (s := 0) (by simp; omega) (by simp only [W] at *; omega)).symm

theorem isZero_canon {n : Nat} (h : n < Cap) : (canon n).isZero = (n == 0) := by
  have key : ∀ k n, n < W ^ k → (blocks k n).all (· == 0) = (n == 0) := by
    intro k
    induction k with
    | zero => intro n hn; simp [blocks] at *; omega
    | succ k ih =>
      intro n hn
      simp only [blocks, List.all_cons]
      rw [ih _ (by rw [Nat.div_lt_iff_lt_mul W_pos]; rwa [Nat.pow_succ] at hn)]
      rw [Bool.eq_iff_iff]
      simp only [Bool.and_eq_true, beq_iff_eq, W]
      omega
  exact key _ _ h

/-! ### Addition -/

theorem carryingAdd_eq {a b : Nat} {c : Bool} (ha : a < W) (hb : b < W) :
    carryingAdd a b c = ((a + b + c.toNat) % W, decide (W ≤ a + b + c.toNat)) := by
  unfold carryingAdd
  have hc : c.toNat ≤ 1 := by cases c <;> decide
  ext1
  · simp
  · dsimp only
    rw [Bool.eq_iff_iff]
    simp only [Bool.or_eq_true, decide_eq_true_eq]
    simp only [W] at *
    omega

theorem addLoop_blocks : ∀ k a b (c : Bool), a + b + c.toNat < W ^ k →
    ∃ i, addLoop (limbs b) (blocks k a) (blocks k b) c = some (blocks k (a + b + c.toNat), i) ∧
      max i (limbs a) = limbs (a + b + c.toNat) := by
  intro k
  induction k with
  | zero =>
    intro a b c h
    have h0 : a + b + c.toNat = 0 := by simpa using h
    have hb : b = 0 := by omega
    have ha : a = 0 := by omega
    have hc : c = false := by cases c with | false => rfl | true => simp at h0
    subst ha hb hc
    refine ⟨0, ?_, by simp [limbs_zero]⟩
    rw [addLoop.eq_def]
    simp [limbs_zero, blocks]
  | succ k ih =>
    intro a b c h
    rw [addLoop.eq_def]
    simp only
    by_cases hcond : limbs b > 0 ∨ (c = true ∧ blocks (k + 1) a ≠ [])
    · rw [if_pos hcond]
      simp only [blocks]
      have hc1 : c.toNat ≤ 1 := by cases c <;> decide
      rw [carryingAdd_eq (Nat.mod_lt _ W_pos) (Nat.mod_lt _ W_pos)]
      simp only
      have hbl : limbs b - 1 = limbs (b / W) := by
        by_cases hb : b = 0
        · subst hb
          simp [limbs_zero]
        · rw [limbs_pos hb]
          omega
      rw [hbl]
      have hsum : (a + b + c.toNat) / W = a / W + b / W + (decide (W ≤ a % W + b % W + c.toNat)).toNat := by
        by_cases hw : W ≤ a % W + b % W + c.toNat
        · rw [decide_eq_true hw]
          simp only [Bool.toNat_true, W] at *
          omega
        · rw [decide_eq_false hw]
          simp only [Bool.toNat_false, W] at *
          omega
      obtain ⟨i, h1, h2⟩ := ih (a / W) (b / W) (decide (W ≤ a % W + b % W + c.toNat)) (by
        rw [← hsum, Nat.div_lt_iff_lt_mul W_pos]
        rwa [Nat.pow_succ] at h)
      rw [h1]
      refine ⟨i + 1, ?_, ?_⟩
      · simp only [hsum]
        congr 3
        simp only [W]
        omega
      · have hne : a + b + c.toNat ≠ 0 := by
          rcases hcond with hb | ⟨hc, _⟩
          · intro h0
            have : b = 0 := by omega
            rw [this, limbs_zero] at hb
            omega
          · rw [hc]
            simp
        rw [limbs_pos hne, hsum, ← h2]
        by_cases ha : a = 0
        · subst ha
          simp [limbs_zero]
        · rw [limbs_pos ha]
          omega
    · rw [if_neg hcond]
      have hb : limbs b = 0 := by omega
      have hb0 : b = 0 := by
        by_contra hb0
        rw [limbs_pos hb0] at hb
        omega
      have hc : c = false := by
        cases c with
        | false => rfl
        | true => exact absurd (Or.inr ⟨rfl, by simp [blocks]⟩) hcond
      subst hb0 hc
      exact ⟨0, by simp, by simp⟩

/-- Addition. -/
theorem add_canon {a b : Nat} (h : a + b < Cap) : (canon a).add (canon b) = some (canon (a + b)) := by
  obtain ⟨i, h1, h2⟩ := addLoop_blocks maxBlocks a b false (by simpa [Cap] using h)
  unfold add canon
  simp only
  rw [h1]
  simp only [Bool.toNat_false, Nat.add_zero] at *
  congr 2
  rw [← h2]
  split <;> omega

/-! ### Subtraction -/

theorem borrowingSub_eq {a b : Nat} {c : Bool} (ha : a < W) (hb : b < W) :
    borrowingSub a b c = ((a + W - (b + c.toNat)) % W, decide (a < b + c.toNat)) := by
  unfold borrowingSub
  have hc : c.toNat ≤ 1 := by cases c <;> decide
  ext1
  · simp only [W] at *
    omega
  · dsimp only
    rw [Bool.eq_iff_iff]
    simp only [Bool.or_eq_true, decide_eq_true_eq]
    simp only [W] at *
    omega

theorem subLoop_blocks : ∀ k a b (c : Bool), limbs a ≤ k → b + c.toNat ≤ a →
    subLoop (limbs a) (blocks k a) (blocks k b) c = some (blocks k (a - (b + c.toNat))) := by
  intro k
  induction k with
  | zero =>
    intro a b c hk h
    have : limbs a = 0 := by omega
    rw [this]
    simp [subLoop, blocks]
  | succ k ih =>
    intro a b c hk h
    by_cases ha : a = 0
    · subst ha
      have : b + c.toNat = 0 := by omega
      rw [this, limbs_zero]
      simp [subLoop]
    · rw [limbs_pos ha] at hk ⊢
      simp only [blocks, subLoop]
      have hc1 : c.toNat ≤ 1 := by cases c <;> decide
      rw [borrowingSub_eq (Nat.mod_lt _ W_pos) (Nat.mod_lt _ W_pos)]
      simp only
      have hd : (a - (b + c.toNat)) / W = a / W - (b / W + (decide (a % W < b % W + c.toNat)).toNat) ∧
          b / W + (decide (a % W < b % W + c.toNat)).toNat ≤ a / W := by
        by_cases hw : a % W < b % W + c.toNat
        · rw [decide_eq_true hw]
          simp only [Bool.toNat_true, W] at *
          omega
        · rw [decide_eq_false hw]
          simp only [Bool.toNat_false, W] at *
          omega
      rw [ih _ _ _ (by omega) hd.2]
      simp only [hd.1]
      congr 2
      simp only [W] at *
      omega

theorem trim_blocks {k m : Nat} : ∀ n, limbs m ≤ n → n ≤ k → trim (blocks k m) n = some (limbs m) := by
  intro n
  induction n with
  | zero =>
    intro h _
    simp only [trim]
    congr 1
    omega
  | succ n ih =>
    intro h hk
    simp only [trim]
    rw [blocks_get (by omega)]
    simp only
    by_cases hd : m / W ^ n % W = 0
    · rw [if_neg (by simpa using hd)]
      have hlt := (limbs_le_iff _ _).1 h
      have hlt' : m / W ^ n < W := by
        rw [Nat.div_lt_iff_lt_mul (Nat.pow_pos W_pos)]
        rw [Nat.pow_succ] at hlt
        linarith [Nat.mul_comm (W ^ n) W]
      rw [Nat.mod_eq_of_lt hlt'] at hd
      have : m < W ^ n := (Nat.div_eq_zero_iff_lt (Nat.pow_pos W_pos)).1 hd
      exact ih ((limbs_le_iff _ _).2 this) (by omega)
    · rw [if_pos hd]
      congr 1
      have : W ^ n ≤ m := by
        by_contra hc
        rw [Nat.div_eq_of_lt (by omega)] at hd
        simp at hd
      have := (lt_limbs_iff n m).2 this
      omega

theorem limbs_mono {a b : Nat} (h : a ≤ b) : limbs a ≤ limbs b := by
  rw [limbs_le_iff]
  exact lt_of_le_of_lt h ((limbs_le_iff _ _).1 (Nat.le_refl _))

/-- Subtraction. -/
theorem sub_canon {a b : Nat} (ha : a < Cap) (h : b ≤ a) : (canon a).sub (canon b) = some (canon (a - b)) := by
  unfold sub canon
  simp only
  split
  · rename_i h0
    have ha0 : a = 0 := by
      by_contra hne
      rw [limbs_pos hne] at h0
      omega
    subst ha0
    have : b = 0 := by omega
    subst this
    rfl
  · rw [subLoop_blocks maxBlocks a b false (limbs_le ha) (by simpa using h)]
    simp only [Bool.toNat_false, Nat.add_zero]
    rw [trim_blocks (limbs a) (limbs_mono (by omega)) (limbs_le ha)]

/-! ### Multiplication -/

theorem carryingMul_eq {a b c : Nat} (ha : a < W) (hb : b < W) (hc : c < W) :
    carryingMul a b c = ((a * b + c) % W, (a * b + c) / W) ∧ (a * b + c) / W < W := by
  have h : a * b + c < W * W := by
    have h1 : a * b ≤ (W - 1) * (W - 1) := Nat.mul_le_mul (by omega) (by omega)
    have h2 : (W - 1) * (W - 1) + W ≤ W * W := by decide
    omega
  have h2 : (a * b + c) / W < W := by
    rw [Nat.div_lt_iff_lt_mul W_pos]
    exact h
  unfold carryingMul
  simp only
  rw [Nat.mod_eq_of_lt h, Nat.mod_eq_of_lt h2]
  exact ⟨rfl, h2⟩

theorem mul_step (x o c : Nat) :
    (x * o + c) % W = (x % W * o + c) % W ∧ (x * o + c) / W = x / W * o + (x % W * o + c) / W := by
  have e : x * o + c = (x % W * o + c) + W * (x / W * o) := by
    conv_lhs => rw [← Nat.div_add_mod x W]
    ring
  constructor
  · rw [e, Nat.add_mul_mod_self_left]
  · rw [e, Nat.add_mul_div_left _ _ W_pos]
    omega

theorem mulLoop_blocks {o : Nat} (ho : o < W) : ∀ k x c, limbs x ≤ k → c < W →
    mulLoop o (limbs x) (blocks k x) c =
      some (blocks (limbs x) (x * o + c) ++ blocks (k - limbs x) 0, (x * o + c) / W ^ limbs x) := by
  intro k
  induction k with
  | zero =>
    intro x c hk hc
    have h0 : limbs x = 0 := by omega
    have hx : x = 0 := by
      by_contra hne
      rw [limbs_pos hne] at h0
      omega
    subst hx
    simp [limbs_zero, mulLoop, blocks]
  | succ k ih =>
    intro x c hk hc
    by_cases hx : x = 0
    · subst hx
      simp [limbs_zero, mulLoop, blocks]
    · rw [limbs_pos hx] at hk ⊢
      simp only [blocks, mulLoop]
      obtain ⟨h1, h2⟩ := carryingMul_eq (Nat.mod_lt x W_pos) ho hc
      obtain ⟨m1, m2⟩ := mul_step x o c
      rw [h1]
      simp only
      rw [ih _ _ (by omega) h2]
      simp only
      rw [← m1, ← m2, Nat.div_div_eq_div_mul, Nat.add_sub_add_right, Nat.pow_succ]
      rw [Nat.mul_comm W]
      rfl

theorem pushCarry_blocks {k x y : Nat} (hxk : limbs x ≤ k) (hxy : x ≤ y) (hy : y < W ^ k)
    (hup : y < W ^ (limbs x + 1)) :
    pushCarry (limbs x) (blocks (limbs x) y ++ blocks (k - limbs x) 0) (y / W ^ limbs x) =
      some ⟨limbs y, blocks k y⟩ := by
  have hs := blocks_split (limbs x) (k - limbs x) y
  rw [show limbs x + (k - limbs x) = k by omega] at hs
  unfold pushCarry
  by_cases hc : y / W ^ limbs x > 0
  · rw [if_pos hc]
    have hle : W ^ limbs x ≤ y := by
      by_contra h
      rw [Nat.div_eq_of_lt (by omega)] at hc
      omega
    have hly : limbs y = limbs x + 1 := limbs_eq hle hup
    have hlk : limbs y ≤ k := (limbs_le_iff _ _).2 hy
    rw [if_pos (by simp [blocks_length]; omega), hly, hs]
    congr 2
    rw [List.set_append_right _ _ (by rw [blocks_length])]
    congr 1
    rw [blocks_length, Nat.sub_self]
    obtain ⟨t, ht⟩ : ∃ t, k - limbs x = t + 1 := ⟨k - limbs x - 1, by omega⟩
    rw [ht]
    simp only [blocks, List.set_cons_zero]
    have hlt : y / W ^ limbs x < W := by
      rw [Nat.div_lt_iff_lt_mul (Nat.pow_pos W_pos)]
      rw [Nat.pow_succ] at hup
      linarith [Nat.mul_comm (W ^ limbs x) W]
    rw [Nat.mod_eq_of_lt hlt, Nat.div_eq_of_lt hlt]
    simp
  · rw [if_neg hc]
    have h0 : y / W ^ limbs x = 0 := Nat.eq_zero_of_not_pos hc
    have hlt : y < W ^ limbs x := (Nat.div_eq_zero_iff_lt (Nat.pow_pos W_pos)).1 h0
    have h1 := (limbs_le_iff _ _).2 hlt
    have h2 := limbs_mono hxy
    rw [hs, h0]
    congr 2
    omega

theorem mul_lt_next {x o c : Nat} (ho : o < W) (hc : c < W) : x * o + c < W ^ (limbs x + 1) := by
  have h1 : x < W ^ limbs x := (limbs_le_iff _ _).1 (Nat.le_refl _)
  have h2 : (x + 1) * o ≤ W ^ limbs x * o := Nat.mul_le_mul_right _ h1
  have h3 : W ^ limbs x * (o + 1) ≤ W ^ limbs x * W := Nat.mul_le_mul_left _ ho
  have h4 : x * o ≤ (W ^ limbs x - 1) * o := Nat.mul_le_mul_right _ (by omega)
  have h5 : x * o ≤ (W ^ limbs x - 1) * (W - 1) := Nat.le_trans h4 (Nat.mul_le_mul_left _ (by omega))
  have h6 : (W ^ limbs x - 1) * (W - 1) + (W - 1) = W ^ limbs x * (W - 1) := by
    rw [← Nat.succ_mul]
    congr 1
    omega
  have h7 : W ^ limbs x * (W - 1) < W ^ limbs x * W := Nat.mul_lt_mul_of_pos_left (by decide) (by omega)
  rw [Nat.pow_succ]
  omega

/-- Multiplication by a small number, and addition of one. -/
theorem muladdSmall_canon {x o c : Nat} (ho : o < W) (ho0 : 0 < o) (hc : c < W) (h : x * o + c < Cap) :
    (canon x).muladdSmall o c = some (canon (x * o + c)) := by
  have hx : x ≤ x * o + c := by
    have := Nat.le_mul_of_pos_right x ho0
    omega
  have hl : limbs x ≤ maxBlocks := limbs_le (by omega)
  unfold muladdSmall canon
  simp only
  rw [mulLoop_blocks ho maxBlocks x c hl hc]
  simp only
  rw [pushCarry_blocks hl hx h (mul_lt_next ho hc)]

theorem mulSmall_canon {x o : Nat} (ho : o < W) (ho0 : 0 < o) (h : x * o < Cap) :
    (canon x).mulSmall o = some (canon (x * o)) := by
  have := muladdSmall_canon (x := x) (c := 0) ho ho0 W_pos (by simpa using h)
  simpa [mulSmall] using this

theorem mulPow5_canon : ∀ k x, x * 5 ^ k < Cap → (canon x).mulPow5 k = some (canon (x * 5 ^ k)) := by
  intro k
  induction k using Nat.strongRecOn with
  | ind k ih =>
    intro x h
    rw [mulPow5]
    by_cases hk : k ≥ 13
    · rw [dif_pos hk]
      have e : x * 5 ^ k = x * 1220703125 * 5 ^ (k - 13) := by
        conv_lhs => rw [show k = 13 + (k - 13) by omega, Nat.pow_add]
        rw [Nat.mul_assoc]
      have hle : x * 1220703125 ≤ x * 5 ^ k := by
        rw [e]
        exact Nat.le_mul_of_pos_right _ (Nat.pow_pos (by decide))
      rw [mulSmall_canon (by decide) (by decide) (by omega)]
      simp only
      rw [ih (k - 13) (by omega) _ (by rw [← e]; exact h), e]
    · rw [dif_neg hk]
      by_cases h0 : k = 0
      · rw [if_pos h0, h0]
        simp
      · rw [if_neg h0]
        have hlt : 5 ^ k < W := Nat.lt_of_le_of_lt (Nat.pow_le_pow_right (by decide) (by omega : k ≤ 12)) (by decide)
        rw [Nat.mod_eq_of_lt hlt]
        exact mulSmall_canon hlt (Nat.pow_pos (by decide)) h

theorem shiftLoop_eq {bits : Nat} (hb : bits < 32) : ∀ n ds ov, (∀ d ∈ ds, d < W) → ov < 2 ^ bits →
    shiftLoop bits n ds ov = mulLoop (2 ^ bits) n ds ov := by
  intro n
  induction n with
  | zero => intros; simp [shiftLoop, mulLoop]
  | succ n ih =>
    intro ds ov hds hov
    cases ds with
    | nil => simp [shiftLoop, mulLoop]
    | cons d ds =>
      have hd : d < W := hds d (by simp)
      have hpow : (2 : Nat) ^ bits * 2 ^ (32 - bits) = W := by
        rw [← Nat.pow_add, show bits + (32 - bits) = 32 by omega]
        rfl
      have h32 : (2 : Nat) ^ bits < W := by
        have : (2 : Nat) ^ bits < 2 ^ 32 := Nat.pow_lt_pow_right (by decide) hb
        simpa [W] using this
      have hovW : ov < W := by omega
      obtain ⟨h1, h2⟩ := carryingMul_eq hd h32 hovW
      simp only [shiftLoop, mulLoop, h1]
      have hlt : d * 2 ^ bits < W * W := Nat.mul_lt_mul'' hd h32
      rw [Nat.mod_eq_of_lt hlt]
      have hq : d * 2 ^ bits / W < 2 ^ bits := by
        rw [Nat.div_lt_iff_lt_mul W_pos, Nat.mul_comm]
        exact Nat.mul_lt_mul_of_pos_left hd (Nat.pow_pos (by decide))
      -- the low part is a multiple of 2^bits, so adding the overflow does not carry
      have hmod : d * 2 ^ bits % W + ov < W := by
        have e : d * 2 ^ bits % W = 2 ^ bits * (d % 2 ^ (32 - bits)) := by
          rw [← hpow, Nat.mul_comm d, Nat.mul_mod_mul_left]
        have hp : 0 < 2 ^ (32 - bits) := Nat.pow_pos (by decide)
        have hm : d % 2 ^ (32 - bits) + 1 ≤ 2 ^ (32 - bits) := Nat.mod_lt _ hp
        have := Nat.mul_le_mul_left (2 ^ bits) hm
        rw [hpow, Nat.mul_add, Nat.mul_one] at this
        omega
      have g1 : (d * 2 ^ bits + ov) / W = d * 2 ^ bits / W := by
        have e := Nat.div_add_mod (d * 2 ^ bits) W
        apply Nat.div_eq_of_lt_le
        · rw [Nat.mul_comm]
          omega
        · rw [Nat.add_mul, Nat.mul_comm _ W]
          omega
      have g2 : (d * 2 ^ bits + ov) % W = (d * 2 ^ bits % W + ov) % W := by
        rw [Nat.mod_add_mod]
      have hqW : d * 2 ^ bits / W < W := by omega
      rw [g1, g2, Nat.mod_eq_of_lt hqW, ih ds _ (fun x hx => hds x (by simp [hx])) hq]

theorem blocks_lt (k n : Nat) : ∀ d ∈ blocks k n, d < W := by
  induction k generalizing n with
  | zero => simp [blocks]
  | succ k ih =>
    intro d hd
    simp only [blocks, List.mem_cons] at hd
    rcases hd with rfl | hd
    · exact Nat.mod_lt _ W_pos
    · exact ih _ d hd

theorem limbs_mul_pow {x : Nat} (hx : x ≠ 0) (d : Nat) : limbs (x * W ^ d) = limbs x + d := by
  have h1 : x < W ^ limbs x := (limbs_le_iff _ _).1 (Nat.le_refl _)
  obtain ⟨s, hs⟩ : ∃ s, limbs x = s + 1 := ⟨limbs (x / W), limbs_pos hx⟩
  have h2 : W ^ s ≤ x := (lt_limbs_iff s x).1 (by omega)
  rw [hs, show s + 1 + d = (s + d) + 1 by omega]
  apply limbs_eq
  · rw [Nat.pow_add]
    exact Nat.mul_le_mul_right _ h2
  · rw [show s + d + 1 = (s + 1) + d by omega, Nat.pow_add _ _ d, ← hs]
    exact Nat.mul_lt_mul_of_pos_right h1 (Nat.pow_pos W_pos)

theorem blocks_shift (d t x : Nat) : blocks (d + t) (x * W ^ d) = List.replicate d 0 ++ blocks t x := by
  rw [blocks_split, Nat.mul_div_cancel _ (Nat.pow_pos W_pos)]
  congr 1
  have key : ∀ d x, blocks d (x * W ^ d) = List.replicate d 0 := by
    intro d
    induction d with
    | zero => intro x; rfl
    | succ d ih =>
      intro x
      simp only [blocks, List.replicate_succ]
      rw [Nat.pow_succ, ← Nat.mul_assoc, Nat.mul_mod_left, Nat.mul_div_cancel _ W_pos, ih]
  exact key d x

theorem shiftBlocks_canon {x d : Nat} (hx : x ≠ 0) (h : x * W ^ d < Cap) :
    (canon x).shiftBlocks d = some (canon (x * W ^ d)) := by
  unfold shiftBlocks
  by_cases hd : d = 0
  · rw [if_pos hd, hd]
    simp
  · rw [if_neg hd]
    have hl := limbs_le h
    have hm := limbs_mul_pow hx d
    rw [hm] at hl
    have hlen : (canon x).base.length = maxBlocks := blocks_length _ _
    have hsz : (canon x).size = limbs x := rfl
    rw [if_pos ⟨Or.inr (by rw [hlen, hsz]; exact hl), by rw [hlen]; omega⟩, hsz]
    unfold canon
    rw [hm]
    congr 2
    have e1 : blocks maxBlocks (x * W ^ d) = List.replicate d 0 ++ blocks (maxBlocks - d) x := by
      have := blocks_shift d (maxBlocks - d) x
      rwa [show d + (maxBlocks - d) = maxBlocks by omega] at this
    rw [e1, List.append_assoc]
    congr 1
    have hx0 : x / W ^ limbs x = 0 := Nat.div_eq_of_lt ((limbs_le_iff _ _).1 (Nat.le_refl _))
    have e2 : blocks maxBlocks x = blocks (limbs x) x ++ List.replicate (maxBlocks - limbs x) 0 := by
      have := blocks_split (limbs x) (maxBlocks - limbs x) x
      rw [show limbs x + (maxBlocks - limbs x) = maxBlocks by omega, hx0, blocks_zero] at this
      exact this
    have e3 : blocks (maxBlocks - d) x = blocks (limbs x) x ++ List.replicate (maxBlocks - d - limbs x) 0 := by
      have := blocks_split (limbs x) (maxBlocks - d - limbs x) x
      rw [show limbs x + (maxBlocks - d - limbs x) = maxBlocks - d by omega, hx0, blocks_zero] at this
      exact this
    rw [e2, e3, List.take_append_of_le_length (by rw [blocks_length]), List.take_of_length_le (by rw [blocks_length]),
      List.drop_append, blocks_length, List.drop_of_length_le (by rw [blocks_length]; omega), List.nil_append,
      List.drop_replicate]
    congr 2
    omega

/-- Multiplication by a power of two; zero may only be shifted by less than a block. -/
theorem mulPow2_canon {x e : Nat} (hx : x ≠ 0 ∨ e < 32) (h : x * 2 ^ e < Cap) :
    (canon x).mulPow2 e = some (canon (x * 2 ^ e)) := by
  have he : x * 2 ^ e = x * W ^ (e / 32) * 2 ^ (e % 32) := by
    conv_lhs => rw [← Nat.div_add_mod e 32, Nat.pow_add, Nat.pow_mul]
    rw [Nat.mul_assoc]
    rfl
  have hle : x * W ^ (e / 32) ≤ x * 2 ^ e := by
    rw [he]
    exact Nat.le_mul_of_pos_right _ (Nat.pow_pos (by decide))
  have hb : (canon x).shiftBlocks (e / 32) = some (canon (x * W ^ (e / 32))) := by
    rcases hx with hx | hx
    · exact shiftBlocks_canon hx (by omega)
    · rw [Nat.div_eq_of_lt hx]
      simp [shiftBlocks]
  unfold mulPow2
  rw [hb]
  simp only
  by_cases h0 : e % 32 > 0
  · rw [if_pos h0]
    have hm : e % 32 < 32 := Nat.mod_lt _ (by decide)
    have h32 : (2 : Nat) ^ (e % 32) < W := by
      have : (2 : Nat) ^ (e % 32) < 2 ^ 32 := Nat.pow_lt_pow_right (by decide) hm
      simpa [W] using this
    have hl : limbs (x * W ^ (e / 32)) ≤ maxBlocks := limbs_le (by omega)
    have hp : 0 < 2 ^ (e % 32) := Nat.pow_pos (by decide)
    generalize x * W ^ (e / 32) = y at *
    unfold canon
    simp only
    rw [shiftLoop_eq hm _ _ _ (blocks_lt _ _) hp, mulLoop_blocks h32 maxBlocks y 0 hl W_pos]
    simp only [Nat.add_zero]
    rw [pushCarry_blocks hl (Nat.le_mul_of_pos_right _ hp) (by rw [← he]; exact h)
      (by simpa using mul_lt_next (x := y) h32 W_pos), he]
  · rw [if_neg h0]
    have : e % 32 = 0 := by omega
    rw [he, this]
    simp

/-! ### Comparison -/

theorem cmpLoop_blocks {k a b : Nat} : ∀ n, n ≤ k → a / W ^ n = b / W ^ n →
    cmpLoop (blocks k a) (blocks k b) n = some (compare a b) := by
  intro n
  induction n with
  | zero =>
    intro _ h
    simp only [Nat.pow_zero, Nat.div_one] at h
    subst h
    simp [cmpLoop]
  | succ n ih =>
    intro hk h
    simp only [cmpLoop]
    rw [blocks_get (by omega), blocks_get (by omega)]
    simp only
    have ha := Nat.div_add_mod (a / W ^ n) W
    have hb := Nat.div_add_mod (b / W ^ n) W
    rw [Nat.div_div_eq_div_mul, ← Nat.pow_succ] at ha hb
    rw [h] at ha
    by_cases hgt : a / W ^ n % W > b / W ^ n % W
    · rw [if_pos hgt]
      have : b / W ^ n < a / W ^ n := by
        rw [← ha, ← hb]
        exact Nat.add_lt_add_left hgt _
      have : a > b := Nat.lt_of_div_lt_div this
      rw [Nat.compare_eq_gt.2 this]
    · rw [if_neg hgt]
      by_cases hlt : a / W ^ n % W < b / W ^ n % W
      · rw [if_pos hlt]
        have : a / W ^ n < b / W ^ n := by
          rw [← ha, ← hb]
          exact Nat.add_lt_add_left hlt _
        have : a < b := Nat.lt_of_div_lt_div this
        rw [Nat.compare_eq_lt.2 this]
      · rw [if_neg hlt]
        have : a / W ^ n % W = b / W ^ n % W := by omega
        exact ih (by omega) (by rw [← ha, ← hb, this])

/-- Comparison. -/
theorem cmp_canon {a b : Nat} (ha : a < Cap) (hb : b < Cap) : (canon a).cmp (canon b) = some (compare a b) := by
  unfold cmp canon
  simp only
  by_cases h1 : limbs a > limbs b
  · rw [if_pos h1]
    have : a > b := by
      by_contra h
      have := limbs_mono (Nat.le_of_not_gt h)
      omega
    rw [Nat.compare_eq_gt.2 this]
  · rw [if_neg h1]
    by_cases h2 : limbs a < limbs b
    · rw [if_pos h2]
      have : a < b := by
        by_contra h
        have := limbs_mono (Nat.le_of_not_gt h)
        omega
      rw [Nat.compare_eq_lt.2 this]
    · rw [if_neg h2]
      have he : limbs a = limbs b := by omega
      apply cmpLoop_blocks _ (limbs_le ha)
      rw [Nat.div_eq_of_lt ((limbs_le_iff _ _).1 (Nat.le_refl _)), he,
        Nat.div_eq_of_lt ((limbs_le_iff _ _).1 (Nat.le_refl _))]

end Bignum
end Emio
