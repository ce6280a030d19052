import Verif.Lemmas.BignumMul
/-
Property C65: exactly when the small operations of the big integers leave a number whose size is right, and what size they
leave.
-/
namespace Emio
open Bignum

theorem carry_mono {n k m s : Nat} (h : n % W ^ m + k < W ^ m) (hs : m ≤ s) : n % W ^ s + k < W ^ s := by
  obtain ⟨d, rfl⟩ := Nat.exists_eq_add_of_le hs
  rw [pow_add, Nat.mod_mul]
  have h1 : n / W ^ m % W ^ d < W ^ d := Nat.mod_lt _ (Nat.pow_pos W_pos)
  have h2 : W ^ m * (n / W ^ m % W ^ d + 1) ≤ W ^ m * W ^ d := Nat.mul_le_mul_left _ h1
  rw [Nat.mul_add, Nat.mul_one] at h2
  omega

theorem borrow_mono {n m s : Nat} (hs : m ≤ s) : n % W ^ m ≤ n % W ^ s := by
  obtain ⟨d, rfl⟩ := Nat.exists_eq_add_of_le hs
  rw [pow_add, Nat.mod_mul]
  omega

/-- Adding 32 bits at block `i` leaves the size up to the last block that is changed. -/
theorem C65_add_small_at_size {x : Bignum} {a : Nat} (hx : Holds x a) (i k : Nat) (hi : i < 34) (hk : k < 2 ^ 32)
    (h : a + k * (2 ^ 32) ^ i < 2 ^ 1088) :
    ∃ z m, x.addSmallAt i k = some z ∧ Holds z (a + k * (2 ^ 32) ^ i) ∧ z.size = i + m ∧
      IsLeast {m | 1 ≤ m ∧ a / (2 ^ 32) ^ i % (2 ^ 32) ^ m + k < (2 ^ 32) ^ m} m := by
  obtain ⟨⟨z, h1, h2⟩, _⟩ := C65_add_small_partial hx i k hi hk h
  have hW : (2 ^ 32 : Nat) = W := by decide
  obtain ⟨hb, _⟩ := holds_iff.1 hx
  rw [hW] at hk h h2 ⊢
  rw [cap_pow] at h
  obtain ⟨sz, base⟩ := x
  obtain rfl : base = _ := hb
  obtain ⟨m, e1, e2, e3, e4⟩ := addSmallAt_size hi hk h h1
  refine ⟨z, m, h1, h2, e1, ⟨e2, e3⟩, ?_⟩
  rintro j ⟨j1, j2⟩
  by_contra hlt
  have := e4 j j1 (by omega)
  omega

/-- Adding 32 bits to a number leaves a number with the right size if and only if the result is not 0 and all blocks above
the lowest one that are in use are changed. -/
theorem C65_add_small_exactly {x : Bignum} {a : Nat} (hx : Represents x a) (k : Nat) (hk : k < 2 ^ 32)
    (h : a + k < 2 ^ 1088) :
    ∃ z, x.addSmall k = some z ∧ Holds z (a + k) ∧
      (Represents z (a + k) ↔
        a + k ≠ 0 ∧ ∀ s, 1 ≤ s → (2 ^ 32) ^ s ≤ a → a < (2 ^ 32) ^ (s + 1) → (2 ^ 32) ^ s ≤ a % (2 ^ 32) ^ s + k) := by
  obtain ⟨z, m, h1, h2, h3, ⟨h4, h5⟩, h6⟩ := C65_add_small_at_size hx.holds 0 k (by decide) hk (by simpa using h)
  simp only [pow_zero, Nat.mul_one, Nat.zero_add, Nat.div_one] at h2 h3 h5 h6
  refine ⟨z, h1, h2, ?_⟩
  have hW : (2 ^ 32 : Nat) = W := by decide
  rw [represents_of_holds h2, h3]
  rw [hW] at h5 h6 ⊢
  constructor
  · intro e
    refine ⟨?_, ?_⟩
    · intro h0
      rw [h0, limbs_zero] at e
      omega
    · intro s hs hs1 hs2
      have : s < limbs (a + k) := (lt_limbs_iff _ _).2 (by omega)
      by_contra hlt
      have := h6 ⟨hs, by omega⟩
      omega
  · rintro ⟨h0, hs⟩
    have hle : a + k < W ^ m := by
      by_cases ha : a < W ^ m
      · rwa [Nat.mod_eq_of_lt ha] at h5
      · have e1 := (lt_limbs_iff m a).2 (by omega)
        have e2 := (lt_limbs_iff (limbs a - 1) a).1 (by omega)
        have e3 := (limbs_le_iff (limbs a) a).1 le_rfl
        have := hs (limbs a - 1) (by omega) e2 (by rwa [Nat.sub_add_cancel (by omega)])
        have := carry_mono h5 (show m ≤ limbs a - 1 by omega)
        omega
    have hge : W ^ (m - 1) ≤ a + k := by
      by_cases hm : m = 1
      · subst hm; simp; omega
      · by_contra hlt
        have hmod := Nat.mod_le a (W ^ (m - 1))
        have := h6 (a := m - 1) ⟨by omega, by omega⟩
        omega
    have e1 := (limbs_le_iff m _).2 hle
    have e2 := (lt_limbs_iff (m - 1) _).2 hge
    omega

/-- Subtracting 32 bits leaves the size of the number, less one if at least two blocks are in use and the highest one is
borrowed from. -/
theorem C65_sub_small_size {x : Bignum} {a : Nat} (hx : Represents x a) (k : Nat) (hk : k < 2 ^ 32) (h : k ≤ a) :
    ∃ z, x.subSmall k = some z ∧ Holds z (a - k) ∧
      z.size = if 2 ≤ x.size ∧ a % (2 ^ 32) ^ (x.size - 1) < k then x.size - 1 else x.size := by
  obtain ⟨z, h1, h2⟩ := C65_sub_small_partial hx.holds k hk h
  obtain ⟨rfl, hb⟩ := represents_iff.1 hx
  have hW : (2 ^ 32 : Nat) = W := by decide
  rw [cap_pow] at hb
  rw [hW] at hk
  obtain ⟨m, e1, e2, e3, e4⟩ := subSmall_size (sz := limbs a) hk hb h h1
  refine ⟨z, h1, h2, ?_⟩
  show _ = if 2 ≤ limbs a ∧ a % (2 ^ 32) ^ (limbs a - 1) < k then limbs a - 1 else limbs a
  rw [hW, e1]
  have hS := (limbs_le_iff (limbs a) a).1 le_rfl
  by_cases h2 : 2 ≤ limbs a
  · have hm : m ≤ limbs a := by
      by_contra hlt
      have := e4 (limbs a) (by omega) (by omega)
      rw [Nat.mod_eq_of_lt hS] at this
      omega
    have hiff : m = limbs a ↔ a % W ^ (limbs a - 1) < k := by
      constructor
      · intro e; exact e4 _ (by omega) (by omega)
      · intro hlt
        by_contra hne
        have := borrow_mono (n := a) (show m ≤ limbs a - 1 by omega)
        omega
    by_cases hc : m = limbs a
    · rw [if_pos ⟨hc, by omega⟩, if_pos ⟨h2, hiff.1 hc⟩]
    · rw [if_neg (fun h => hc h.1), if_neg (fun h => hc (hiff.2 h.2))]
  · rw [if_neg, if_neg]
    · exact fun h => h2 h.1
    · rintro ⟨h3, h4⟩; omega

/-- Subtracting 32 bits from a number leaves a number with the right size if and only if a number of one block does not
become 0 and the highest of several blocks is 1 if it is borrowed from. -/
theorem C65_sub_small_exactly {x : Bignum} {a : Nat} (hx : Represents x a) (k : Nat) (hk : k < 2 ^ 32) (h : k ≤ a) :
    ∃ z, x.subSmall k = some z ∧ Holds z (a - k) ∧
      (Represents z (a - k) ↔
        (a = k → a = 0) ∧
          ∀ s, 1 ≤ s → (2 ^ 32) ^ s ≤ a → a < (2 ^ 32) ^ (s + 1) → a % (2 ^ 32) ^ s < k → a < 2 * (2 ^ 32) ^ s) := by
  obtain ⟨z, h1, h2, h3⟩ := C65_sub_small_size hx k hk h
  obtain ⟨rfl, hb⟩ := represents_iff.1 hx
  refine ⟨z, h1, h2, ?_⟩
  have hW : (2 ^ 32 : Nat) = W := by decide
  rw [represents_of_holds h2, h3]
  have ec : (canon a).size = limbs a := rfl
  rw [ec]
  rw [hW] at hk ⊢
  have hS := (limbs_le_iff (limbs a) a).1 le_rfl
  have uniq : ∀ s, W ^ s ≤ a → a < W ^ (s + 1) → s = limbs a - 1 ∧ 1 ≤ limbs a := by
    intro s s1 s2
    have := (lt_limbs_iff s a).2 s1
    have := (limbs_le_iff (s + 1) a).2 s2
    omega
  rcases Nat.lt_or_ge (limbs a) 2 with hl | hl
  · have haW : a < W := by
      have := (limbs_le_iff 1 a).1 (by omega)
      simpa using this
    rw [if_neg (by omega)]
    have hsub : (limbs a = limbs (a - k)) ↔ (a = k → a = 0) := by
      have p : ∀ n, n < W → (limbs n = if n = 0 then 0 else 1) := by
        intro n hn
        split
        · rename_i h0; rw [h0, limbs_zero]
        · have := (limbs_le_iff 1 n).2 (by simpa using hn)
          have := (lt_limbs_iff 0 n).2 (by simp; omega)
          omega
      rw [p _ haW, p _ (by omega)]
      split <;> split <;> omega
    rw [hsub]
    refine ⟨fun h => ⟨h, ?_⟩, fun h => h.1⟩
    intro s hs1 hs2 hs3 _
    have := uniq s hs2 hs3
    omega
  · have hs2 : W ^ (limbs a - 1) ≤ a := (lt_limbs_iff _ _).1 (by omega)
    obtain ⟨t, ht⟩ : ∃ t, limbs a = t + 2 := ⟨limbs a - 2, by omega⟩
    have eS : limbs a - 1 = t + 1 := by omega
    rw [eS] at hs2 ⊢
    rw [ht] at hS ⊢
    have hWt : W ^ (t + 1) = W * W ^ t := by rw [pow_succ, Nat.mul_comm]
    have hWt0 : 0 < W ^ t := Nat.pow_pos W_pos
    have hWle : W ≤ W ^ (t + 1) := by rw [hWt]; exact Nat.le_mul_of_pos_right _ hWt0
    have hall : (∀ s, 1 ≤ s → W ^ s ≤ a → a < W ^ (s + 1) → a % W ^ s < k → a < 2 * W ^ s) ↔
        (a % W ^ (t + 1) < k → a < 2 * W ^ (t + 1)) := by
      constructor
      · intro h; exact h (t + 1) (by omega) hs2 hS
      · intro h s s1 s2 s3
        obtain ⟨rfl, _⟩ : s = t + 1 ∧ True := ⟨by have := uniq s s2 s3; omega, trivial⟩
        exact h
    rw [hall]
    by_cases hc : a % W ^ (t + 1) < k
    · rw [if_pos ⟨by omega, hc⟩]
      simp only [hc, true_implies]
      have hdm := Nat.mod_add_div a (W ^ (t + 1))
      have hq : 1 ≤ a / W ^ (t + 1) := (Nat.one_le_div_iff (Nat.pow_pos W_pos)).2 hs2
      constructor
      · intro e
        refine ⟨by omega, ?_⟩
        have e1 := (limbs_le_iff (t + 1) (a - k)).1 (by omega)
        omega
      · rintro ⟨_, hlt⟩
        have hq1 : a / W ^ (t + 1) = 1 := by
          have : a / W ^ (t + 1) < 2 := Nat.div_lt_of_lt_mul (by rw [Nat.mul_comm]; exact hlt)
          omega
        rw [hq1, Nat.mul_one] at hdm
        have e1 := (limbs_le_iff (t + 1) (a - k)).2 (by omega)
        have e2 : W ^ t ≤ a - k := by
          cases t with
          | zero => simp at *; omega
          | succ t =>
            have e3 : W ^ (t + 1) = W * W ^ t := by rw [pow_succ, Nat.mul_comm]
            have e4 : W ≤ W ^ (t + 1) := by rw [e3]; exact Nat.le_mul_of_pos_right _ (Nat.pow_pos W_pos)
            have e5 : 2 * W ^ (t + 1) ≤ W * W ^ (t + 1) := Nat.mul_le_mul_right _ (by decide)
            omega
        have e3 := (lt_limbs_iff t (a - k)).2 e2
        omega
    · rw [if_neg (fun h => hc h.2)]
      simp only [hc, false_implies, and_true]
      have hdm := Nat.mod_add_div a (W ^ (t + 1))
      have hq : 1 ≤ a / W ^ (t + 1) := (Nat.one_le_div_iff (Nat.pow_pos W_pos)).2 hs2
      have hq2 : W ^ (t + 1) ≤ W ^ (t + 1) * (a / W ^ (t + 1)) := Nat.le_mul_of_pos_right _ hq
      have e1 := (limbs_le_iff (t + 2) (a - k)).2 (by omega)
      have e2 := (lt_limbs_iff (t + 1) (a - k)).2 (by omega)
      refine ⟨fun _ => by omega, fun _ => by omega⟩

/-- Dividing by 32 bits leaves the size of the number; that is right if and only if the highest block in use stays in
use. -/
theorem C65_div_rem_small_exactly {x : Bignum} {a : Nat} (hx : Represents x a) (k : Nat) (h0 : k ≠ 0) (hk : k < 2 ^ 32) :
    ∃ z, x.divRemSmall k = some (z, a % k) ∧ Holds z (a / k) ∧ z.size = x.size ∧
      (Represents z (a / k) ↔ ∀ s, (2 ^ 32) ^ s ≤ a → k * (2 ^ 32) ^ s ≤ a) := by
  obtain ⟨z, h1, h2⟩ := C65_div_rem_small_partial hx k h0 hk
  obtain ⟨ds, d1, _⟩ := represents_digits hx
  have hs : z.size = x.size := by
    unfold divRemSmall at h1
    simp only [d1, h0, false_and, if_false] at h1
    have := Option.some.inj h1
    rw [← (Prod.mk.inj this).1]
  refine ⟨z, h1, h2, hs, ?_⟩
  obtain ⟨rfl, hb⟩ := represents_iff.1 hx
  have hW : (2 ^ 32 : Nat) = W := by decide
  have ec : (canon a).size = limbs a := rfl
  rw [represents_of_holds h2, hs, ec, hW]
  constructor
  · intro e s hs1
    have := (lt_limbs_iff s a).2 hs1
    rw [e] at this
    have := (lt_limbs_iff s _).1 this
    rw [Nat.mul_comm]
    exact (Nat.le_div_iff_mul_le (by omega)).1 this
  · intro hall
    have e1 : limbs (a / k) ≤ limbs a :=
      (limbs_le_iff _ _).2 (lt_of_le_of_lt (Nat.div_le_self _ _) ((limbs_le_iff _ _).1 le_rfl))
    by_cases hz : limbs a = 0
    · omega
    · have e2 := hall (limbs a - 1) ((lt_limbs_iff _ _).1 (by omega))
      have e3 := (lt_limbs_iff (limbs a - 1) (a / k)).2 ((Nat.le_div_iff_mul_le (by omega)).2 (by rwa [Nat.mul_comm]))
      omega

/-- What `mul` adds last to the product of a shorter number `s` of `p` blocks and a number `l` of `q` blocks: what the
product of the highest block of `s` with `l` has in its highest block. -/
def lastAdded (s p l q : Nat) : Nat :=
  if (2 ^ 32) ^ q ≤ s / (2 ^ 32) ^ (p - 1) * l then s / (2 ^ 32) ^ (p - 1) * l / (2 ^ 32) ^ q * (2 ^ 32) ^ (p - 1 + q)
  else s / (2 ^ 32) ^ (p - 1) * l / (2 ^ 32) ^ (q - 1) * (2 ^ 32) ^ (p - 1 + (q - 1))

theorem mulRows_right {a b : Nat} {ds es : List Nat} (h2 : ds.length = limbs a) (h3 : ∀ d ∈ ds, d < W)
    (h4 : Nat.ofDigits W ds = a) (k2 : es.length = limbs b) (k3 : ∀ d ∈ es, d < W) (k4 : Nat.ofDigits W es = b)
    (hab : a * b < W ^ 34) (hle : limbs a ≤ limbs b) {z : Bignum} (hz : mulRows es ds 0 (ofU32 0) = some z) :
    z.size = limbs (a * b) ↔ a * b ≠ 0 ∧
      ∀ s, W ^ s ≤ a * b → a * b < W ^ (s + 1) →
        (a * b - lastAdded a (limbs a) b (limbs b)) / W ^ s ≠ a * b / W ^ s := by
  have e0 : ofU32 0 = ⟨1, blocks 34 0⟩ := by decide
  by_cases ha : a = 0
  · subst ha
    obtain rfl : ds = [] := List.length_eq_zero_iff.1 (by rw [h2, limbs_zero])
    obtain rfl := Option.some.inj hz
    simp [ofU32, limbs_zero]
  · have hl1 := limbs_pos ha
    have hb : b ≠ 0 := by
      rintro rfl
      rw [limbs_zero] at hle
      omega
    have hl2 := limbs_pos hb
    have hl : limbs a + limbs b ≤ 35 := by
      by_contra hgt
      have e1 : W ^ (limbs a - 1) ≤ a := (lt_limbs_iff _ _).1 (by omega)
      have e2 : W ^ (limbs b - 1) ≤ b := (lt_limbs_iff _ _).1 (by omega)
      have e3 := Nat.mul_le_mul e1 e2
      rw [← pow_add] at e3
      have e4 : W ^ 34 ≤ W ^ (limbs a - 1 + (limbs b - 1)) := Nat.pow_le_pow_right W_pos (by omega)
      omega
    have hd : ds ≠ [] := by rintro rfl; simp at h2; omega
    have he : es ≠ [] := by rintro rfl; simp at k2; omega
    rw [e0] at hz
    obtain ⟨sz0, n, k, t, z', i1, i2, i3, i4, i5, i6⟩ := mulRows_last he k3 ds 0 1 0 hd h3 (by omega)
      (by rw [h4, k4]; simpa using hab)
    rw [hz] at i1
    obtain rfl := Option.some.inj i1
    simp only [h4, k4, h2, k2, Nat.zero_add, pow_zero, Nat.mul_one] at i5 i6
    have e1 : W ^ (limbs a - 1) ≤ a := (lt_limbs_iff _ _).1 (by omega)
    have e2 : W ^ (limbs b - 1) ≤ b := (lt_limbs_iff _ _).1 (by omega)
    have e3 : 1 ≤ a / W ^ (limbs a - 1) := (Nat.one_le_div_iff (Nat.pow_pos W_pos)).2 e1
    have hW : (2 ^ 32 : Nat) = W := by decide
    have hpiece : lastAdded a (limbs a) b (limbs b) = k * W ^ t ∧ 0 < k := by
      unfold lastAdded
      rw [hW]
      split at i6
      · rename_i hc
        rw [if_pos hc, i6.1, i6.2]
        exact ⟨rfl, Nat.div_pos hc (Nat.pow_pos W_pos)⟩
      · rename_i hc
        rw [if_neg hc, i6.1, i6.2]
        refine ⟨rfl, Nat.div_pos ?_ (Nat.pow_pos W_pos)⟩
        calc W ^ (limbs b - 1) ≤ b := e2
          _ ≤ a / W ^ (limbs a - 1) * b := Nat.le_mul_of_pos_left _ e3
    rw [hpiece.1]
    have hr := addSmallAt_right i2 i3 hpiece.2 (by rw [i5]; exact hab) i4
    rw [i5] at hr
    rw [hr]
    have hn : a * b - k * W ^ t = n := by omega
    rw [hn]
    exact ⟨fun h => ⟨Nat.mul_ne_zero ha hb, h⟩, fun h => h.2⟩

/-- Multiplication leaves a number with the right size if and only if the result is not 0 and what is added last changes
the highest block. -/
theorem C65_mul_exactly {x y : Bignum} {a b : Nat} (hx : Represents x a) (hy : Represents y b) (h : a * b < 2 ^ 1088) :
    ∃ z, x.mul y = some z ∧ Holds z (a * b) ∧
      (Represents z (a * b) ↔ a * b ≠ 0 ∧
        ∀ s, (2 ^ 32) ^ s ≤ a * b → a * b < (2 ^ 32) ^ (s + 1) →
          (a * b - if x.size > y.size then lastAdded b y.size a x.size else lastAdded a x.size b y.size) / (2 ^ 32) ^ s ≠
            a * b / (2 ^ 32) ^ s) := by
  obtain ⟨⟨z, h1, h2⟩, _⟩ := C65_mul_partial hx hy h
  refine ⟨z, h1, h2, ?_⟩
  have hW : (2 ^ 32 : Nat) = W := by decide
  obtain ⟨ds, d1, d2, d3, d4⟩ := represents_digits hx
  obtain ⟨es, k1, k2, k3, k4⟩ := represents_digits hy
  have ex : x.size = limbs a := by
    obtain ⟨rfl, _⟩ := represents_iff.1 hx
    rfl
  have ey : y.size = limbs b := by
    obtain ⟨rfl, _⟩ := represents_iff.1 hy
    rfl
  rw [cap_pow] at h
  unfold mul mulDigits at h1
  simp only [d1, k1] at h1
  rw [represents_of_holds h2, ex, ey, hW]
  by_cases hgt : ds.length > es.length
  · rw [if_pos hgt] at h1
    rw [if_pos (by omega)]
    have := mulRows_right k2 k3 k4 d2 d3 d4 (by rw [Nat.mul_comm]; exact h) (by omega) h1
    rwa [Nat.mul_comm b a] at this
  · rw [if_neg hgt] at h1
    rw [if_neg (by omega)]
    exact mulRows_right d2 d3 d4 k2 k3 k4 h (by omega) h1

/-- The product of two numbers of one block, if it has two: what is added last is its highest block. -/
example (a b : Nat) (ha : a < 2 ^ 32) (hb : b < 2 ^ 32) (hab : 2 ^ 32 ≤ a * b) :
    ∃ z, (canon a).mul (canon b) = some z ∧ Represents z (a * b) := by
  have hW : (2 ^ 32 : Nat) = W := by decide
  have hlt : a * b < 2 ^ 32 * 2 ^ 32 := Nat.mul_lt_mul'' ha hb
  have big : ∀ n, n < 2 ^ 32 → Represents (canon n) n := fun n hn =>
    represents_iff.2 ⟨rfl, lt_of_lt_of_le hn (by decide +kernel)⟩
  obtain ⟨z, h1, _, h3⟩ := C65_mul_exactly (big a ha) (big b hb) (lt_of_lt_of_le hlt (by decide +kernel))
  have e : ∀ n, 0 < n → n < 2 ^ 32 → (canon n).size = 1 := fun n h1 h2 =>
    limbs_eq (s := 0) h1 (by rw [hW] at h2; simpa using h2)
  have hpos : 0 < a * b := by omega
  rw [e a (Nat.pos_of_mul_pos_right hpos) ha, e b (Nat.pos_of_mul_pos_left hpos) hb, if_neg (by decide)] at h3
  refine ⟨z, h1, h3.2 ⟨by omega, fun s hs hs2 => ?_⟩⟩
  obtain rfl : s = 1 := by
    have e1 := limbs_eq hs hs2
    have e2 := limbs_eq (n := a * b) (s := 1) (by rw [← hW, pow_one]; exact hab) (by rw [← hW]; exact hlt)
    omega
  have hl : lastAdded a 1 b 1 = a * b / 2 ^ 32 * 2 ^ 32 := by
    unfold lastAdded
    rw [Nat.sub_self, pow_zero, Nat.div_one, pow_one, if_pos hab]
  rw [hl, pow_one]
  generalize a * b = n at hab
  omega

/-- 2^33 + 5 minus 7 gives the right size only without the borrow: 2^32 + 5 minus 7 is right, 2^33 + 5 minus 7 is not. -/
example : ∃ z, (canon (2 ^ 33 + 5)).subSmall 7 = some z ∧ ¬ Represents z (2 ^ 33 + 5 - 7) := by
  obtain ⟨z, h1, _, h3⟩ := C65_sub_small_exactly (represents_iff.2 ⟨rfl, by decide +kernel⟩ : Represents (canon (2 ^ 33 + 5)) _) 7
    (by decide) (by decide)
  refine ⟨z, h1, fun h => ?_⟩
  exact absurd ((h3.1 h).2 1 (by decide) (by decide) (by decide) (by decide)) (by decide)

example : ∃ z, (canon (2 ^ 32 + 5)).divRemSmall 7 = some (z, (2 ^ 32 + 5) % 7) ∧ ¬ Represents z ((2 ^ 32 + 5) / 7) := by
  obtain ⟨z, h1, _, _, h3⟩ := C65_div_rem_small_exactly
    (represents_iff.2 ⟨rfl, by decide +kernel⟩ : Represents (canon (2 ^ 32 + 5)) _) 7 (by decide) (by decide)
  exact ⟨z, h1, fun h => absurd (h3.1 h 1 (by decide)) (by decide)⟩

/-- One block: the sum has the right size. -/
example : ∃ z, (canon 5).addSmall 7 = some z ∧ Represents z 12 := by
  obtain ⟨z, h1, _, h3⟩ := C65_add_small_exactly (represents_iff.2 ⟨rfl, by decide +kernel⟩ : Represents (canon 5) _) 7
    (by decide) (by decide +kernel)
  refine ⟨z, h1, h3.2 ⟨by decide, fun s hs h => ?_⟩⟩
  have : (2 ^ 32) ^ 1 ≤ (2 ^ 32) ^ s := Nat.pow_le_pow_right (by decide) hs
  omega

end Emio
