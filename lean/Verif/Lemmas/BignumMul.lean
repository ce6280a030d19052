import Verif.Lemmas.BignumSize
/-
What `mul` and `mul_digits` add last, and the size they leave.
-/
namespace Emio
open Bignum

/-- The size is right after an addition if and only if the highest block has been changed. -/
theorem addSmallAt_right {sz n i k : Nat} {z : Bignum} (hi : i < 34) (hk : k < W) (hk0 : 0 < k)
    (h : n + k * W ^ i < W ^ 34) (hz : (Bignum.mk sz (blocks 34 n)).addSmallAt i k = some z) :
    z.size = limbs (n + k * W ^ i) ↔
      ∀ s, W ^ s ≤ n + k * W ^ i → n + k * W ^ i < W ^ (s + 1) → n / W ^ s ≠ (n + k * W ^ i) / W ^ s := by
  obtain ⟨m, e1, e2, e3, e4⟩ := addSmallAt_size hi hk h hz
  have hpos : 0 < W ^ i := Nat.pow_pos W_pos
  -- block by block
  have hdiv : ∀ j, n / W ^ (i + j) = n / W ^ i / W ^ j ∧ (n + k * W ^ i) / W ^ (i + j) = (n / W ^ i + k) / W ^ j := by
    intro j
    refine ⟨by rw [pow_add, Nat.div_div_eq_div_mul], ?_⟩
    rw [pow_add, ← Nat.div_div_eq_div_mul, Nat.add_mul_div_right _ _ hpos]
  have hsplit : ∀ j, (n / W ^ i + k) / W ^ j = n / W ^ i / W ^ j + (n / W ^ i % W ^ j + k) / W ^ j := by
    intro j
    conv_lhs => rw [← Nat.div_add_mod (n / W ^ i) (W ^ j)]
    rw [Nat.add_assoc, Nat.mul_add_div (Nat.pow_pos W_pos)]
  have hlow : ∀ j, j < m → n / W ^ (i + j) ≠ (n + k * W ^ i) / W ^ (i + j) := by
    intro j hj
    rw [(hdiv j).1, (hdiv j).2, hsplit]
    have : 0 < (n / W ^ i % W ^ j + k) / W ^ j := by
      apply Nat.div_pos _ (Nat.pow_pos W_pos)
      cases j with
      | zero => simp; omega
      | succ j => exact e4 _ (by omega) hj
    omega
  have hhigh : n / W ^ (i + m) = (n + k * W ^ i) / W ^ (i + m) := by
    rw [(hdiv m).1, (hdiv m).2, hsplit, Nat.div_eq_of_lt e3, Nat.add_zero]
  have hge : W ^ i ≤ n + k * W ^ i := by
    have := Nat.le_mul_of_pos_left (W ^ i) hk0
    omega
  have hne : n + k * W ^ i ≠ 0 := by omega
  generalize hP : n + k * W ^ i = P at *
  obtain ⟨s, hs⟩ : ∃ s, limbs P = s + 1 := ⟨_, limbs_pos hne⟩
  have hs1 : W ^ s ≤ P := (lt_limbs_iff s P).1 (by omega)
  have hs2 : P < W ^ (s + 1) := (limbs_le_iff (s + 1) P).1 (by omega)
  have his : i ≤ s := by
    have := (lt_limbs_iff i P).2 hge
    omega
  rw [e1, hs]
  constructor
  · intro e s' h1 h2
    have : limbs P = s' + 1 := limbs_eq h1 h2
    obtain rfl : s' = s := by omega
    obtain ⟨j, rfl⟩ := Nat.exists_eq_add_of_le his
    exact hlow j (by omega)
  · intro hall
    have h1 := hall s hs1 hs2
    obtain ⟨j, rfl⟩ := Nat.exists_eq_add_of_le his
    have hjm : j < m := by
      by_contra hge
      have hge : m ≤ j := by omega
      apply h1
      obtain ⟨d, rfl⟩ := Nat.exists_eq_add_of_le hge
      have e : W ^ (i + (m + d)) = W ^ (i + m) * W ^ d := by rw [← pow_add]; congr 1; omega
      rw [e, ← Nat.div_div_eq_div_mul, hhigh, Nat.div_div_eq_div_mul]
    -- no block above is changed
    by_contra hgt
    have hm : j + 1 < m := by omega
    have := hlow (j + 1) hm
    apply this
    have hle : n ≤ P := by omega
    rw [Nat.div_eq_of_lt (by rw [← Nat.add_assoc]; omega), Nat.div_eq_of_lt (by rw [← Nat.add_assoc]; omega)]

/-- One row: the last addition. -/
theorem mulRow_last {d : Nat} (hd : d < W) : ∀ (es : List Nat) (t c sz p : Nat), es ≠ [] → (∀ e ∈ es, e < W) → c < W →
    t + es.length ≤ 34 → p + (d * Nat.ofDigits W es + c) * W ^ t < W ^ 34 →
    ∃ sz0 z c', mulRow d es t c ⟨sz, blocks 34 p⟩ = some (z, c') ∧
      c' = (d * Nat.ofDigits W es + c) / W ^ es.length ∧
      (Bignum.mk sz0 (blocks 34 (p + (d * Nat.ofDigits W es + c) % W ^ (es.length - 1) * W ^ t))).addSmallAt
        (t + (es.length - 1)) ((d * Nat.ofDigits W es + c) / W ^ (es.length - 1) % W) = some z := by
  intro es
  induction es with
  | nil => intro _ _ _ _ h; exact absurd rfl h
  | cons e es ih =>
    intro t c sz p _ hes hc ht h
    have he := hes e (by simp)
    obtain ⟨e1, e2⟩ := carryingMul_eq hd he hc
    simp only [List.length_cons] at ht
    have hval : d * Nat.ofDigits W (e :: es) + c = (d * e + c) + W * (d * Nat.ofDigits W es) := by
      rw [Nat.ofDigits_cons]; ring
    have hmod : (d * Nat.ofDigits W (e :: es) + c) % W = (d * e + c) % W := by
      rw [hval, Nat.add_mul_mod_self_left]
    have hdv : (d * Nat.ofDigits W (e :: es) + c) / W = d * Nat.ofDigits W es + (d * e + c) / W := by
      rw [hval, Nat.add_mul_div_left _ _ W_pos, Nat.add_comm]
    have key : p + (d * Nat.ofDigits W (e :: es) + c) * W ^ t =
        (p + (d * e + c) % W * W ^ t) + (d * Nat.ofDigits W es + (d * e + c) / W) * W ^ (t + 1) := by
      rw [← hmod, ← hdv]
      conv_lhs => rw [← Nat.mod_add_div (d * Nat.ofDigits W (e :: es) + c) W]
      rw [pow_succ]; ring
    rw [key] at h
    obtain ⟨sz1, h1⟩ := addSmallAt_blocks (sz := sz) (n := p) (i := t) (k := (d * e + c) % W) (by omega)
      (Nat.mod_lt _ W_pos) (by omega)
    by_cases hnil : es = []
    · subst hnil
      refine ⟨sz, ⟨sz1, blocks 34 (p + (d * e + c) % W * W ^ t)⟩, (d * e + c) / W, ?_, ?_, ?_⟩
      · simp only [mulRow, e1, h1]
      · rw [List.length_singleton, pow_one, hdv]; simp
      · simp only [List.length_singleton, Nat.sub_self, pow_zero, Nat.mod_one, Nat.zero_mul, Nat.add_zero, Nat.div_one, hmod]
        exact h1
    · obtain ⟨sz0, z, c', h2, h3, h4⟩ := ih (t + 1) ((d * e + c) / W) sz1 _ hnil (fun x hx => hes x (by simp [hx])) e2
        (by omega) h
      obtain ⟨l, hl⟩ : ∃ l, es.length = l + 1 :=
        ⟨es.length - 1, by have := List.length_pos_of_ne_nil hnil; omega⟩
      refine ⟨sz0, z, c', ?_, ?_, ?_⟩
      · simp only [mulRow, e1, h1]
        exact h2
      · rw [h3, List.length_cons, pow_succ', ← Nat.div_div_eq_div_mul, hdv]
      · rw [← hdv] at h4
        simp only [hl, List.length_cons, Nat.add_sub_cancel] at h4 ⊢
        rw [pow_succ', ← Nat.div_div_eq_div_mul]
        rw [show t + (l + 1) = t + 1 + l by omega]
        rw [show p + (d * Nat.ofDigits W (e :: es) + c) % (W * W ^ l) * W ^ t =
          p + (d * e + c) % W * W ^ t + (d * Nat.ofDigits W (e :: es) + c) / W % W ^ l * W ^ (t + 1) from ?_]
        · exact h4
        · rw [Nat.mod_mul, hmod, pow_succ]; ring

/-- The last addition of the whole product. -/
theorem mulRows_last {max : List Nat} (hmax : max ≠ []) (hm : ∀ e ∈ max, e < W) : ∀ (ds : List Nat) (i sz p : Nat), ds ≠ [] →
    (∀ d ∈ ds, d < W) → i + ds.length + max.length ≤ 35 → p + Nat.ofDigits W ds * Nat.ofDigits W max * W ^ i < W ^ 34 →
    ∃ sz0 n k t z, mulRows max ds i ⟨sz, blocks 34 p⟩ = some z ∧ t < 34 ∧ k < W ∧
      (Bignum.mk sz0 (blocks 34 n)).addSmallAt t k = some z ∧
      n + k * W ^ t = p + Nat.ofDigits W ds * Nat.ofDigits W max * W ^ i ∧
      (if W ^ max.length ≤ Nat.ofDigits W ds / W ^ (ds.length - 1) * Nat.ofDigits W max then
        k = Nat.ofDigits W ds / W ^ (ds.length - 1) * Nat.ofDigits W max / W ^ max.length ∧
          t = i + (ds.length - 1) + max.length
      else
        k = Nat.ofDigits W ds / W ^ (ds.length - 1) * Nat.ofDigits W max / W ^ (max.length - 1) ∧
          t = i + (ds.length - 1) + (max.length - 1)) := by
  intro ds
  induction ds with
  | nil => intro _ _ _ h; exact absurd rfl h
  | cons d ds ih =>
    intro i sz p _ hds hl h
    have hd := hds d (by simp)
    simp only [List.length_cons] at hl
    have hml : 0 < max.length := List.length_pos_of_ne_nil hmax
    have key : p + Nat.ofDigits W (d :: ds) * Nat.ofDigits W max * W ^ i =
        (p + (d * Nat.ofDigits W max + 0) * W ^ i) + Nat.ofDigits W ds * Nat.ofDigits W max * W ^ (i + 1) := by
      rw [Nat.ofDigits_cons, pow_succ]; ring
    rw [key] at h ⊢
    have hds' : ∀ d ∈ ds, d < W := fun x hx => hds x (by simp [hx])
    by_cases hnil : ds = []
    · subst hnil
      simp only [Nat.ofDigits_nil, Nat.zero_mul, Nat.add_zero, Nat.ofDigits_singleton, List.length_singleton, Nat.sub_self,
        pow_zero, Nat.div_one] at h ⊢
      obtain ⟨sz0, z, c', h1, h2, h3⟩ := mulRow_last hd max i 0 sz p hmax hm W_pos (by omega) (by omega)
      simp only [Nat.add_zero] at h1 h2 h3
      generalize hv : d * Nat.ofDigits W max = v at h h1 h2 h3 ⊢
      by_cases hc : W ^ max.length ≤ v
      · simp only [if_pos hc]
        obtain ⟨sz1, p1, c1, r1, r2, r3⟩ := mulRow_blocks hd max i 0 sz p hm W_pos (by omega) (by rw [Nat.add_zero, hv]; exact h)
        rw [r1] at h1
        obtain ⟨rfl, rfl⟩ := Prod.mk.inj (Option.some.inj h1)
        rw [Nat.add_zero, hv] at r3
        have hpos : 0 < c1 := by
          rw [h2]; exact Nat.div_pos hc (Nat.pow_pos W_pos)
        have hi : i + max.length < 34 := by
          by_contra hge
          have hle : W ^ 34 ≤ W ^ (i + max.length) := Nat.pow_le_pow_right W_pos (by omega)
          have hle2 : W ^ (i + max.length) ≤ c1 * W ^ (i + max.length) := Nat.le_mul_of_pos_left _ hpos
          omega
        obtain ⟨sz2, h4⟩ := addSmallAt_blocks (sz := sz1) (n := p1) hi r2 (by omega)
        refine ⟨sz1, p1, c1, i + max.length, _, ?_, hi, r2, h4, r3, h2, rfl⟩
        simp only [mulRows, r1, hpos, if_true, h4]
      · simp only [if_neg hc]
        have hc' : v < W ^ max.length := by omega
        have h20 : c' = 0 := by rw [h2, Nat.div_eq_of_lt hc']
        have hlt : v / W ^ (max.length - 1) < W := by
          apply Nat.div_lt_of_lt_mul
          rw [← pow_succ, show max.length - 1 + 1 = max.length by omega]
          exact hc'
        rw [Nat.mod_eq_of_lt hlt] at h3
        refine ⟨sz0, _, _, _, z, ?_, ?_, hlt, h3, ?_, rfl, rfl⟩
        · simp only [mulRows, h1, h20]
          rfl
        · omega
        · conv_rhs => rw [← Nat.mod_add_div v (W ^ (max.length - 1))]
          rw [pow_add]; ring
    · obtain ⟨l, hlen⟩ : ∃ l, ds.length = l + 1 :=
        ⟨ds.length - 1, by have := List.length_pos_of_ne_nil hnil; omega⟩
      have htop : Nat.ofDigits W (d :: ds) / W ^ ((d :: ds).length - 1) = Nat.ofDigits W ds / W ^ (ds.length - 1) := by
        rw [List.length_cons, Nat.add_sub_cancel, hlen, Nat.add_sub_cancel, pow_succ', ← Nat.div_div_eq_div_mul,
          Nat.ofDigits_cons, Nat.add_mul_div_left _ _ W_pos, Nat.div_eq_of_lt hd, Nat.zero_add]
      rw [htop]
      obtain ⟨sz1, p1, c1, h1, h2, h3⟩ := mulRow_blocks hd max i 0 sz p hm W_pos (by omega) (by omega)
      rw [← h3] at h ⊢
      have hlens : (d :: ds).length - 1 = 1 + (ds.length - 1) := by simp only [List.length_cons]; omega
      by_cases hc : c1 > 0
      · have hi : i + max.length < 34 := by omega
        obtain ⟨sz2, h4⟩ := addSmallAt_blocks (sz := sz1) (n := p1) hi h2 (by omega)
        obtain ⟨sz0, n, k, t, z, i1, i2, i3, i4, i5, i6⟩ := ih (i + 1) sz2 _ hnil hds' (by omega) h
        refine ⟨sz0, n, k, t, z, ?_, i2, i3, i4, i5, ?_⟩
        · simp only [mulRows, h1, hc, if_true, h4]
          exact i1
        · rw [hlens]
          simpa [Nat.add_assoc] using i6
      · have hc0 : c1 = 0 := by omega
        subst hc0
        simp only [Nat.zero_mul, Nat.add_zero] at h ⊢
        obtain ⟨sz0, n, k, t, z, i1, i2, i3, i4, i5, i6⟩ := ih (i + 1) sz1 _ hnil hds' (by omega) h
        refine ⟨sz0, n, k, t, z, ?_, i2, i3, i4, i5, ?_⟩
        · simp only [mulRows, h1, hc, if_false]
          exact i1
        · rw [hlens]
          simpa [Nat.add_assoc] using i6

end Emio
