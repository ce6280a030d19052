import Verif.Lemmas.Bignum
import Mathlib.Data.Nat.Digits.Defs
import Mathlib.Data.Nat.Digits.Lemmas
/-
The operations of big integers which formatting does not use.
-/
namespace Emio
namespace Bignum

theorem blocks_add_mul : ∀ (s n k : Nat), blocks s (n + k * W ^ s) = blocks s n := by
  intro s
  induction s with
  | zero => intro n k; rfl
  | succ s ih =>
    intro n k
    have e : n + k * W ^ (s + 1) = n + W * (k * W ^ s) := by rw [pow_succ]; ring
    rw [blocks_succ, blocks_succ, e, Nat.add_mul_mod_self_left, Nat.add_mul_div_left _ _ W_pos, ih]

theorem blocks_take {s k n : Nat} (h : s ≤ k) : (blocks k n).take s = blocks s n := by
  obtain ⟨t, rfl⟩ := Nat.exists_eq_add_of_le h
  rw [blocks_split, List.take_left' (blocks_length _ _)]

theorem blocks_drop {s k n : Nat} (h : s ≤ k) : (blocks k n).drop s = blocks (k - s) (n / W ^ s) := by
  obtain ⟨t, rfl⟩ := Nat.exists_eq_add_of_le h
  rw [blocks_split, List.drop_left' (blocks_length _ _), Nat.add_sub_cancel_left]

theorem carryLoop_blocks : ∀ k n (c : Bool), n + c.toNat < W ^ k →
    (carryLoop (blocks k n) c).1 = blocks k (n + c.toNat) := by
  intro k
  induction k with
  | zero =>
    intro n c h
    cases c <;> rfl
  | succ k ih =>
    intro n c h
    cases c with
    | false => rfl
    | true =>
      have hb : n % W < W := Nat.mod_lt _ W_pos
      have e := carryingAdd_eq (a := n % W) (b := 0) (c := true) hb W_pos
      simp only [Bool.toNat_true, Nat.add_zero] at e h ⊢
      rw [blocks_succ, blocks_succ]
      simp only [carryLoop, e]
      have hc : (n + 1) % W = (n % W + 1) % W ∧ (n + 1) / W = n / W + (decide (W ≤ n % W + 1)).toNat := by
        by_cases hle : W ≤ n % W + 1 <;> simp only [hle, decide_true, decide_false, Bool.toNat_true, Bool.toNat_false] <;>
          simp only [W] at * <;> omega
      have hlt : n / W + (decide (W ≤ n % W + 1)).toNat < W ^ k := by
        rw [← hc.2]
        rw [pow_succ, Nat.mul_comm] at h
        exact Nat.div_lt_of_lt_mul h
      rw [ih _ _ hlt, hc.1, hc.2]

/-- `add_small_at` adds to the value. -/
theorem addSmallAt_blocks {sz n i k : Nat} (hi : i < 34) (hk : k < W) (h : n + k * W ^ i < W ^ 34) :
    ∃ sz', (Bignum.mk sz (blocks 34 n)).addSmallAt i k = some ⟨sz', blocks 34 (n + k * W ^ i)⟩ := by
  obtain ⟨t, ht⟩ : ∃ t, 34 = i + (t + 1) := ⟨33 - i, by omega⟩
  unfold addSmallAt
  have hd : (blocks 34 n).drop i = blocks (t + 1) (n / W ^ i) := by
    rw [blocks_drop (by omega)]; congr 1; omega
  have hpos : 0 < W ^ i := Nat.pow_pos W_pos
  have hm : n / W ^ i + k < W ^ (t + 1) := by
    rw [← Nat.add_mul_div_right _ _ hpos]
    refine Nat.div_lt_of_lt_mul ?_
    rw [← pow_add, ← ht]; exact h
  simp only
  rw [hd, blocks_succ]
  generalize hmm : n / W ^ i = m at hm hd
  have e := carryingAdd_eq (a := m % W) (b := k) (c := false) (Nat.mod_lt _ W_pos) hk
  simp only [Bool.toNat_false, Nat.add_zero] at e
  simp only [e]
  have hc : (m + k) % W = (m % W + k) % W ∧ (m + k) / W = m / W + (decide (W ≤ m % W + k)).toNat := by
    by_cases hle : W ≤ m % W + k <;> simp only [hle, decide_true, decide_false, Bool.toNat_true, Bool.toNat_false] <;>
      simp only [W] at * <;> omega
  have hlt : m / W + (decide (W ≤ m % W + k)).toNat < W ^ t := by
    rw [← hc.2]
    rw [pow_succ, Nat.mul_comm] at hm
    exact Nat.div_lt_of_lt_mul hm
  rw [carryLoop_blocks _ _ _ hlt, ← hc.1, ← hc.2, ← blocks_succ, blocks_take (by omega)]
  have e2 : blocks 34 (n + k * W ^ i) = blocks i n ++ blocks (t + 1) (m + k) := by
    conv_lhs => rw [ht]
    rw [blocks_split, blocks_add_mul, Nat.add_mul_div_right _ _ hpos, hmm]
  rw [e2]
  exact ⟨_, rfl⟩

theorem borrowLoop_blocks : ∀ k n (c : Bool), c.toNat ≤ n → n < W ^ k →
    (borrowLoop (blocks k n) c).1 = blocks k (n - c.toNat) := by
  intro k
  induction k with
  | zero =>
    intro n c h _
    cases c <;> rfl
  | succ k ih =>
    intro n c h hn
    cases c with
    | false => rfl
    | true =>
      have hb : n % W < W := Nat.mod_lt _ W_pos
      have e := borrowingSub_eq (a := n % W) (b := 0) (c := true) hb W_pos
      simp only [Bool.toNat_true, Nat.zero_add] at e h ⊢
      rw [blocks_succ, blocks_succ]
      simp only [borrowLoop, e]
      have hc : (n - 1) % W = (n % W + W - 1) % W ∧ (n - 1) / W = n / W - (decide (n % W < 1)).toNat ∧
          (decide (n % W < 1)).toNat ≤ n / W := by
        by_cases hle : n % W < 1 <;> simp only [hle, decide_true, decide_false, Bool.toNat_true, Bool.toNat_false] <;>
          simp only [W] at * <;> omega
      have hlt : n / W < W ^ k := by
        rw [pow_succ, Nat.mul_comm] at hn
        exact Nat.div_lt_of_lt_mul hn
      rw [ih _ _ hc.2.2 hlt, hc.1, hc.2.1]

/-- `sub_small` subtracts from the value. -/
theorem subSmall_blocks {sz n k : Nat} (hk : k < W) (hn : n < W ^ 34) (h : k ≤ n) :
    ∃ sz', (Bignum.mk sz (blocks 34 n)).subSmall k = some ⟨sz', blocks 34 (n - k)⟩ := by
  unfold subSmall
  rw [show (34 : Nat) = 33 + 1 by rfl, blocks_succ 33 n, blocks_succ 33 (n - k)]
  have e := borrowingSub_eq (a := n % W) (b := k) (c := false) (Nat.mod_lt _ W_pos) hk
  simp only [Bool.toNat_false, Nat.add_zero] at e
  simp only [e]
  have hc : (n - k) % W = (n % W + W - k) % W ∧ (n - k) / W = n / W - (decide (n % W < k)).toNat ∧
      (decide (n % W < k)).toNat ≤ n / W := by
    by_cases hle : n % W < k <;> simp only [hle, decide_true, decide_false, Bool.toNat_true, Bool.toNat_false] <;>
      simp only [W] at * <;> omega
  have hlt : n / W < W ^ 33 := by
    rw [show (34 : Nat) = 33 + 1 by rfl, pow_succ, Nat.mul_comm] at hn
    exact Nat.div_lt_of_lt_mul hn
  rw [borrowLoop_blocks _ _ _ hc.2.2 hlt, ← hc.1, ← hc.2.1]
  exact ⟨_, rfl⟩

/-- One row of the product. -/
theorem mulRow_blocks {d : Nat} (hd : d < W) : ∀ (es : List Nat) (t c sz p : Nat), (∀ e ∈ es, e < W) → c < W →
    t + es.length ≤ 34 → p + (d * Nat.ofDigits W es + c) * W ^ t < W ^ 34 →
    ∃ sz' p' c', mulRow d es t c ⟨sz, blocks 34 p⟩ = some (⟨sz', blocks 34 p'⟩, c') ∧ c' < W ∧
      p' + c' * W ^ (t + es.length) = p + (d * Nat.ofDigits W es + c) * W ^ t := by
  intro es
  induction es with
  | nil =>
    intro t c sz p _ hc _ h
    exact ⟨sz, p, c, rfl, hc, by simp⟩
  | cons e es ih =>
    intro t c sz p hes hc ht h
    have he := hes e (by simp)
    obtain ⟨e1, e2⟩ := carryingMul_eq hd he hc
    have hdm := Nat.mod_add_div (d * e + c) W
    have key : p + (d * Nat.ofDigits W (e :: es) + c) * W ^ t =
        (p + (d * e + c) % W * W ^ t) + (d * Nat.ofDigits W es + (d * e + c) / W) * W ^ (t + 1) := by
      rw [Nat.ofDigits_cons, pow_succ]
      have : d * (e + W * Nat.ofDigits W es) + c = (d * e + c) + W * (d * Nat.ofDigits W es) := by ring
      rw [this, ← hdm]
      conv_lhs => rw [hdm]
      conv_rhs => rw [hdm]
      conv_lhs => rw [← hdm]
      ring
    rw [key] at h
    simp only [List.length_cons] at ht
    obtain ⟨sz1, h1⟩ := addSmallAt_blocks (sz := sz) (n := p) (i := t) (k := (d * e + c) % W) (by omega)
      (Nat.mod_lt _ W_pos) (by omega)
    obtain ⟨sz', p', c', h2, h3, h4⟩ := ih (t + 1) ((d * e + c) / W) sz1 _ (fun x hx => hes x (by simp [hx])) e2
      (by omega) h
    refine ⟨sz', p', c', ?_, h3, ?_⟩
    · simp only [mulRow, e1, h1]
      exact h2
    · rw [key, ← h4]
      congr 3
      simp only [List.length_cons]
      omega

/-- The whole product. -/
theorem mulRows_blocks {max : List Nat} (hm : ∀ e ∈ max, e < W) : ∀ (ds : List Nat) (i sz p : Nat), (∀ d ∈ ds, d < W) →
    (ds ≠ [] → i + ds.length + max.length ≤ 35) → p + Nat.ofDigits W ds * Nat.ofDigits W max * W ^ i < W ^ 34 →
    ∃ sz', mulRows max ds i ⟨sz, blocks 34 p⟩ =
      some ⟨sz', blocks 34 (p + Nat.ofDigits W ds * Nat.ofDigits W max * W ^ i)⟩ := by
  intro ds
  induction ds with
  | nil =>
    intro i sz p _ _ _
    exact ⟨sz, by simp [mulRows]⟩
  | cons d ds ih =>
    intro i sz p hds hl h
    have hl := hl (by simp)
    simp only [List.length_cons] at hl
    have key : p + Nat.ofDigits W (d :: ds) * Nat.ofDigits W max * W ^ i =
        (p + (d * Nat.ofDigits W max + 0) * W ^ i) + Nat.ofDigits W ds * Nat.ofDigits W max * W ^ (i + 1) := by
      rw [Nat.ofDigits_cons, pow_succ]; ring
    rw [key] at h ⊢
    obtain ⟨sz1, p1, c1, h1, h2, h3⟩ := mulRow_blocks (hds d (by simp)) max i 0 sz p hm W_pos (by omega) (by omega)
    rw [← h3] at h ⊢
    have hds' : ∀ d ∈ ds, d < W := fun x hx => hds x (by simp [hx])
    by_cases hc : c1 > 0
    · have hi : i + max.length < 34 := by
        by_contra hge
        have hle : W ^ 34 ≤ W ^ (i + max.length) := Nat.pow_le_pow_right W_pos (by omega)
        have hle2 : W ^ (i + max.length) ≤ c1 * W ^ (i + max.length) := Nat.le_mul_of_pos_left _ hc
        omega
      obtain ⟨sz2, h4⟩ := addSmallAt_blocks (sz := sz1) (n := p1) hi h2 (by omega)
      obtain ⟨sz', h5⟩ := ih (i + 1) sz2 _ hds' (by intro _; omega) h
      refine ⟨sz', ?_⟩
      simp only [mulRows, h1, hc, if_true, h4]
      exact h5
    · have hc0 : c1 = 0 := by omega
      subst hc0
      simp only [Nat.zero_mul, Nat.add_zero] at h ⊢
      obtain ⟨sz', h5⟩ := ih (i + 1) sz1 _ hds' (by intro _; omega) h
      refine ⟨sz', ?_⟩
      simp only [mulRows, h1, hc, if_false]
      exact h5

/-- Division, from the highest block down. -/
theorem divLoop_eq {k : Nat} (hk : 0 < k) (hkW : k < W) : ∀ (ds : List Nat) (b : Nat), (∀ d ∈ ds, d < W) → b < k →
    (divLoop k ds b).1.length = ds.length ∧ (∀ d ∈ (divLoop k ds b).1, d < W) ∧
    Nat.ofDigits W (divLoop k ds b).1.reverse = (b * W ^ ds.length + Nat.ofDigits W ds.reverse) / k ∧
    (divLoop k ds b).2 = (b * W ^ ds.length + Nat.ofDigits W ds.reverse) % k := by
  intro ds
  induction ds with
  | nil =>
    intro b _ hb
    simp [divLoop, Nat.div_eq_of_lt hb, Nat.mod_eq_of_lt hb]
  | cons d ds ih =>
    intro b hds hb
    have hd := hds d (by simp)
    have hv : d + b * W < k * W := by
      have : b * W + W ≤ k * W := by rw [← Nat.succ_mul]; exact Nat.mul_le_mul_right _ hb
      omega
    have hvW : d + b * W < W * W := lt_of_lt_of_le hv (Nat.mul_le_mul_right _ (le_of_lt hkW))
    have hq : (d + b * W) / k < W := Nat.div_lt_of_lt_mul hv
    have hr : (d + b * W) - (d + b * W) / k * k = (d + b * W) % k := by
      have := Nat.div_add_mod (d + b * W) k
      rw [Nat.mul_comm] at this
      omega
    obtain ⟨i1, i2, i3, i4⟩ := ih ((d + b * W) % k) (fun x hx => hds x (by simp [hx])) (Nat.mod_lt _ hk)
    have e : divLoop k (d :: ds) b = ((d + b * W) / k :: (divLoop k ds ((d + b * W) % k)).1,
        (divLoop k ds ((d + b * W) % k)).2) := by
      simp only [divLoop, Nat.mod_eq_of_lt hvW, Nat.mod_eq_of_lt hq, hr]
    have key : b * W ^ (d :: ds).length + Nat.ofDigits W (d :: ds).reverse =
        k * ((d + b * W) / k * W ^ ds.length) + ((d + b * W) % k * W ^ ds.length + Nat.ofDigits W ds.reverse) := by
      rw [List.reverse_cons, Nat.ofDigits_append, List.length_reverse, List.length_cons, Nat.ofDigits_singleton, pow_succ]
      have := Nat.div_add_mod (d + b * W) k
      calc b * (W ^ ds.length * W) + (Nat.ofDigits W ds.reverse + W ^ ds.length * d)
          = (d + b * W) * W ^ ds.length + Nat.ofDigits W ds.reverse := by ring
        _ = (k * ((d + b * W) / k) + (d + b * W) % k) * W ^ ds.length + Nat.ofDigits W ds.reverse := by rw [this]
        _ = _ := by ring
    rw [e, key]
    refine ⟨by simp [i1], ?_, ?_, ?_⟩
    · intro x hx
      rcases List.mem_cons.1 hx with rfl | hx
      · exact hq
      · exact i2 x hx
    · rw [List.reverse_cons, Nat.ofDigits_append, List.length_reverse, i1, i3, Nat.ofDigits_singleton,
        Nat.mul_add_div hk]
      ring
    · rw [i4, Nat.mul_add_mod]

end Bignum
end Emio
