import Verif.Model.Bitset
/-
Helper lemmas about the bitset.
-/
namespace Emio.Bitset

theorem lowBits_iff : ∀ (n w : Nat), lowBits w n = true ↔ ∀ i < n, w.testBit i = true := by
  intro n
  induction n with
  | zero => intro w; simp [lowBits]
  | succ n ih =>
    intro w
    have h0 : (w &&& 1 = 1) ↔ w.testBit 0 = true := by
      rw [Nat.and_one_is_mod, Nat.testBit_zero]; simp
    rw [lowBits]
    by_cases h : w &&& 1 = 1
    · rw [if_neg (by simpa using h), ih]
      constructor
      · intro hh i hi
        cases i with
        | zero => exact h0.1 h
        | succ i =>
          have := hh i (by omega)
          rw [Nat.testBit_shiftRight] at this
          rwa [Nat.add_comm]
      · intro hh i hi
        rw [Nat.testBit_shiftRight, Nat.add_comm]
        exact hh (i + 1) (by omega)
    · rw [if_pos h]
      simp only [Bool.false_eq_true, false_iff]
      intro hh
      exact h (h0.2 (hh 0 (by omega)))

theorem allOnes_iff {w : Nat} (hw : w < 2 ^ 64) : w = allOnes ↔ ∀ i < 64, w.testBit i = true := by
  unfold allOnes
  constructor
  · rintro rfl i hi
    rw [Nat.testBit_two_pow_sub_one]; simpa using hi
  · intro h
    apply Nat.eq_of_testBit_eq
    intro i
    rw [Nat.testBit_two_pow_sub_one]
    by_cases hi : i < 64
    · simp [hi, h i hi]
    · simp only [hi, decide_false]
      exact Nat.testBit_lt_two_pow (Nat.lt_of_lt_of_le hw (Nat.pow_le_pow_right (by omega) (by omega)))

/-- Bit `i` of a list of words. -/
def bit (ws : List Nat) (i : Nat) : Bool := (ws.getD (i / 64) 0).testBit (i % 64)

theorem bit_cons_lt (w : Nat) (ws : List Nat) {i : Nat} (h : i < 64) : bit (w :: ws) i = w.testBit i := by
  unfold bit
  rw [Nat.div_eq_of_lt h, Nat.mod_eq_of_lt h]
  rfl

theorem bit_cons_add (w : Nat) (ws : List Nat) (i : Nat) : bit (w :: ws) (i + 64) = bit ws i := by
  unfold bit
  rw [show (i + 64) / 64 = i / 64 + 1 by omega, show (i + 64) % 64 = i % 64 by omega]
  rfl

theorem allFirstLoop_iff : ∀ (ws : List Nat) (n : Nat), (∀ w ∈ ws, w < 2 ^ 64) → n ≤ 64 * ws.length →
    (allFirstLoop ws n = true ↔ ∀ i < n, bit ws i = true) := by
  intro ws
  induction ws with
  | nil => intro n _ hn; simp at hn; subst hn; simp [allFirstLoop]
  | cons w ws ih =>
    intro n hw hn
    rw [allFirstLoop]
    have hw0 := hw w (by simp)
    have h1 := allOnes_iff hw0
    by_cases h : n > 64
    · rw [if_pos h]
      by_cases hall : w = allOnes
      · rw [if_neg (by simpa using hall), ih (n - 64) (fun x hx => hw x (by simp [hx])) (by simp at hn; omega)]
        constructor
        · intro hh i hi
          by_cases hi64 : i < 64
          · rw [bit_cons_lt _ _ hi64]; exact h1.1 hall i hi64
          · obtain ⟨j, rfl⟩ : ∃ j, i = j + 64 := ⟨i - 64, by omega⟩
            rw [bit_cons_add]; exact hh j (by omega)
        · intro hh i hi
          rw [← bit_cons_add w]; exact hh (i + 64) (by omega)
      · rw [if_pos hall]
        simp only [Bool.false_eq_true, false_iff]
        intro hh
        exact hall (h1.2 fun i hi => by rw [← bit_cons_lt w ws hi]; exact hh i (by omega))
    · rw [if_neg h, lowBits_iff]
      constructor
      · intro hh i hi; rw [bit_cons_lt _ _ (by omega)]; exact hh i hi
      · intro hh i hi; rw [← bit_cons_lt w ws (by omega)]; exact hh i hi

/-- The bitset holds exactly the positions `S`. -/
structure Rep (b : Bitset) (S : List Nat) : Prop where
  length : b.words.length = numberOfWords b.bits
  words : ∀ w ∈ b.words, w < 2 ^ 64
  bits : ∀ i, bit b.words i = true ↔ i ∈ S
  range : ∀ i ∈ S, i < b.bits

theorem numberOfWords_le (bits : Nat) : bits ≤ 64 * numberOfWords bits := by
  unfold numberOfWords; split <;> omega

theorem rep_new (bits : Nat) : Rep (new bits) [] := by
  refine ⟨by simp [new], ?_, fun i => ?_, by simp⟩
  · intro w hw
    simp [new] at hw
    omega
  · simp only [List.not_mem_nil, iff_false]
    unfold bit new
    simp only [List.getD_eq_getElem?_getD, List.getElem?_replicate]
    split <;> simp

theorem rep_set {b : Bitset} {S : List Nat} (h : Rep b S) (pos : Nat) :
    if pos < b.bits then ∃ b', b.set pos = some b' ∧ Rep b' (pos :: S) ∧ b'.bits = b.bits else b.set pos = none := by
  unfold set
  split
  · rename_i hp
    rw [if_neg (by omega)]
    refine ⟨_, rfl, ?_, rfl⟩
    have hbound : pos / 64 < b.words.length := by
      rw [h.length]
      have := numberOfWords_le b.bits
      omega
    have hsmall : (1 <<< (pos % 64)) % 2 ^ 64 = 2 ^ (pos % 64) := by
      rw [Nat.shiftLeft_eq, Nat.one_mul, Nat.mod_eq_of_lt]
      exact Nat.pow_lt_pow_right (by omega) (by omega)
    refine ⟨by simp [h.length], ?_, fun i => ?_, ?_⟩
    · intro w hw
      simp only at hw
      rw [List.mem_iff_getElem?] at hw
      obtain ⟨i, hi⟩ := hw
      rw [List.getElem?_modify] at hi
      cases hx : b.words[i]? with
      | none => rw [hx] at hi; simp at hi
      | some x =>
        rw [hx] at hi
        have hxlt := h.words x (List.mem_of_getElem? hx)
        simp only [Option.map_eq_map, Option.map_some, Option.some.injEq] at hi
        rw [← hi]
        split
        · rw [hsmall]
          exact Nat.or_lt_two_pow hxlt (Nat.pow_lt_pow_right (by omega) (by omega))
        · exact hxlt
    · have key : bit (b.words.modify (pos / 64) (· ||| (1 <<< (pos % 64)) % 2 ^ 64)) i = (bit b.words i || decide (i = pos)) := by
        unfold bit
        simp only [List.getD_eq_getElem?_getD, List.getElem?_modify, hsmall]
        by_cases hi : pos / 64 = i / 64
        · rw [hi] at hbound
          simp only [List.getElem?_eq_getElem hbound, hi]
          simp only [Option.map_eq_map, Option.map_some, Option.getD_some, if_true, Nat.testBit_or, Nat.testBit_two_pow]
          congr 1
          simp only [decide_eq_decide]
          omega
        · have : ¬ i = pos := by rintro rfl; exact hi rfl
          simp [hi, this]
      simp only [key, Bool.or_eq_true, decide_eq_true_eq, h.bits i, List.mem_cons]
      exact or_comm
    · intro i hi
      simp only [List.mem_cons] at hi
      rcases hi with rfl | hi
      · exact hp
      · exact h.range i hi
  · rename_i hp
    rw [if_pos (by omega)]

theorem rep_allFirst {b : Bitset} {S : List Nat} (h : Rep b S) (n : Nat) :
    b.allFirst n = true ↔ ∀ i < n, i ∈ S := by
  unfold allFirst
  split
  · rename_i h0
    have : ∀ i, i ∉ S := fun i hi => by have := h.range i hi; omega
    constructor
    · intro hn i hi
      simp at hn
      omega
    · intro hh
      rcases Nat.eq_zero_or_pos n with rfl | hp
      · rfl
      · exact absurd (hh 0 hp) (this 0)
  · split
    · rename_i hn
      simp only [Bool.false_eq_true, false_iff]
      intro hh
      have := h.range _ (hh b.bits hn)
      omega
    · rename_i hn
      have := numberOfWords_le b.bits
      rw [allFirstLoop_iff _ _ h.words (by rw [h.length]; omega)]
      constructor
      · intro hh i hi; exact (h.bits i).1 (hh i hi)
      · intro hh i hi; exact (h.bits i).2 (hh i hi)

theorem rep_all {b : Bitset} {S : List Nat} (h : Rep b S) : b.all = true ↔ ∀ i < b.bits, i ∈ S := by
  unfold all
  split
  · rename_i h0
    simp [h0]
  · rename_i h0
    generalize hk : numberOfWords b.bits - 1 = k
    have hlen : b.words.length = k + 1 := by
      rw [h.length, ← hk]
      unfold numberOfWords
      split <;> omega
    have hk64 : k * 64 < b.bits ∧ b.bits ≤ k * 64 + 64 := by
      rw [← hk]
      unfold numberOfWords
      split <;> omega
    have hw : ∀ j ≤ k, b.words.getD j 0 < 2 ^ 64 := by
      intro j hj
      rw [List.getD_eq_getElem?_getD, List.getElem?_eq_getElem (by omega)]
      exact h.words _ (List.getElem_mem _)
    have hbit : ∀ j i, i < 64 → bit b.words (j * 64 + i) = (b.words.getD j 0).testBit i := by
      intro j i hi
      unfold bit
      rw [show (j * 64 + i) / 64 = j by omega, show (j * 64 + i) % 64 = i by omega]
    have hhigh : (b.words.getD k 0 = highWordMask b.bits) ↔ ∀ i < b.bits - k * 64, (b.words.getD k 0).testBit i = true := by
      have hout : ∀ i, b.bits - k * 64 ≤ i → (b.words.getD k 0).testBit i = false := by
        intro i hi
        by_cases h64 : i < 64
        · rw [← hbit k i h64]
          cases hx : bit b.words (k * 64 + i) with
          | false => rfl
          | true => have := h.range _ ((h.bits _).1 hx); omega
        · exact Nat.testBit_lt_two_pow (Nat.lt_of_lt_of_le (hw k (by omega)) (Nat.pow_le_pow_right (by omega) (by omega)))
      have hmask : highWordMask b.bits = 2 ^ (b.bits - k * 64) - 1 := by
        unfold highWordMask
        have h1 : ((1 <<< (b.bits % 64)) - 1) % 2 ^ 64 = 2 ^ (b.bits % 64) - 1 := by
          rw [Nat.shiftLeft_eq, Nat.one_mul, Nat.mod_eq_of_lt]
          have : 2 ^ (b.bits % 64) < 2 ^ 64 := Nat.pow_lt_pow_right (by omega) (by omega)
          omega
        simp only [h1]
        by_cases hz : b.bits % 64 = 0
        · rw [hz, if_pos (by decide)]
          rw [show b.bits - k * 64 = 64 by omega]
          rfl
        · have : 2 ^ 1 ≤ 2 ^ (b.bits % 64) := Nat.pow_le_pow_right (by omega) (by omega)
          rw [if_neg (by omega)]
          rw [show b.bits - k * 64 = b.bits % 64 by omega]
      rw [hmask]
      constructor
      · intro he i hi
        rw [he, Nat.testBit_two_pow_sub_one]; simpa using hi
      · intro hh
        apply Nat.eq_of_testBit_eq
        intro i
        rw [Nat.testBit_two_pow_sub_one]
        by_cases hi : i < b.bits - k * 64
        · rw [hh i hi]; simp [hi]
        · simp only [hi, decide_false]
          exact hout i (by omega)
    simp only [Bool.and_eq_true, List.all_eq_true, List.mem_range, beq_iff_eq]
    rw [hhigh]
    constructor
    · rintro ⟨ha, hb⟩ i hi
      rw [← h.bits]
      by_cases hik : i < k * 64
      · have := (allOnes_iff (hw (i / 64) (by omega))).1 (ha (i / 64) (by omega)) (i % 64) (by omega)
        exact this
      · have := hb (i - k * 64) (by omega)
        rw [← hbit k _ (by omega)] at this
        rwa [show k * 64 + (i - k * 64) = i by omega] at this
    · intro hh
      constructor
      · intro j hj
        rw [allOnes_iff (hw j (by omega))]
        intro i hi
        rw [← hbit j i hi, h.bits]
        exact hh _ (by omega)
      · intro i hi
        rw [← hbit k i (by omega), h.bits]
        exact hh _ (by omega)

end Emio.Bitset
