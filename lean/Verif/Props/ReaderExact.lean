import Verif.Props.Reader
/-
Properties C03 and C07: exactly which characters are digits, and exactly what a subreader views.
-/
namespace Emio
open Spec

/-- The value of a character as a digit of base `b`: the usual one for numerals, and 10 to 16 for `:` to `@`. -/
def Spec.takenDigit (b : Nat) (c : Char) : Option Nat :=
  if isColonToAt c then if c.toNat - 48 < b then some (c.toNat - 48) else none else symbolValue b c

theorem charToDigit_taken (c : Char) (b : Nat) (hb : b ≤ 36) : charToDigit c b = takenDigit b c := by
  unfold takenDigit
  by_cases h : isColonToAt c = true
  · rw [if_pos h]
    unfold isColonToAt at h
    unfold charToDigit charToDigitVal
    generalize c.toNat = n at h ⊢
    simp only [Bool.and_eq_true, decide_eq_true_eq] at h
    rw [if_neg (by omega)]
    simp only [if_neg (show ¬ ((n : Int) ≥ 97) by omega), if_neg (show ¬ ((n : Int) ≥ 65) by omega)]
    by_cases hn : n - 48 < b
    · rw [if_pos hn, if_pos (by omega), Option.map_some]
      congr 1
      omega
    · rw [if_neg hn, if_neg (by omega)]
      rfl
  · rw [if_neg h]
    exact charToDigit_eq c b hb (Or.inr (by simpa using h))

/-- C03, exactly, for every character but the signs: the characters taken for digits are the numerals of the base and, in
bases above 10, those of `:` to `@` whose distance from `0` is less than the base. -/
theorem C03_exactly (t : IntTy) (ht : t.Std) (b : Nat) (c : Char) (hb : 2 ≤ b) (hb' : b ≤ 36) (hp : c ≠ '+') (hm : c ≠ '-') :
    Reader.parseInt t b (.ofStr [c]) = match takenDigit b c with
      | some d => .ok ⟨[c], 1⟩ d
      | none => .err ⟨[c], 0⟩ .invalidData := by
  have hd := charToDigit_taken c b hb'
  cases hx : takenDigit b c with
  | none =>
    rw [hx] at hd
    exact parseInt_no_digit t b hb hb' (.ofStr [c]) (by simp [Reader.Inv, Reader.ofStr]) .none c [] rfl
      (fun _ => ⟨hp, hm⟩) hd
  | some d =>
    by_cases hc : isColonToAt c = true
    · rw [hx] at hd
      have h16 : d ≤ 16 := by
        unfold takenDigit at hx
        rw [if_pos hc] at hx
        unfold isColonToAt at hc
        simp only [Bool.and_eq_true, decide_eq_true_eq] at hc
        split at hx
        · cases hx; omega
        · cases hx
      rw [parseInt_run t b hb hb' (.ofStr [c]) (by simp [Reader.Inv, Reader.ofStr]) .none c d [] rfl hd]
      have ha : Reader.addDigit t.upcast false 0 0 d = .ok () d ∧ t.Holds d := by
        obtain ⟨sgd, bits⟩ := t
        unfold IntTy.Std at ht
        simp only at ht
        have all : ∀ d < 17, ∀ s : Bool, ∀ n ∈ [8, 16, 32, 64],
            Reader.addDigit (IntTy.upcast ⟨s, n⟩) false 0 0 d = .ok () d ∧ IntTy.Holds ⟨s, n⟩ d := by decide +kernel
        exact all d (by omega) sgd bits (by simpa using ht)
      rw [show isMinus .none = false from rfl, parseLoop_nil, ha.1]
      simp only [reduceCtorEq, and_false, if_false, if_pos (Or.inr ha.2)]
      rfl
    · have := C03_only_numerals_partial t ht b c hb hb' hp hm (Or.inr (by simpa using hc))
      rw [this]
      unfold takenDigit at hx
      rw [if_neg hc] at hx
      rw [hx]

/-- `@` is 16 in base 17 and no digit in base 16. -/
example : takenDigit 17 '@' = some 16 ∧ takenDigit 16 '@' = none ∧ takenDigit 16 ':' = some 10 ∧ takenDigit 10 ':' = none := by
  decide

/-- C07, exactly, for every offset a `size_t` can hold and every input that lies inside the address space: an offset beyond
the end is end-of-file, but an offset close to `2^64` counts backwards from the read position; backwards beyond the
beginning of the input the behaviour is undefined. -/
theorem C07_exactly (addr p len : Nat) (r : Reader) (hinv : r.pos ≤ r.src.length) (haddr : addr + r.src.length < 2 ^ 64)
    (hp : p < 2 ^ 64) :
    Reader.subreader addr p len r =
      if p ≤ r.rest.length then .ok r (.ofStr ((r.rest.drop p).take len))
      else if addr + r.pos + p < 2 ^ 64 then .err r .eof
      else if 2 ^ 64 - p ≤ r.pos then .ok r (.ofStr ((r.src.drop (r.pos - (2 ^ 64 - p))).take len))
      else .bad .ub := by
  have hl := r.rest_length
  by_cases hw : addr + r.pos + p < 2 ^ 64
  · rw [if_pos hw]
    exact C07_subreader_window_partial addr p len r hinv hw
  · rw [if_neg (by omega), if_neg hw]
    unfold Reader.subreader
    simp only
    have hm : (addr + r.pos + p) % Reader.addrSpace = addr + r.pos + p - 2 ^ 64 := by
      unfold Reader.addrSpace
      omega
    rw [hm, if_neg (by omega)]
    by_cases hb : 2 ^ 64 - p ≤ r.pos
    · rw [if_pos hb, if_neg (by omega), show addr + r.pos + p - 2 ^ 64 - addr = r.pos - (2 ^ 64 - p) by omega]
      congr 2
      show List.take (min len _) _ = _
      rw [List.take_eq_take_iff]
      simp only [List.length_drop]
      omega
    · rw [if_neg hb, if_pos (by omega)]

/-- Two characters back. -/
example : Reader.subreader 4096 (2 ^ 64 - 2) 3 ⟨"abcdefgh".toList, 4⟩ = .ok ⟨"abcdefgh".toList, 4⟩ (.ofStr "cde".toList) := by
  decide +kernel

end Emio
