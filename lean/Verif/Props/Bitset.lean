import Verif.Lemmas.Bitset
/-
Property C57: the set of argument numbers.
-/
namespace Emio
open Bitset

/-- Call `set` for each position in turn; nothing if the program terminates. -/
def Bitset.setAll (b : Bitset) (positions : List Nat) : Option Bitset := positions.foldlM Bitset.set b

theorem Bitset.rep_setAll {b : Bitset} {S : List Nat} (h : Rep b S) (positions : List Nat) :
    if ∀ p ∈ positions, p < b.bits then
      ∃ b', b.setAll positions = some b' ∧ Rep b' (positions.reverse ++ S) ∧ b'.bits = b.bits
    else b.setAll positions = none := by
  induction positions generalizing b S with
  | nil => simp only [List.not_mem_nil, false_implies, implies_true, if_true]; exact ⟨b, rfl, by simpa using h, rfl⟩
  | cons p ps ih =>
    have hp := rep_set h p
    unfold Bitset.setAll
    rw [List.foldlM_cons]
    by_cases hlt : p < b.bits
    · rw [if_pos hlt] at hp
      obtain ⟨b1, e1, h1, hb1⟩ := hp
      rw [e1]
      have := ih h1
      rw [hb1] at this
      simp only [List.forall_mem_cons, hlt, true_and]
      simpa [Bitset.setAll] using this
    · rw [if_neg hlt] at hp
      rw [hp, if_neg (by simp [hlt])]
      rfl

/-- For every size and every sequence of positions: the program terminates exactly if a position is outside; otherwise
`all_first(n)` says whether all positions below `n` were set, and `all()` whether all positions were. -/
theorem C57_bitset (bits : Nat) (positions : List Nat) :
    ((∃ p ∈ positions, bits ≤ p) → (Bitset.new bits).setAll positions = none) ∧
    ((∀ p ∈ positions, p < bits) → ∃ b, (Bitset.new bits).setAll positions = some b ∧
      (∀ n, b.allFirst n = true ↔ ∀ i < n, i ∈ positions) ∧
      (b.all = true ↔ ∀ i < bits, i ∈ positions)) := by
  have h := Bitset.rep_setAll (rep_new bits) positions
  have hb : (Bitset.new bits).bits = bits := rfl
  rw [hb] at h
  constructor
  · rintro ⟨p, hp, hle⟩
    rwa [if_neg (fun hh => by have := hh p hp; omega)] at h
  · intro hall
    rw [if_pos hall] at h
    obtain ⟨b, e, hr, hbits⟩ := h
    refine ⟨b, e, fun n => ?_, ?_⟩
    · rw [rep_allFirst hr]; simp
    · rw [rep_all hr, hbits]; simp

/-- 70 positions of a set of 128, and the boundary of the words. -/
example : ((Bitset.new 128).setAll (List.range 70)).map (fun b => (b.allFirst 70, b.allFirst 71, b.all)) =
    some (true, false, false) ∧ (Bitset.new 128).setAll [3, 128] = none := by decide +kernel

end Emio
