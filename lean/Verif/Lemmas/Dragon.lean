import Verif.Model.Dragon
import Verif.Lemmas.Bignum
import Mathlib.Data.Nat.Digits.Lemmas
/-
The digit generation of dragon.hpp computes with natural numbers.
-/
namespace Emio
open Bignum

/-- The computation yields a value without undefined behaviour. -/
def Yields {α : Type} (m : Pure' α) (a : α) : Prop := m () = .ok () a

theorem Yields.pure {α : Type} (a : α) : Yields (pure a : Pure' α) a := rfl

theorem Yields.bind {α β : Type} {m : Pure' α} {f : α → Pure' β} {a : α} {b : β} (h1 : Yields m a)
    (h2 : Yields (f a) b) : Yields (m >>= f) b := by
  unfold Yields at *
  rw [M.bind_ok h1]
  exact h2

theorem Yields.need {α : Type} {o : Option α} {a : α} (h : o = some a) : Yields (need o) a := by
  subst h
  rfl

theorem Yields.det {α : Type} {m : Pure' α} {a b : α} (h1 : Yields m a) (h2 : Yields m b) : a = b := by
  unfold Yields at *
  rw [h1] at h2
  cases h2
  rfl

theorem ge_canon {a b : Nat} (ha : a < Cap) (hb : b < Cap) : Yields ((canon a).ge (canon b)) (decide (b ≤ a)) := by
  unfold Bignum.ge
  refine Yields.bind (Yields.need (cmp_canon ha hb)) ?_
  have : (compare a b != Ordering.lt) = decide (b ≤ a) := by
    rw [Bool.eq_iff_iff, bne_iff_ne, decide_eq_true_iff, Ne, Nat.compare_eq_lt]
    omega
  rw [this]
  exact Yields.pure _

theorem digitPart_canon {m s d v : Nat} (hm : m < Cap) (hs : s < Cap) :
    Yields (digitPart (canon m) (canon s) d v) (canon (if s ≤ m then m - s else m), if s ≤ m then d + v else d) := by
  unfold digitPart
  refine Yields.bind (ge_canon hm hs) ?_
  by_cases h : s ≤ m
  · rw [decide_eq_true h, if_pos h, if_pos h]
    simp only [if_true]
    exact Yields.bind (Yields.need (sub_canon hm h)) (Yields.pure _)
  · rw [decide_eq_false h, if_neg h, if_neg h]
    exact Yields.pure _

/-- The digit is the quotient, what remains is the remainder. -/
theorem nextDigit_canon {m s : Nat} (hm : m < 16 * s) (hs : s * 16 ≤ Cap) :
    Yields (nextDigit' (canon m) (canon s) (canon (s * 2 ^ 1)) (canon (s * 2 ^ 2)) (canon (s * 2 ^ 3)))
      (canon (m % s), m / s) := by
  have hs0 : 0 < s := by omega
  unfold nextDigit'
  refine Yields.bind (digitPart_canon (by omega) (by omega)) ?_
  refine Yields.bind (digitPart_canon (by split <;> omega) (by omega)) ?_
  refine Yields.bind (digitPart_canon (by split <;> split <;> omega) (by omega)) ?_
  simp only
  have hd := digitPart_canon (m := if s * 2 ^ 1 ≤ (if s * 2 ^ 2 ≤ (if s * 2 ^ 3 ≤ m then m - s * 2 ^ 3 else m) then
      (if s * 2 ^ 3 ≤ m then m - s * 2 ^ 3 else m) - s * 2 ^ 2 else if s * 2 ^ 3 ≤ m then m - s * 2 ^ 3 else m) then
      (if s * 2 ^ 2 ≤ (if s * 2 ^ 3 ≤ m then m - s * 2 ^ 3 else m) then
      (if s * 2 ^ 3 ≤ m then m - s * 2 ^ 3 else m) - s * 2 ^ 2 else if s * 2 ^ 3 ≤ m then m - s * 2 ^ 3 else m) - s * 2 ^ 1
      else (if s * 2 ^ 2 ≤ (if s * 2 ^ 3 ≤ m then m - s * 2 ^ 3 else m) then
      (if s * 2 ^ 3 ≤ m then m - s * 2 ^ 3 else m) - s * 2 ^ 2 else if s * 2 ^ 3 ≤ m then m - s * 2 ^ 3 else m))
    (s := s)
    (d := if s * 2 ^ 1 ≤ (if s * 2 ^ 2 ≤ (if s * 2 ^ 3 ≤ m then m - s * 2 ^ 3 else m) then
      (if s * 2 ^ 3 ≤ m then m - s * 2 ^ 3 else m) - s * 2 ^ 2 else if s * 2 ^ 3 ≤ m then m - s * 2 ^ 3 else m) then
      (if s * 2 ^ 2 ≤ (if s * 2 ^ 3 ≤ m then m - s * 2 ^ 3 else m) then (if s * 2 ^ 3 ≤ m then 0 + 8 else 0) + 4
        else if s * 2 ^ 3 ≤ m then 0 + 8 else 0) + 2
      else if s * 2 ^ 2 ≤ (if s * 2 ^ 3 ≤ m then m - s * 2 ^ 3 else m) then (if s * 2 ^ 3 ≤ m then 0 + 8 else 0) + 4
        else if s * 2 ^ 3 ≤ m then 0 + 8 else 0) (v := 1) (by split <;> split <;> split <;> omega) (by omega)
  have key : ∀ q r, q * s + r = m → r < s → (r, q) = (m % s, m / s) := by
    intro q r h1 h2
    have h3 : m / s = q := by
      apply Nat.div_eq_of_lt_le
      · omega
      · rw [Nat.succ_mul]
        omega
    have h4 : m % s = r := by
      have := Nat.div_add_mod m s
      rw [h3, Nat.mul_comm] at this
      omega
    rw [h3, h4]
  have fin : ∀ r q, q * s + r = m → r < s → (canon r, q) = (canon (m % s), m / s) := by
    intro r q h1 h2
    have := key q r h1 h2
    injection this with e1 e2
    rw [e1, e2]
  refine (Eq.mp (congrArg _ (fin _ _ ?_ ?_)) hd)
  · split <;> split <;> split <;> split <;> omega
  · split <;> split <;> split <;> split <;> omega

/-- The decimal expansion of `m / s`: `n` digits and the rest. -/
def expand (s : Nat) : Nat → Nat → List Nat × Nat
  | 0, m => ([], m)
  | n + 1, m => (m / s :: (expand s n (m % s * 10)).1, (expand s n (m % s * 10)).2)

theorem expand_zero (s n : Nat) : expand s n 0 = (List.replicate n 0, 0) := by
  induction n with
  | zero => rfl
  | succ n ih => simp [expand, ih, List.replicate_succ]

theorem expand_length (s n m : Nat) : (expand s n m).1.length = n := by
  induction n generalizing m with
  | zero => rfl
  | succ n ih => simp [expand, ih]

/-- The digit loop of `format_exact`. -/
theorem exactLoop_canon {s : Nat} (hs0 : 0 < s) (hs : s * 16 ≤ Cap) : ∀ n m, m < 10 * s →
    ∃ rest, Yields (exactLoop (canon s) (canon (s * 2 ^ 1)) (canon (s * 2 ^ 2)) (canon (s * 2 ^ 3)) n (canon m))
      ((expand s n m).1.map digitCharOf, rest) ∧
      (rest = some (canon (expand s n m).2) ∨ (rest = none ∧ (expand s n m).2 = 0)) := by
  intro n
  induction n with
  | zero => intro m _; exact ⟨_, rfl, Or.inl rfl⟩
  | succ n ih =>
    intro m hm
    unfold exactLoop
    rw [isZero_canon (by omega)]
    by_cases h0 : m = 0
    · subst h0
      refine ⟨none, ?_, Or.inr ⟨rfl, by rw [expand_zero]⟩⟩
      rw [expand_zero]
      simp only [beq_self_eq_true, if_true, List.map_replicate]
      exact Yields.pure _
    · have hb : (m == 0) = false := by simpa using h0
      rw [hb]
      simp only [Bool.false_eq_true, if_false]
      have hlt : m % s < s := Nat.mod_lt _ hs0
      obtain ⟨rest, h1, h2⟩ := ih (m % s * 10) (by omega)
      refine ⟨rest, ?_, h2⟩
      refine Yields.bind (nextDigit_canon (by omega) hs) ?_
      refine Yields.bind (Yields.need (mulSmall_canon (by decide) (by decide) (by omega))) ?_
      exact Yields.bind h1 (Yields.pure _)

theorem expand_value {s : Nat} (hs0 : 0 < s) : ∀ n m, m < 10 * s →
    10 * s * Nat.ofDigits 10 (expand s n m).1.reverse + (expand s n m).2 = m * 10 ^ n ∧ (expand s n m).2 < 10 * s ∧
      ∀ d ∈ (expand s n m).1, d < 10 := by
  intro n
  induction n with
  | zero => intro m h; simp [expand, h]
  | succ n ih =>
    intro m hm
    have hlt : m % s < s := Nat.mod_lt _ hs0
    obtain ⟨h1, h2, h3⟩ := ih (m % s * 10) (by omega)
    refine ⟨?_, h2, ?_⟩
    · simp only [expand, List.reverse_cons, Nat.ofDigits_append, List.length_reverse, expand_length, Nat.ofDigits_singleton]
      have e := Nat.div_add_mod m s
      have : 10 * s * (Nat.ofDigits 10 (expand s n (m % s * 10)).1.reverse + 10 ^ n * (m / s)) +
          (expand s n (m % s * 10)).2 = (10 * s * Nat.ofDigits 10 (expand s n (m % s * 10)).1.reverse +
            (expand s n (m % s * 10)).2) + 10 ^ (n + 1) * (s * (m / s)) := by ring
      rw [this, h1]
      conv_rhs => rw [← e]
      ring
    · intro d hd
      simp only [expand, List.mem_cons] at hd
      rcases hd with rfl | hd
      · rw [Nat.div_lt_iff_lt_mul hs0]
        omega
      · exact h3 d hd

end Emio
