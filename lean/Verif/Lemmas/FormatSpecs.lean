import Verif.Spec.FormatSpec
import Verif.Props.Reader
import Mathlib.Data.List.TakeWhile
/-
Helper lemmas about reading format specifications.
-/
namespace Emio
open Spec

/-- The reader moved on. -/
def Reader.adv (r : Reader) (n : Nat) : Reader := { r with pos := r.pos + n }

/-- The reader is valid and has this text before it. -/
def Reader.At (r : Reader) (l : Str) : Prop := r.Inv ∧ r.rest = l

namespace Reader

@[simp] theorem adv_zero (r : Reader) : r.adv 0 = r := rfl
theorem adv_adv (r : Reader) (m n : Nat) : (r.adv m).adv n = r.adv (m + n) := by simp [adv, Nat.add_assoc]

theorem At.adv {r : Reader} {a b : Str} (h : r.At (a ++ b)) : (r.adv a.length).At b := by
  refine ⟨?_, rest_advance h.2⟩
  have hl := r.rest_length
  rw [h.2] at hl
  have hi := h.1
  simp at hl
  unfold Inv Reader.adv at *
  simp only
  omega

theorem At.adv1 {r : Reader} {c : Char} {l : Str} (h : r.At (c :: l)) : (r.adv 1).At l := by
  have : r.At ([c] ++ l) := h
  exact this.adv

theorem At.peek {r : Reader} {c : Char} {l : Str} (h : r.At (c :: l)) : Reader.peek r = .ok r c := by
  rw [peek_eq r h.1, h.2]

theorem At.readChar {r : Reader} {c : Char} {l : Str} (h : r.At (c :: l)) : Reader.readChar r = .ok (r.adv 1) c := by
  rw [readChar_eq r h.1, h.2]; rfl

theorem At.peek_nil {r : Reader} (h : r.At []) : Reader.peek r = .err r .eof := by
  rw [peek_eq r h.1, h.2]

theorem At.readChar_nil {r : Reader} (h : r.At []) : Reader.readChar r = .err r .eof := by
  rw [readChar_eq r h.1, h.2]

theorem At.pos {r : Reader} {l : Str} (h : r.At l) : r.pos + l.length = r.src.length := by
  have hl := r.rest_length
  rw [h.2] at hl
  have hi := h.1
  unfold Inv at hi
  omega

theorem At.pop {r : Reader} {a b : Str} (h : r.At (a ++ b)) : r.pop a.length = r.adv a.length := by
  have := h.pos
  simp at this
  exact pop_le r _ (by omega)

theorem At.pop1 {r : Reader} {c : Char} {l : Str} (h : r.At (c :: l)) : r.pop 1 = r.adv 1 := by
  have : r.At ([c] ++ l) := h
  exact this.pop

theorem At.unpop {r : Reader} {l : Str} (_h : r.At l) : (r.adv 1).unpop 1 = r := by
  simp [Reader.unpop, Reader.adv]

theorem at_ofStr (s : Str) : (ofStr s).At s := ⟨by simp [Inv, ofStr], by simp [rest, ofStr]⟩

theorem At.unique {r : Reader} {a b : Str} (h : r.At a) (h' : r.At b) : a = b := h.2.symm.trans h'.2

end Reader

/-! ### Characters -/

theorem isDigit_eq (c : Char) : isDigit c = c.isDigit := by
  rw [Bool.eq_iff_iff]
  simp only [isDigit, Char.isDigit, Bool.and_eq_true, decide_eq_true_eq, ge_iff_le, UInt32.le_iff_toNat_le]
  exact Iff.rfl

theorem isAlpha_eq (c : Char) : isAlpha c = c.isAlpha := by
  rw [Bool.eq_iff_iff]
  simp only [isAlpha, Char.isAlpha, Char.isUpper, Char.isLower, Bool.and_eq_true, Bool.or_eq_true, decide_eq_true_eq,
    ge_iff_le, UInt32.le_iff_toNat_le]
  exact Iff.rfl

theorem symbolValue10 (c : Char) : (symbolValue 10 c).isSome = isDigit c := by
  rw [Bool.eq_iff_iff]
  unfold symbolValue isDigit
  generalize c.toNat = n
  simp only
  repeat' split
  all_goals simp [Option.filter]
  all_goals omega

theorem digitLike10 (c : Char) : digitLike 10 c = isDigit c := by
  rw [← symbolValue10, ← charToDigit_isSome c 10 (by omega), charToDigit_eq c 10 (by omega) (Or.inl (by omega))]

/-- A decimal number without a sign. -/
def Digits (ds : Str) : Prop := ds ≠ [] ∧ ∀ c ∈ ds, isDigit c = true

theorem Digits.isNumeral {ds : Str} (h : Digits ds) : IsNumeral 10 ds :=
  ⟨h.1, fun c hc => by rw [symbolValue10]; exact h.2 c hc⟩

/-- No digit follows. -/
def NoDigit (tail : Str) : Prop := ∀ c ∈ tail.head?, isDigit c = false

theorem NoDigit.next {tail : Str} (h : NoDigit tail) : NoDigitNext 10 tail := fun c hc => by
  have := h c hc
  rw [← symbolValue10] at this
  simpa using this

theorem noDigit_cons {c : Char} {l : Str} (h : isDigit c = false) : NoDigit (c :: l) := by
  intro x hx; simp at hx; exact hx ▸ h

/-- Reading a decimal number that fits. -/
theorem parse_decimal (t : IntTy) (ht : t.Std) {r : Reader} {ds tail : Str} (h : r.At (ds ++ tail)) (hd : Digits ds)
    (htail : NoDigit tail) (hfit : t.Holds (numeralValue 10 ds)) :
    Reader.parseInt t 10 r = .ok (r.adv ds.length) (numeralValue 10 ds) := by
  have := C01_parse_int_exact_partial t ht 10 r .none ds tail (by omega) (by omega) h.1 h.2 hd.isNumeral htail.next
    (by simp) hfit (Or.inr (by simp))
  simpa [Sign.text, Sign.apply, Reader.adv] using this

/-- A list of characters begins with its digits. -/
theorem digits_split (l : Str) : ∃ ds tail, l = ds ++ tail ∧ (∀ c ∈ ds, isDigit c = true) ∧ NoDigit tail := by
  refine ⟨l.takeWhile isDigit, l.dropWhile isDigit, by simp, ?_, ?_⟩
  · intro c hc; exact List.mem_takeWhile_imp hc
  · intro c hc
    have := List.head?_dropWhile_not isDigit l
    rw [Option.mem_def.1 hc] at this
    simpa using this

/-- What reading a number at a digit can do. -/
theorem parse_decimal_inv (t : IntTy) {r r' : Reader} {l : Str} {d : Char} {v : Int} (h : r.At (d :: l))
    (hd : isDigit d = true) (hr : Reader.parseInt t 10 r = .ok r' v) :
    ∃ ds tail, d :: l = ds ++ tail ∧ Digits ds ∧ NoDigit tail ∧ r' = r.adv ds.length := by
  obtain ⟨b, sg, ds, tail, hb, _, _, hrest, hne, hall, htail, hpos⟩ :=
    C02_parse_int_consumes_sign_and_digits t 10 r r' v h.1 hr
  obtain rfl : b = 10 := by omega
  rw [h.2] at hrest
  have hsg : sg = .none := by
    cases sg with
    | none => rfl
    | plus => simp [Sign.text] at hrest; obtain ⟨rfl, _⟩ := hrest; simp [isDigit] at hd
    | minus => simp [Sign.text] at hrest; obtain ⟨rfl, _⟩ := hrest; simp [isDigit] at hd
  subst hsg
  refine ⟨ds, tail, by simpa [Sign.text] using hrest, ⟨hne, fun c hc => ?_⟩, fun c hc => ?_, by simpa [Sign.text, Reader.adv] using hpos⟩
  · rw [← digitLike10]; exact hall c hc
  · rw [← digitLike10]; exact htail c hc

/-- Reading a number never yields something undefined for an unsigned type, and the value is no negative number. -/
theorem parse_unsigned (t : IntTy) (ht : t = u8 ∨ t = u32) {r : Reader} (h : r.Inv) :
    (∃ e, Reader.parseInt t 10 r = .err r e) ∨ ∃ r' v, Reader.parseInt t 10 r = .ok r' v ∧ 0 ≤ v ∧ v < 2 ^ t.bits := by
  have hs : t.signed = false := by rcases ht with rfl | rfl <;> rfl
  rcases parseInt_cases t 10 r h with ⟨e, he⟩ | ⟨b, sg, c, d, cs, hb10, hb, hb', hr, hc⟩
  · left; exact ⟨e, he⟩
  · obtain rfl : b = 10 := by omega
    have := parseInt_run t 10 hb hb' r h sg c d cs hr hc
    rw [show ((10 : Nat) : Int) = 10 from rfl] at this
    rw [this]
    by_cases hu : t.signed = false ∧ sg = .minus
    · left; exact ⟨_, by rw [if_pos hu]⟩
    · rw [if_neg hu]
      have hm : isMinus sg = false := by cases sg <;> simp_all [isMinus]
      rw [hm]
      rcases parseLoop_unsigned t.upcast 10 hs cs (r.pos + sg.text.length + 1) 0 0 d with ⟨p, h'⟩ | ⟨p, v, h', h0, hv⟩
      · left; rw [h']; exact ⟨_, rfl⟩
      · rw [h']
        simp only
        rcases ht with rfl | rfl
        · by_cases hh : u8.upcast = u8 ∨ u8.Holds v
          · right
            rw [if_pos hh]
            refine ⟨_, v, rfl, h0, ?_⟩
            rcases hh with hh | hh
            · exact absurd hh (by decide)
            · unfold IntTy.Holds IntTy.max at hh
              simp at hh
              have : (2 : Int) ^ u8.bits = 256 := rfl
              omega
          · left; rw [if_neg hh]; exact ⟨_, rfl⟩
        · right
          rw [if_pos (Or.inl (by decide))]
          exact ⟨_, v, rfl, h0, hv⟩

/-! ### `parse_format_specs` does what `validate_format_specs` did -/

theorem assume_ok {σ α : Type} {m : M σ α} {s s' : σ} {a : α} (h : m s = .ok s' a) : assumeValue m s = .ok s' a := by
  unfold assumeValue; rw [h]

theorem bind_ok_inv {σ α β : Type} {m : M σ α} {f : α → M σ β} {s s' : σ} {b : β} (h : (m >>= f) s = .ok s' b) :
    ∃ s1 a, m s = .ok s1 a ∧ f a s1 = .ok s' b := by
  rw [M.bind_run] at h
  cases hm : m s with
  | ok s1 a => rw [hm] at h; exact ⟨s1, a, rfl, h⟩
  | err s1 e => rw [hm] at h; simp at h
  | bad b => rw [hm] at h; simp at h

theorem toInt32_id (v : Int) (h : 0 ≤ v) (h' : v ≤ int32Max) : toInt32 v = v := by
  unfold toInt32 int32Max at *
  omega

end Emio
