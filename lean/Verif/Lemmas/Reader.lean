import Verif.Model.Reader
import Verif.Lemmas.Conversion
/-
Helper lemmas about the reader.
-/
namespace Emio
open Spec

/-- The reader's position lies within its sequence. -/
def Reader.Inv (r : Reader) : Prop := r.pos ≤ r.src.length

namespace Reader

theorem rest_length (r : Reader) : r.rest.length = r.src.length - r.pos := by simp [rest]

theorem getElem?_pos (r : Reader) : r.src[r.pos]? = r.rest.head? := by
  simp [rest, List.head?_drop]

theorem peek_eq (r : Reader) (h : r.Inv) :
    peek r = match r.rest with
      | [] => .err r .eof
      | c :: _ => .ok r c := by
  unfold peek
  rw [getElem?_pos]
  have hl := r.rest_length
  unfold Inv at h
  cases hr : r.rest with
  | nil => rw [hr] at hl; simp at hl; rw [if_neg]; simp; omega
  | cons c cs => rw [hr] at hl; simp at hl; rw [if_pos (by omega)]; simp

theorem readChar_eq (r : Reader) (h : r.Inv) :
    readChar r = match r.rest with
      | [] => .err r .eof
      | c :: _ => .ok { r with pos := r.pos + 1 } c := by
  unfold readChar
  rw [getElem?_pos]
  have hl := r.rest_length
  unfold Inv at h
  cases hr : r.rest with
  | nil => rw [hr] at hl; simp at hl; rw [if_neg]; simp; omega
  | cons c cs => rw [hr] at hl; simp at hl; rw [if_pos (by omega)]; simp

theorem rest_cons {r : Reader} {c : Char} {cs : Str} (h : r.rest = c :: cs) :
    r.pos < r.src.length ∧ ({ r with pos := r.pos + 1 } : Reader).rest = cs := by
  have hl := r.rest_length
  rw [h] at hl
  simp at hl
  refine ⟨by omega, ?_⟩
  simp only [rest] at *
  have := congrArg (List.drop 1) h
  simpa [List.drop_drop, Nat.add_comm] using this

theorem rest_advance {r : Reader} {a b : Str} (h : r.rest = a ++ b) :
    ({ r with pos := r.pos + a.length } : Reader).rest = b := by
  simp only [rest] at *
  have := congrArg (List.drop a.length) h
  simpa [List.drop_drop, Nat.add_comm] using this

theorem pop_le (r : Reader) (n : Nat) (h : r.pos + n ≤ r.src.length) :
    r.pop n = { r with pos := r.pos + n } := by
  unfold pop; rw [if_pos (by omega)]

end Reader

theorem charToDigit_eq (c : Char) (b : Nat) (hb : b ≤ 36) (h : b ≤ 10 ∨ isColonToAt c = false) :
    charToDigit c b = symbolValue b c := by
  have h' : b ≤ 10 ∨ ¬(58 ≤ c.toNat ∧ c.toNat ≤ 64) := by
    rcases h with h | h
    · exact Or.inl h
    · right
      simp [isColonToAt] at h
      omega
  clear h
  unfold charToDigit charToDigitVal symbolValue
  generalize c.toNat = n at *
  simp only
  repeat' split
  all_goals simp [Option.filter]
  all_goals omega

theorem charToDigit_of_symbolValue {c : Char} {b d : Nat} (hb : b ≤ 36) (h : symbolValue b c = some d) :
    charToDigit c b = some d := by
  rw [← h]
  apply charToDigit_eq c b hb
  right
  unfold symbolValue at h
  unfold isColonToAt
  simp only at h
  generalize c.toNat = n at *
  repeat' split at h
  all_goals simp [Option.filter] at h ⊢
  all_goals omega

theorem symbolValue_lt {c : Char} {b d : Nat} (h : symbolValue b c = some d) : d < b := by
  unfold symbolValue at h
  simp only at h
  generalize (if 48 ≤ c.toNat ∧ c.toNat ≤ 57 then some (c.toNat - 48) else _ : Option Nat) = v at h
  cases v with
  | none => simp at h
  | some v => simp [Option.filter] at h; omega

/-- Continue a denotation. -/
def cont (b a : Nat) (ds : List Nat) : Nat := ds.foldl (fun a d => a * b + d) a

theorem cont_ge (b a : Nat) (ds : List Nat) (hb : 1 ≤ b) : a ≤ cont b a ds := by
  unfold cont
  induction ds generalizing a with
  | nil => exact Nat.le_refl _
  | cons d ds ih =>
    simp only [List.foldl_cons]
    refine Nat.le_trans ?_ (ih (a * b + d))
    nlinarith

/-- Apply a sign. -/
def sgn (neg : Bool) (n : Nat) : Int := if neg then -(n : Int) else n

theorem arith_ok (t : IntTy) (v : Int) (h : t.Holds v) : Reader.arith t v = some v := by
  unfold Reader.arith
  by_cases hs : t.signed
  · rw [if_pos hs, if_pos h]
  · rw [if_neg hs]
    simp at hs
    simp only [IntTy.Holds, IntTy.min, IntTy.max, hs] at h
    simp at h
    congr 1
    apply Int.emod_eq_of_lt h.1
    push_cast; omega

theorem holds_mono (t : IntTy) (neg : Bool) (a b : Nat) (hab : a ≤ b) (h : t.Holds (sgn neg b)) :
    t.Holds (sgn neg a) := by
  have hab' : (a : Int) ≤ b := by exact_mod_cast hab
  have h1 : (1 : Int) ≤ 2 ^ t.bits := by exact_mod_cast Nat.one_le_two_pow
  have h2 : (1 : Int) ≤ 2 ^ (t.bits - 1) := by exact_mod_cast Nat.one_le_two_pow
  unfold IntTy.Holds IntTy.min IntTy.max sgn at *
  generalize (2 : Int) ^ t.bits = x at *
  generalize (2 : Int) ^ (t.bits - 1) = y at *
  cases neg <;> cases ht : t.signed <;> rw [ht] at h <;>
    simp only [Bool.false_eq_true, if_false, if_true] at h ⊢ <;> omega

theorem sgn_cmp (neg : Bool) (a b d : Nat) (hb : 1 ≤ b) :
    Reader.wentBack neg (sgn neg (a * b + d)) (sgn neg a) = false := by
  have h : a ≤ a * b + d := by nlinarith
  have h : (a : Int) ≤ ((a * b + d : Nat) : Int) := by exact_mod_cast h
  unfold sgn Reader.wentBack
  generalize ((a * b + d : Nat) : Int) = x at *
  cases neg <;> simp <;> omega

theorem sgn_step (t : IntTy) (neg : Bool) (a b d : Nat) (hb : 1 ≤ b) (h : t.Holds (sgn neg (a * b + d))) :
    Reader.addDigit t neg (sgn neg a) (sgn neg a * b) d = .ok () (sgn neg (a * b + d)) := by
  have h1 : (if neg then sgn neg a * b - (d : Int) else sgn neg a * b + d) = sgn neg (a * b + d) := by
    unfold sgn; cases neg
    · simp
    · simp; ring
  rw [Reader.addDigit, h1, arith_ok t _ h]
  simp [sgn_cmp neg a b d hb]

theorem sgn_mul (neg : Bool) (a b : Nat) : sgn neg a * b = sgn neg (a * b) := by
  unfold sgn; cases neg <;> simp

theorem parseLoop_nil (t : IntTy) (b : Nat) (neg : Bool) (pos : Nat) (value mo : Int) (d : Nat) :
    Reader.parseLoop t b neg [] pos value mo d = match Reader.addDigit t neg value mo d with
      | .bad b => .bad b
      | .err _ e => .err pos e
      | .ok _ mo' => .ok pos mo' := by
  rw [Reader.parseLoop]
  cases Reader.addDigit t neg value mo d <;> rfl

theorem parseLoop_cons (t : IntTy) (b : Nat) (neg : Bool) (c : Char) (cs : Str) (pos : Nat) (value mo : Int)
    (d : Nat) :
    Reader.parseLoop t b neg (c :: cs) pos value mo d = match Reader.addDigit t neg value mo d with
      | .bad b => .bad b
      | .err _ e => .err pos e
      | .ok _ mo' =>
        match charToDigit c b with
        | none => .ok pos mo'
        | some d =>
          match Reader.arith t (mo' * b) with
          | none => .bad .ub
          | some mo'' => Reader.parseLoop t b neg cs (pos + 1) mo' mo'' d := by
  rw [Reader.parseLoop]
  cases Reader.addDigit t neg value mo d with
  | bad _ => rfl
  | err _ _ => rfl
  | ok _ mo' =>
    simp only [Reader.nextDigit]
    cases charToDigit c b with
    | none => rfl
    | some d => cases Reader.arith t (mo' * b) <;> rfl

/-- The digit loop computes the denoted number exactly if it fits. -/
theorem parseLoop_exact (t : IntTy) (b : Nat) (neg : Bool) (hb : 2 ≤ b) (hb' : b ≤ 36) (tail : Str)
    (htail : ∀ c ∈ tail.head?, charToDigit c b = none) :
    ∀ (ds : Str) (pos a d : Nat), (∀ c ∈ ds, (symbolValue b c).isSome) →
      t.Holds (sgn neg (cont b (a * b + d) (ds.filterMap (symbolValue b)))) →
      Reader.parseLoop t b neg (ds ++ tail) pos (sgn neg a) (sgn neg a * b) d =
        .ok (pos + ds.length) (sgn neg (cont b (a * b + d) (ds.filterMap (symbolValue b)))) := by
  intro ds
  induction ds with
  | nil =>
    intro pos a d _ hfit
    simp only [List.filterMap_nil, cont, List.foldl_nil] at hfit ⊢
    have har := sgn_step t neg a b d (by omega) hfit
    cases tail with
    | nil => simp [parseLoop_nil, har]
    | cons c cs => simp [parseLoop_cons, har, htail c (by simp)]
  | cons c cs ih =>
    intro pos a d hds hfit
    have hc := hds c (by simp)
    obtain ⟨v, hv⟩ := Option.isSome_iff_exists.1 hc
    have hfm : (c :: cs).filterMap (symbolValue b) = v :: cs.filterMap (symbolValue b) := by
      simp [hv]
    rw [hfm] at hfit ⊢
    have hcont : cont b (a * b + d) (v :: cs.filterMap (symbolValue b)) =
        cont b ((a * b + d) * b + v) (cs.filterMap (symbolValue b)) := rfl
    rw [hcont] at hfit ⊢
    have hge := cont_ge b ((a * b + d) * b + v) (cs.filterMap (symbolValue b)) (by omega)
    have h1 : t.Holds (sgn neg (a * b + d)) := holds_mono t neg _ _ (by nlinarith) hfit
    have h2 : t.Holds (sgn neg ((a * b + d) * b)) := holds_mono t neg _ _ (by omega) hfit
    have har := sgn_step t neg a b d (by omega) h1
    have hm : Reader.arith t (sgn neg (a * b + d) * b) = some (sgn neg (a * b + d) * b) := by
      rw [sgn_mul]; exact arith_ok t _ h2
    simp only [List.cons_append, parseLoop_cons, har, charToDigit_of_symbolValue hb' hv, hm]
    rw [ih (pos + 1) (a * b + d) v (fun c hc => hds c (by simp [hc])) hfit]
    rw [List.length_cons, Nat.add_assoc, Nat.add_comm 1]

theorem addDigit_unsigned (t : IntTy) (ht : t.signed = false) (value mo : Int) (d : Nat) :
    Reader.addDigit t false value mo d = .err () .outOfRange ∨
      ∃ v, Reader.addDigit t false value mo d = .ok () v ∧ value ≤ v ∧ v < 2 ^ t.bits := by
  have hpow : (0 : Int) < ((2 ^ t.bits : Nat) : Int) := by exact_mod_cast Nat.two_pow_pos _
  have hlt := Int.emod_lt_of_pos (mo + d) hpow
  simp only [Reader.addDigit, Reader.arith, ht, Bool.false_eq_true, if_false, Reader.wentBack]
  generalize (mo + (d : Int)) % ((2 ^ t.bits : Nat) : Int) = x at *
  push_cast at hlt
  by_cases h : x < value
  · left; simp [h]
  · right; exact ⟨x, by simp [h], by omega, hlt⟩

/-- Unsigned arithmetic has no undefined behaviour, and the accepted value never decreases. -/
theorem parseLoop_unsigned (t : IntTy) (b : Nat) (ht : t.signed = false) :
    ∀ (rest : Str) (pos : Nat) (value mo : Int) (d : Nat),
      (∃ p, Reader.parseLoop t b false rest pos value mo d = .err p .outOfRange) ∨
      (∃ p v, Reader.parseLoop t b false rest pos value mo d = .ok p v ∧ value ≤ v ∧ v < 2 ^ t.bits) := by
  intro rest
  induction rest with
  | nil =>
    intro pos value mo d
    rw [parseLoop_nil]
    rcases addDigit_unsigned t ht value mo d with h | ⟨v, h, hv, hv'⟩
    · left; exact ⟨pos, by rw [h]⟩
    · right; exact ⟨pos, v, by rw [h], hv, hv'⟩
  | cons c cs ih =>
    intro pos value mo d
    rw [parseLoop_cons]
    rcases addDigit_unsigned t ht value mo d with h | ⟨v, h, hv, hv'⟩
    · left; exact ⟨pos, by rw [h]⟩
    · rw [h]
      simp only
      cases charToDigit c b with
      | none => right; exact ⟨_, _, rfl, hv, hv'⟩
      | some d' =>
        simp only [Reader.arith, ht, Bool.false_eq_true, if_false]
        rcases ih (pos + 1) v (v * b % ((2 ^ t.bits : Nat) : Int)) d' with ⟨p, h'⟩ | ⟨p, v', h', hle, hlt⟩
        · left; exact ⟨p, h'⟩
        · right; exact ⟨p, v', h', by omega, hlt⟩

/-- A narrow unsigned number that is too large is never mistaken for a small one. -/
theorem parseLoop_narrow (t : IntTy) (b : Nat) (ht : t.signed = false) (hb : 2 ≤ b) (hb' : b ≤ 36) (m : Nat)
    (hm : 36 * m + 36 < 2 ^ t.bits) (tail : Str) :
    ∀ (ds : Str) (pos a d : Nat), (∀ c ∈ ds, (symbolValue b c).isSome) → a ≤ m → d < b →
      m < cont b (a * b + d) (ds.filterMap (symbolValue b)) →
      (∃ p, Reader.parseLoop t b false (ds ++ tail) pos a ((a : Int) * b) d = .err p .outOfRange) ∨
      (∃ p v, Reader.parseLoop t b false (ds ++ tail) pos a ((a : Int) * b) d = .ok p v ∧ (m : Int) < v) := by
  intro ds
  have hH : ∀ n : Nat, n < 2 ^ t.bits → t.Holds (sgn false n) := by
    intro n hn
    have : (n : Int) < 2 ^ t.bits := by exact_mod_cast hn
    unfold IntTy.Holds IntTy.min IntTy.max sgn
    simp [ht]; omega
  have big : ∀ (rest : Str) (pos a d : Nat), a ≤ m → d < b → m < a * b + d →
      (∃ p, Reader.parseLoop t b false rest pos a ((a : Int) * b) d = .err p .outOfRange) ∨
      (∃ p v, Reader.parseLoop t b false rest pos a ((a : Int) * b) d = .ok p v ∧ (m : Int) < v) := by
    intro rest pos a d ha hd hgt
    have h1 : a * b + d < 2 ^ t.bits := by nlinarith
    have har := sgn_step t false a b d (by omega) (hH _ h1)
    simp only [sgn, Bool.false_eq_true, if_false] at har
    have hgt' : (m : Int) < ((a * b + d : Nat) : Int) := by exact_mod_cast hgt
    cases rest with
    | nil =>
      right
      refine ⟨pos, ((a * b + d : Nat) : Int), ?_, hgt'⟩
      simp [parseLoop_nil, har]
    | cons c cs =>
      simp only [parseLoop_cons, har]
      cases charToDigit c b with
      | none => right; exact ⟨_, _, rfl, hgt'⟩
      | some d' =>
        simp only [Reader.arith, ht, Bool.false_eq_true, if_false]
        rcases parseLoop_unsigned t b ht cs (pos + 1) _ (((a * b + d : Nat) : Int) * b % ((2 ^ t.bits : Nat) : Int)) d'
          with ⟨p, h'⟩ | ⟨p, v', h', hle, hlt⟩
        · left; exact ⟨p, h'⟩
        · right; exact ⟨p, v', h', lt_of_lt_of_le hgt' hle⟩
  induction ds with
  | nil =>
    intro pos a d _ ha hd hgt
    exact big _ pos a d ha hd hgt
  | cons c cs ih =>
    intro pos a d hds ha hd hgt
    by_cases hbig : m < a * b + d
    · exact big _ pos a d ha hd hbig
    obtain ⟨v, hv⟩ := Option.isSome_iff_exists.1 (hds c (by simp))
    have hfm : (c :: cs).filterMap (symbolValue b) = v :: cs.filterMap (symbolValue b) := by
      simp [hv]
    rw [hfm] at hgt
    have h1 : a * b + d < 2 ^ t.bits := by nlinarith
    have h2 : (a * b + d) * b < 2 ^ t.bits := by nlinarith
    have har := sgn_step t false a b d (by omega) (hH _ h1)
    have hm2 := arith_ok t _ (hH _ h2)
    simp only [sgn, Bool.false_eq_true, if_false] at har hm2
    have hcast : (((a * b + d) * b : Nat) : Int) = ((a * b + d : Nat) : Int) * b := by push_cast; ring
    rw [hcast] at hm2
    simp only [List.cons_append, parseLoop_cons, har, charToDigit_of_symbolValue hb' hv, hm2]
    exact ih (pos + 1) (a * b + d) v (fun c hc => hds c (by simp [hc])) (by omega) (symbolValue_lt hv) hgt

/-- A signed number that is too large always overflows. -/
theorem parseLoop_signed_overflow (t : IntTy) (b : Nat) (ht : t.signed = true) (neg : Bool) (hb : 2 ≤ b)
    (hb' : b ≤ 36) (tail : Str) :
    ∀ (ds : Str) (pos a d : Nat), (∀ c ∈ ds, (symbolValue b c).isSome) →
      ¬ t.Holds (sgn neg (cont b (a * b + d) (ds.filterMap (symbolValue b)))) →
      Reader.parseLoop t b neg (ds ++ tail) pos (sgn neg a) (sgn neg a * b) d = .bad .ub := by
  intro ds
  have hbad : ∀ a d : Nat, ¬ t.Holds (sgn neg (a * b + d)) →
      Reader.addDigit t neg (sgn neg a) (sgn neg a * b) d = .bad .ub := by
    intro a d h
    have h1 : (if neg then sgn neg a * b - (d : Int) else sgn neg a * b + d) = sgn neg (a * b + d) := by
      unfold sgn; cases neg
      · simp
      · simp; ring
    rw [Reader.addDigit, h1]
    simp [Reader.arith, ht, h]
  induction ds with
  | nil =>
    intro pos a d _ h
    have := hbad a d h
    cases tail with
    | nil => simp [parseLoop_nil, this]
    | cons c cs => simp [parseLoop_cons, this]
  | cons c cs ih =>
    intro pos a d hds h
    obtain ⟨v, hv⟩ := Option.isSome_iff_exists.1 (hds c (by simp))
    have hfm : (c :: cs).filterMap (symbolValue b) = v :: cs.filterMap (symbolValue b) := by
      simp [hv]
    rw [hfm] at h
    by_cases h1 : t.Holds (sgn neg (a * b + d))
    · have har := sgn_step t neg a b d (by omega) h1
      simp only [List.cons_append, parseLoop_cons, har, charToDigit_of_symbolValue hb' hv]
      by_cases h2 : t.Holds (sgn neg (a * b + d) * b)
      · rw [arith_ok t _ h2]
        exact ih (pos + 1) (a * b + d) v (fun c hc => hds c (by simp [hc])) h
      · simp [Reader.arith, ht, h2]
    · simp [parseLoop_cons, hbad a d h1]

/-- An unsigned number that exceeds the range in its last digit, by less than the number before that digit. -/
theorem parseLoop_detect (t : IntTy) (b : Nat) (ht : t.signed = false) (hb : 2 ≤ b) (hb' : b ≤ 36) (c : Char)
    (v : Nat) (hv : symbolValue b c = some v) (tail : Str) :
    ∀ (ds : Str) (pos a d : Nat), (∀ c ∈ ds, (symbolValue b c).isSome) →
      cont b (a * b + d) (ds.filterMap (symbolValue b)) < 2 ^ t.bits →
      2 ^ t.bits ≤ cont b (a * b + d) (ds.filterMap (symbolValue b)) * b + v →
      cont b (a * b + d) (ds.filterMap (symbolValue b)) * b + v <
        2 ^ t.bits + cont b (a * b + d) (ds.filterMap (symbolValue b)) →
      ∃ p, Reader.parseLoop t b false (ds ++ c :: tail) pos a ((a : Int) * b) d = .err p .outOfRange := by
  intro ds
  have hH : ∀ n : Nat, n < 2 ^ t.bits → t.Holds (sgn false n) := by
    intro n hn
    have : (n : Int) < 2 ^ t.bits := by exact_mod_cast hn
    unfold IntTy.Holds IntTy.min IntTy.max sgn
    simp [ht]; omega
  induction ds with
  | nil =>
    intro pos a d _ h1 h2 h3
    simp only [List.filterMap_nil, cont, List.foldl_nil] at h1 h2 h3
    have har := sgn_step t false a b d (by omega) (hH _ h1)
    simp only [sgn, Bool.false_eq_true, if_false] at har
    simp only [List.nil_append, parseLoop_cons, har, charToDigit_of_symbolValue hb' hv]
    have hadd : Reader.addDigit t false ((a * b + d : Nat) : Int)
        (((a * b + d : Nat) : Int) * b % ((2 ^ t.bits : Nat) : Int)) v = .err () .outOfRange := by
      simp only [Reader.addDigit, Reader.arith, ht, Bool.false_eq_true, if_false, Reader.wentBack]
      generalize a * b + d = q at *
      have : ((q : Int) * b % ((2 ^ t.bits : Nat) : Int) + v) % ((2 ^ t.bits : Nat) : Int) =
          ((q * b + v - 2 ^ t.bits : Nat) : Int) := by
        rw [Int.emod_add_emod]
        have : (q : Int) * b + v = ((q * b + v - 2 ^ t.bits : Nat) : Int) + ((2 ^ t.bits : Nat) : Int) * 1 := by
          rw [Nat.cast_sub h2]; push_cast; ring
        rw [this, Int.add_mul_emod_self_left]
        apply Int.emod_eq_of_lt
        · exact Int.natCast_nonneg _
        · have : q * b + v - 2 ^ t.bits < 2 ^ t.bits := by omega
          exact_mod_cast this
      rw [this]
      have : ((q * b + v - 2 ^ t.bits : Nat) : Int) < q := by
        have : q * b + v - 2 ^ t.bits < q := by omega
        exact_mod_cast this
      simp [this]
    simp only [Reader.arith, ht, Bool.false_eq_true, if_false]
    cases tail with
    | nil => rw [parseLoop_nil, hadd]; exact ⟨_, rfl⟩
    | cons c' cs => rw [parseLoop_cons, hadd]; exact ⟨_, rfl⟩
  | cons e cs ih =>
    intro pos a d hds h1 h2 h3
    obtain ⟨w, hw⟩ := Option.isSome_iff_exists.1 (hds e (by simp))
    have hfm : (e :: cs).filterMap (symbolValue b) = w :: cs.filterMap (symbolValue b) := by
      simp [hw]
    rw [hfm] at h1 h2 h3
    have hcont : cont b (a * b + d) (w :: cs.filterMap (symbolValue b)) =
        cont b ((a * b + d) * b + w) (cs.filterMap (symbolValue b)) := rfl
    rw [hcont] at h1 h2 h3
    have hge := cont_ge b ((a * b + d) * b + w) (cs.filterMap (symbolValue b)) (by omega)
    have h4 : (a * b + d) * b < 2 ^ t.bits := by omega
    have h5 : a * b + d < 2 ^ t.bits := by nlinarith
    have har := sgn_step t false a b d (by omega) (hH _ h5)
    have hm2 := arith_ok t _ (hH _ h4)
    simp only [sgn, Bool.false_eq_true, if_false] at har hm2
    have hcast : (((a * b + d) * b : Nat) : Int) = ((a * b + d : Nat) : Int) * b := by push_cast; ring
    rw [hcast] at hm2
    simp only [List.cons_append, parseLoop_cons, har, charToDigit_of_symbolValue hb' hw, hm2]
    exact ih (pos + 1) (a * b + d) w (fun c hc => hds c (by simp [hc])) h1 h2 h3

/-- What the loop leaves behind: the position of the first character that is no digit, on success. -/
theorem parseLoop_pos (t : IntTy) (b : Nat) (neg : Bool) :
    ∀ (rest : Str) (pos : Nat) (value mo : Int) (d : Nat) (p : Nat) (v : Int),
      Reader.parseLoop t b neg rest pos value mo d = .ok p v →
      p = pos + (rest.takeWhile fun c => (charToDigit c b).isSome).length := by
  intro rest
  induction rest with
  | nil =>
    intro pos value mo d p v h
    rw [parseLoop_nil] at h
    split at h <;> simp at h
    simp [h.1]
  | cons c cs ih =>
    intro pos value mo d p v h
    rw [parseLoop_cons] at h
    split at h <;> try (simp at h)
    split at h
    · rename_i hc; simp at h; simp [hc, h.1]
    · rename_i hc
      split at h
      · simp at h
      · have := ih _ _ _ _ _ _ h
        simp [hc, this]; omega

/-- Errors of the loop. -/
theorem parseLoop_err (t : IntTy) (b : Nat) (neg : Bool) :
    ∀ (rest : Str) (pos : Nat) (value mo : Int) (d : Nat) (p : Nat) (e : Err),
      Reader.parseLoop t b neg rest pos value mo d = .err p e → e = .outOfRange := by
  intro rest
  have hadd : ∀ value mo d e, Reader.addDigit t neg value mo d = .err () e → e = .outOfRange := by
    intro value mo d e h
    unfold Reader.addDigit at h
    split at h
    · simp at h
    · split at h <;> simp at h
      exact h.symm
  induction rest with
  | nil =>
    intro pos value mo d p e h
    rw [parseLoop_nil] at h
    split at h <;> simp at h
    rename_i h'
    exact hadd _ _ _ _ (h.2 ▸ h')
  | cons c cs ih =>
    intro pos value mo d p e h
    rw [parseLoop_cons] at h
    split at h <;> try (simp at h)
    · rename_i h'
      exact hadd _ _ _ _ (h.2 ▸ h')
    · split at h
      · simp at h
      · split at h
        · simp at h
        · exact ih _ _ _ _ _ _ h

/-- The sign read by `parse_sign`. -/
def isMinus : Sign → Bool
  | .minus => true
  | _ => false

theorem sgn_apply (sg : Sign) (n : Nat) : sgn (isMinus sg) n = sg.apply n := by
  cases sg <;> rfl

theorem parseSign_eq (r : Reader) (h : r.Inv) (sg : Sign) (c : Char) (cs : Str) (hr : r.rest = sg.text ++ c :: cs)
    (hc : sg = .none → c ≠ '+' ∧ c ≠ '-') :
    Reader.parseSign r = .ok { r with pos := r.pos + sg.text.length } (isMinus sg) := by
  unfold Reader.parseSign
  cases sg with
  | none =>
    simp only [Sign.text, List.nil_append] at hr
    have hp : Reader.peek r = .ok r c := by rw [Reader.peek_eq r h, hr]
    rw [M.bind_ok hp]
    simp [hc rfl, isMinus, Sign.text]
  | plus =>
    simp only [Sign.text, List.cons_append, List.nil_append] at hr
    have hp : Reader.peek r = .ok r '+' := by rw [Reader.peek_eq r h, hr]
    have hl := (Reader.rest_cons hr).1
    rw [M.bind_ok hp]
    simp [isMinus, Sign.text, M.bind_run, Reader.pop_le r 1 (by omega)]
  | minus =>
    simp only [Sign.text, List.cons_append, List.nil_append] at hr
    have hp : Reader.peek r = .ok r '-' := by rw [Reader.peek_eq r h, hr]
    have hl := (Reader.rest_cons hr).1
    rw [M.bind_ok hp]
    simp [isMinus, Sign.text, M.bind_run, Reader.pop_le r 1 (by omega)]

/-- `parse_int` on a sign and a digit. -/
theorem parseInt_run (t : IntTy) (b : Nat) (hb : 2 ≤ b) (hb' : b ≤ 36) (r : Reader) (h : r.Inv) (sg : Sign) (c : Char)
    (d : Nat) (cs : Str) (hr : r.rest = sg.text ++ c :: cs) (hc : charToDigit c b = some d) :
    Reader.parseInt t b r =
      if t.signed = false ∧ sg = .minus then .err r .outOfRange
      else match Reader.parseLoop t.upcast b (isMinus sg) cs (r.pos + sg.text.length + 1) 0 0 d with
        | .ok p v => if t.upcast = t ∨ t.Holds v then .ok { r with pos := p } v else .err r .outOfRange
        | .err _ e => .err r e
        | .bad b => .bad b := by
  have hns : sg = .none → c ≠ '+' ∧ c ≠ '-' := by
    intro _
    constructor
    · rintro rfl; revert hc; unfold charToDigit charToDigitVal; simp
    · rintro rfl; revert hc; unfold charToDigit charToDigitVal; simp
  have hsg := parseSign_eq r h sg c cs hr hns
  have hrest : ({ r with pos := r.pos + sg.text.length } : Reader).rest = c :: cs := Reader.rest_advance hr
  have hcons := Reader.rest_cons hrest
  have hinv' : ({ r with pos := r.pos + sg.text.length } : Reader).Inv := by
    unfold Reader.Inv; have := hcons.1; simp only at this ⊢; omega
  have hrc := Reader.readChar_eq _ hinv'
  rw [hrest] at hrc
  have hvalid : isValidNumberBase (b : Int) = true := by
    unfold isValidNumberBase; simp; omega
  have hups : t.upcast.signed = t.signed := rfl
  unfold Reader.parseInt Reader.parseSignAndInt
  rw [M.bind_ok hsg]
  unfold Reader.parseIntRaw
  simp only [hvalid, Bool.not_true, Bool.false_eq_true, if_false, Int.toNat_natCast]
  rw [M.bind_ok hrc]
  simp only [hc]
  rw [M.ite_run, hups]
  by_cases hu : t.signed = false ∧ sg = .minus
  · rw [if_pos hu]
    simp [hu.1, hu.2, isMinus]
  · rw [if_neg hu]
    have : (!t.signed && isMinus sg) = false := by
      cases hs : t.signed <;> cases sg <;> simp_all [isMinus]
    simp only [this, Bool.false_eq_true, if_false]
    have hr2 := hcons.2
    simp only at hr2
    unfold Reader.parseDigits
    rw [hr2]
    cases Reader.parseLoop t.upcast b (isMinus sg) cs (r.pos + sg.text.length + 1) 0 0 d with
    | ok p v =>
      simp only
      by_cases hup : t.upcast = t
      · simp [hup]
      · simp only [hup, if_false, false_or]
        by_cases hh : t.Holds v
        · rw [if_pos hh, if_neg]
          unfold IntTy.Holds at hh; omega
        · rw [if_neg hh, if_pos]
          unfold IntTy.Holds at hh; omega
    | err p e => rfl
    | bad b => rfl

/-- `parse_int` with an invalid base. -/
theorem parseInt_invalid_base (t : IntTy) (base : Int) (r : Reader) (h : r.Inv) (hb : isValidNumberBase base = false) :
    ∃ e, Reader.parseInt t base r = .err r e := by
  unfold Reader.parseInt Reader.parseSignAndInt
  rw [M.bind_run]
  have : ∀ neg r', ∃ e, Reader.parseIntRaw t.upcast base neg r' = .err r' e := by
    intro neg r'
    unfold Reader.parseIntRaw
    rw [hb]; exact ⟨_, rfl⟩
  unfold Reader.parseSign
  rw [M.bind_run, Reader.peek_eq r h]
  cases r.rest with
  | nil => exact ⟨_, rfl⟩
  | cons c cs =>
    simp only
    by_cases h1 : c = '+'
    · rw [if_pos h1]
      simp only [M.bind_run, M.modify_run, M.pure_run]
      obtain ⟨e, he⟩ := this false (r.pop 1)
      rw [he]; exact ⟨_, rfl⟩
    · rw [if_neg h1]
      by_cases h2 : c = '-'
      · rw [if_pos h2]
        simp only [M.bind_run, M.modify_run, M.pure_run]
        obtain ⟨e, he⟩ := this true (r.pop 1)
        rw [he]; exact ⟨_, rfl⟩
      · rw [if_neg h2]
        simp only [M.pure_run]
        obtain ⟨e, he⟩ := this false r
        rw [he]; exact ⟨_, rfl⟩

/-- `parse_int` on something that does not start with a number. -/
theorem parseInt_no_digit (t : IntTy) (b : Nat) (hb : 2 ≤ b) (hb' : b ≤ 36) (r : Reader) (h : r.Inv) (sg : Sign)
    (c : Char) (cs : Str) (hr : r.rest = sg.text ++ c :: cs) (hns : sg = .none → c ≠ '+' ∧ c ≠ '-')
    (hc : charToDigit c b = none) : Reader.parseInt t b r = .err r .invalidData := by
  have hsg := parseSign_eq r h sg c cs hr hns
  have hrest : ({ r with pos := r.pos + sg.text.length } : Reader).rest = c :: cs := Reader.rest_advance hr
  have hcons := Reader.rest_cons hrest
  have hinv' : ({ r with pos := r.pos + sg.text.length } : Reader).Inv := by
    unfold Reader.Inv; have := hcons.1; simp only at this ⊢; omega
  have hrc := Reader.readChar_eq _ hinv'
  rw [hrest] at hrc
  have hvalid : isValidNumberBase (b : Int) = true := by
    unfold isValidNumberBase; simp; omega
  unfold Reader.parseInt Reader.parseSignAndInt
  rw [M.bind_ok hsg]
  unfold Reader.parseIntRaw
  simp only [hvalid, Bool.not_true, Bool.false_eq_true, if_false, Int.toNat_natCast]
  rw [M.bind_ok hrc]
  simp [hc]

/-- `parse_int` on an empty input or on a sign alone. -/
theorem parseInt_eof (t : IntTy) (b : Nat) (hb : 2 ≤ b) (hb' : b ≤ 36) (r : Reader) (h : r.Inv) (sg : Sign)
    (hr : r.rest = sg.text) : Reader.parseInt t b r = .err r .eof := by
  have hvalid : isValidNumberBase (b : Int) = true := by
    unfold isValidNumberBase; simp; omega
  have hl := r.rest_length
  have hraw : ∀ neg, Reader.parseIntRaw t.upcast (b : Int) neg { r with pos := r.pos + 1 } =
      if r.pos + 1 = r.src.length then .err { r with pos := r.pos + 1 } .eof else
        Reader.parseIntRaw t.upcast (b : Int) neg { r with pos := r.pos + 1 } := by
    intro neg
    split
    · rename_i he
      have hrc : Reader.readChar { r with pos := r.pos + 1 } = .err { r with pos := r.pos + 1 } .eof := by
        unfold Reader.readChar; simp [he]
      unfold Reader.parseIntRaw
      simp only [hvalid, Bool.not_true, Bool.false_eq_true, if_false]
      rw [M.bind_err hrc]
    · rfl
  unfold Reader.parseInt Reader.parseSignAndInt Reader.parseSign
  rw [M.bind_run, M.bind_run, Reader.peek_eq r h]
  cases sg with
  | none => rw [hr]; rfl
  | plus =>
    rw [hr] at hl ⊢; simp [Sign.text] at hl
    simp only [Sign.text, if_true, M.bind_run, M.modify_run, M.pure_run]
    rw [Reader.pop_le r 1 (by omega), hraw, if_pos (by omega)]
  | minus =>
    rw [hr] at hl ⊢; simp [Sign.text] at hl
    simp only [Sign.text, if_true, M.bind_run, M.modify_run, M.pure_run]
    rw [if_neg (by decide)]
    simp only [M.bind_run, M.modify_run, M.pure_run]
    rw [Reader.pop_le r 1 (by omega), hraw, if_pos (by omega)]

/-- Every input starts in one of three ways. -/
theorem sign_cases (s : Str) : (∃ sg : Sign, s = sg.text) ∨
    ∃ (sg : Sign) (c : Char) (cs : Str), s = sg.text ++ c :: cs ∧ (sg = .none → c ≠ '+' ∧ c ≠ '-') := by
  cases s with
  | nil => left; exact ⟨.none, rfl⟩
  | cons a s =>
    by_cases hp : a = '+'
    · subst hp
      cases s with
      | nil => left; exact ⟨.plus, rfl⟩
      | cons c cs => right; exact ⟨.plus, c, cs, rfl, by simp⟩
    · by_cases hm : a = '-'
      · subst hm
        cases s with
        | nil => left; exact ⟨.minus, rfl⟩
        | cons c cs => right; exact ⟨.minus, c, cs, rfl, by simp⟩
      · right; exact ⟨.none, a, s, rfl, fun _ => ⟨hp, hm⟩⟩

/-- `parse_int`, all inputs. -/
theorem parseInt_cases (t : IntTy) (base : Int) (r : Reader) (h : r.Inv) :
    (∃ e, Reader.parseInt t base r = .err r e) ∨
    ∃ (b : Nat) (sg : Sign) (c : Char) (d : Nat) (cs : Str), base = b ∧ 2 ≤ b ∧ b ≤ 36 ∧
      r.rest = sg.text ++ c :: cs ∧ charToDigit c b = some d := by
  by_cases hv : isValidNumberBase base
  · obtain ⟨b, rfl⟩ : ∃ b : Nat, base = b := by
      unfold isValidNumberBase at hv; simp at hv
      exact ⟨base.toNat, by omega⟩
    have hb : 2 ≤ b ∧ b ≤ 36 := by unfold isValidNumberBase at hv; simp at hv; omega
    rcases sign_cases r.rest with ⟨sg, hr⟩ | ⟨sg, c, cs, hr, hns⟩
    · left; exact ⟨_, parseInt_eof t b hb.1 hb.2 r h sg hr⟩
    · cases hc : charToDigit c b with
      | none => left; exact ⟨_, parseInt_no_digit t b hb.1 hb.2 r h sg c cs hr hns hc⟩
      | some d => right; exact ⟨b, sg, c, d, cs, rfl, hb.1, hb.2, hr, hc⟩
  · left; exact parseInt_invalid_base t base r h (by simpa using hv)

theorem cont_zero (b : Nat) (d : Nat) (ds : List Nat) : cont b (0 * b + d) ds = denote b (d :: ds) := by
  simp [cont, denote]

/-- Shape of a numeral for the lemmas above. -/
theorem isNumeral_cases {b : Nat} {ds : Str} (h : IsNumeral b ds) :
    ∃ c cs d, ds = c :: cs ∧ symbolValue b c = some d ∧ (∀ c ∈ cs, (symbolValue b c).isSome) ∧
      numeralValue b ds = cont b (0 * b + d) (cs.filterMap (symbolValue b)) := by
  obtain ⟨hne, hall⟩ := h
  cases ds with
  | nil => exact absurd rfl hne
  | cons c cs =>
    obtain ⟨d, hd⟩ := Option.isSome_iff_exists.1 (hall c (by simp))
    refine ⟨c, cs, d, rfl, hd, fun c hc => hall c (by simp [hc]), ?_⟩
    rw [cont_zero]; simp [numeralValue, hd]

/-! ### Searching -/

theorem findIf_some (p : Char → Bool) : ∀ (s : Str) (i : Nat), Reader.findIf p s = some i ↔
    (∃ c, (s.drop i).head? = some c ∧ p c = true) ∧ ∀ j < i, ∀ c, (s.drop j).head? = some c → p c = false := by
  intro s
  induction s with
  | nil => intro i; simp [Reader.findIf]
  | cons c cs ih =>
    intro i
    rw [Reader.findIf]
    by_cases hc : p c
    · rw [if_pos hc]
      constructor
      · intro h; simp at h; subst h; simp [hc]
      · rintro ⟨⟨d, hd, hp⟩, hlt⟩
        cases i with
        | zero => rfl
        | succ i => have := hlt 0 (by omega) c (by simp); simp [hc] at this
    · rw [if_neg hc]
      cases i with
      | zero => simp [hc]
      | succ i =>
        simp only [Option.map_eq_some_iff, List.drop_succ_cons, Nat.add_right_cancel_iff, exists_eq_right]
        rw [ih i]
        constructor
        · rintro ⟨h1, h2⟩
          refine ⟨h1, fun j hj d hd => ?_⟩
          cases j with
          | zero => simp at hd; subst hd; simpa using hc
          | succ j => exact h2 j (by omega) d (by simpa using hd)
        · rintro ⟨h1, h2⟩
          exact ⟨h1, fun j hj d hd => h2 (j + 1) (by omega) d (by simpa using hd)⟩

theorem findIf_none (p : Char → Bool) : ∀ (s : Str), Reader.findIf p s = none ↔ ∀ c ∈ s, p c = false := by
  intro s
  induction s with
  | nil => simp [Reader.findIf]
  | cons c cs ih =>
    rw [Reader.findIf]
    by_cases hc : p c
    · simp [hc]
    · simp [hc, ih]

theorem findStr_some (d : Str) : ∀ (s : Str) (i : Nat), Reader.findStr d s = some i ↔
    (i ≤ s.length ∧ d <+: s.drop i) ∧ ∀ j < i, ¬ d <+: s.drop j := by
  intro s
  induction s with
  | nil =>
    intro i
    rw [Reader.findStr]
    cases d with
    | nil =>
      simp
      constructor
      · rintro rfl; simp
      · rintro ⟨h, _⟩; omega
    | cons => simp
  | cons c cs ih =>
    intro i
    rw [Reader.findStr]
    by_cases hc : d <+: c :: cs
    · rw [if_pos (by simpa using hc)]
      constructor
      · intro h; simp at h; subst h; simpa using hc
      · rintro ⟨_, hlt⟩
        cases i with
        | zero => rfl
        | succ i => exact absurd (by simpa using hc) (hlt 0 (by omega))
    · rw [if_neg (by simpa using hc)]
      cases i with
      | zero => simp [hc]
      | succ i =>
        simp only [Option.map_eq_some_iff, List.drop_succ_cons, Nat.add_right_cancel_iff, exists_eq_right,
          List.length_cons, Nat.add_le_add_iff_right]
        rw [ih i]
        constructor
        · rintro ⟨h1, h2⟩
          refine ⟨h1, fun j hj => ?_⟩
          cases j with
          | zero => simpa using hc
          | succ j => simpa using h2 j (by omega)
        · rintro ⟨h1, h2⟩
          exact ⟨h1, fun j hj => by simpa using h2 (j + 1) (by omega)⟩

theorem findStr_none (d : Str) (s : Str) : Reader.findStr d s = none ↔ ∀ j ≤ s.length, ¬ d <+: s.drop j := by
  induction s with
  | nil =>
    rw [Reader.findStr]
    cases d <;> simp
  | cons c cs ih =>
    rw [Reader.findStr]
    by_cases hc : d <+: c :: cs
    · rw [if_pos (by simpa using hc)]
      simp only [reduceCtorEq, false_iff, not_forall, not_not]
      exact ⟨0, by simp, by simpa using hc⟩
    · rw [if_neg (by simpa using hc)]
      rw [Option.map_eq_none_iff, ih]
      constructor
      · intro h j hj
        cases j with
        | zero => simpa using hc
        | succ j => simpa using h j (by simpa using hj)
      · intro h j hj
        have := h (j + 1) (by simpa using hj)
        simpa using this

/-- `read_until_pos`, all cases. -/
theorem readUntilPos_eq (p : Option Nat) (o : Reader.UntilOpts) (n : Nat) (r : Reader) (h : r.Inv)
    (hp : ∀ i, p = some i → i + n ≤ r.rest.length ∧ (r.rest ≠ [] → i < r.rest.length)) :
    Reader.readUntilPos p o n r =
      if r.rest = [] then .err r .eof
      else match (generalizing := false) p with
        | none => if o.ignoreEof then .err r .invalidData else .ok { r with pos := r.src.length } r.rest
        | some i => .ok { r with pos := r.pos + i + (if o.keepDelimiter then 0 else n) }
            (r.rest.take (i + (if o.includeDelimiter then n else 0))) := by
  unfold Reader.readUntilPos Reader.readUntilMatch
  have hl := r.rest_length
  unfold Reader.Inv at h
  by_cases hr : r.rest = []
  · rw [hr] at hl; simp at hl
    rw [if_pos hr, if_pos (by omega)]
  · have hpos : 0 < r.rest.length := List.length_pos_iff.2 hr
    rw [if_neg hr, if_neg (by omega)]
    cases p with
    | none => simp only; cases o.ignoreEof <;> simp
    | some i =>
      obtain ⟨h1, h2⟩ := hp i rfl
      have h2 := h2 hr
      simp only
      rw [if_neg (by omega), if_neg]
      · cases o.keepDelimiter <;> cases o.includeDelimiter <;> simp <;> congr 1 <;> omega
      · cases o.keepDelimiter <;> cases o.includeDelimiter <;> simp <;> omega

end Emio
