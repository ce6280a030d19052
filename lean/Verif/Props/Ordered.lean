import Verif.Props.Format
import Verif.Lemmas.Conversion
/-
Property C86: numbers filled up with zeros are sorted like the numbers.
-/
namespace Emio
open Spec

/-- The last `w` digits. -/
def lastSymbols (u : Bool) (b : Nat) : Nat → Nat → Str
  | 0, _ => []
  | w + 1, n => lastSymbols u b w (n / b) ++ [symbol u (n % b)]

theorem lastSymbols_length (u : Bool) (b w n : Nat) : (lastSymbols u b w n).length = w := by
  induction w generalizing n with
  | zero => rfl
  | succ w ih => simp [lastSymbols, ih]

theorem lastSymbols_zero (u : Bool) (b w : Nat) : lastSymbols u b w 0 = List.replicate w '0' := by
  induction w with
  | zero => rfl
  | succ w ih =>
    rw [lastSymbols, Nat.zero_div, Nat.zero_mod, ih, List.replicate_succ']
    cases u <;> rfl

theorem zeros_numeral (u : Bool) (b : Nat) (hb : 2 ≤ b) (k n : Nat) :
    List.replicate k '0' ++ numeral u b n = lastSymbols u b (k + (numeral u b n).length) n ∧ n < b ^ (numeral u b n).length := by
  induction n using Nat.strong_induction_on with
  | _ n ih =>
    rcases lt_or_ge n b with h | h
    · rw [numeral_lt u b n hb h]
      refine ⟨?_, by simpa using h⟩
      rw [List.length_singleton, lastSymbols, Nat.div_eq_of_lt h, lastSymbols_zero, Nat.mod_eq_of_lt h]
    · obtain ⟨h1, h2⟩ := ih (n / b) (Nat.div_lt_self (by omega) hb)
      rw [numeral_ge u b n hb h, ← List.append_assoc, h1, List.length_append, List.length_singleton, ← Nat.add_assoc, lastSymbols]
      refine ⟨rfl, ?_⟩
      rw [Nat.pow_succ]
      exact (Nat.div_lt_iff_lt_mul (by omega)).1 h2

theorem lex_append {p q : Str} (h : p.length = q.length) (c d : Char) : p ++ [c] < q ++ [d] ↔ p < q ∨ p = q ∧ c < d := by
  induction p generalizing q with
  | nil =>
    obtain rfl := List.length_eq_zero_iff.1 h.symm
    simp [List.cons_lt_cons_iff]
  | cons x p ih =>
    cases q with
    | nil => simp at h
    | cons y q =>
      rw [List.cons_append, List.cons_append, List.cons_lt_cons_iff, List.cons_lt_cons_iff, ih (by simpa using h)]
      simp only [List.cons.injEq]
      tauto

theorem symbol_lt (u : Bool) : ∀ d < 36, ∀ e < 36, (symbol u d < symbol u e ↔ d < e) := by
  revert u
  decide +kernel

theorem lastSymbols_lt (u : Bool) (b : Nat) (hb : 2 ≤ b) (hb' : b ≤ 36) (w n m : Nat) (hn : n < b ^ w) (hm : m < b ^ w) :
    lastSymbols u b w n < lastSymbols u b w m ↔ n < m := by
  induction w generalizing n m with
  | zero =>
    simp only [Nat.pow_zero] at hn hm
    simp [lastSymbols]
    omega
  | succ w ih =>
    rw [Nat.pow_succ] at hn hm
    have h0 : 0 < b := by omega
    have hn' := (Nat.div_lt_iff_lt_mul h0).2 hn
    have hm' := (Nat.div_lt_iff_lt_mul h0).2 hm
    have hn1 := Nat.mod_lt n h0
    have hm1 := Nat.mod_lt m h0
    have en := Nat.div_add_mod n b
    have em := Nat.div_add_mod m b
    rw [lastSymbols, lastSymbols, lex_append (by rw [lastSymbols_length, lastSymbols_length]), ih _ _ hn' hm',
      symbol_lt u _ (by omega) _ (by omega)]
    have heq : lastSymbols u b w (n / b) = lastSymbols u b w (m / b) ↔ n / b = m / b := by
      refine ⟨fun h => ?_, fun h => by rw [h]⟩
      rcases lt_trichotomy (n / b) (m / b) with h' | h' | h'
      · have := (ih _ _ hn' hm').2 h'
        rw [h] at this
        exact absurd this (List.lt_irrefl _)
      · exact h'
      · have := (ih _ _ hm' hn').2 h'
        rw [h] at this
        exact absurd this (List.lt_irrefl _)
    rw [heq]
    constructor
    · rintro (h | ⟨h, h'⟩)
      · by_contra hc
        exact absurd (Nat.div_le_div_right (c := b) (not_lt.1 hc)) (by omega)
      · rw [h] at en
        omega
    · intro h
      rcases lt_or_eq_of_le (Nat.div_le_div_right (c := b) h.le) with h' | h'
      · exact .inl h'
      · rw [h'] at en
        exact .inr ⟨h', by omega⟩

theorem append_lt_iff (f p q : Str) : f ++ p < f ++ q ↔ p < q := by
  induction f with
  | nil => rfl
  | cons c f ih => rw [List.cons_append, List.cons_append, List.cons_lt_cons_iff, ih]; simp

/-- The presentation types of numbers with digits only. -/
def digitTypes : List Char := ['d', 'x', 'X', 'b', 'B', 'o']

theorem base_ok (c : Char) : 2 ≤ baseOf c ∧ baseOf c ≤ 36 := by
  unfold baseOf
  split_ifs <;> decide

/-- The text of a number with the zero flag. -/
theorem zero_text {s : Specs} (hz : s.zeroFlag = true) (hc : s.type ≠ 'c') (n : Nat) :
    ∃ k, intText s n = (signOf s false ++ prefixOf s n) ++ lastSymbols (s.type == 'X') (baseOf s.type) k n ∧
      n < baseOf s.type ^ k ∧ (intText s n).length = (signOf s false ++ prefixOf s n).length + k := by
  unfold intText
  rw [if_neg hc, show decide ((n : Int) < 0) = false by simp, Int.natAbs_natCast, paddedNumber, if_pos hz, List.append_assoc _ (List.replicate _ _)]
  obtain ⟨h1, h2⟩ := zeros_numeral (s.type == 'X') (baseOf s.type) (base_ok _).1
    (fillCount s (signOf s false ++ prefixOf s n ++ numeral (s.type == 'X') (baseOf s.type) n).length) n
  rw [h1]
  refine ⟨_, rfl, lt_of_lt_of_le h2 (Nat.pow_le_pow_right (by have := (base_ok s.type).1; omega) (Nat.le_add_left _ _)), ?_⟩
  rw [List.length_append, lastSymbols_length]

/-- C86: two non-negative numbers formatted with the same specification with the zero flag to texts of the same length are
in the same order as their texts (character by character from the left). -/
theorem C86_order (ty ty' : IntTy) (n m : Nat) (hty : ty.Std) (hty' : ty'.Std) (hn : ty.Holds n) (hm : ty'.Holds m)
    (t : SpecText) (wf : t.WellFormed) (fits : t.Fits) (hal : CoreTy.Allows (.int ty) t) (hal' : CoreTy.Allows (.int ty') t)
    (hz : t.zero = true) (ha : t.align = none) (hd : ∀ c ∈ t.type, c ∈ digitTypes)
    (ho : t.type = some 'o' → t.alt = true → (n = 0 ↔ m = 0)) :
    ∃ textN textM, formatStr ("{:".toList ++ t.text ++ "}".toList) [(CoreArg.int ty n).farg] = .ok () textN ∧
      formatStr ("{:".toList ++ t.text ++ "}".toList) [(CoreArg.int ty' m).farg] = .ok () textM ∧
      (textN.length = textM.length → (textN < textM ↔ n < m)) := by
  have hO : t.type ≠ some 'O' := fun h => absurd (hd 'O' h) (by decide)
  have hzf : t.meaning.zeroFlag = true := by simp [SpecText.meaning, hz, ha]
  have hc : t.meaning.type ≠ 'c' := by
    intro h
    exact absurd (hd 'c' ((meaning_type_some wf 'c' (by decide)).1 h)) (by decide)
  refine ⟨_, _, C30_integers ty n hty hn t wf fits hal hO, C30_integers ty' m hty' hm t wf fits hal' hO, fun hl => ?_⟩
  have hp : prefixOf t.meaning n = prefixOf t.meaning m := by
    unfold prefixOf
    by_cases h : t.meaning.alternateForm = true ∧ t.meaning.type = 'o'
    · have := ho ((meaning_type_some wf 'o' (by decide)).1 h.2) h.1
      simp only [ne_eq, Int.natCast_eq_zero, this]
    · rw [if_neg (c := t.meaning.alternateForm = true ∧ t.meaning.type = 'o' ∧ (n : Int) ≠ 0) fun h' => h ⟨h'.1, h'.2.1⟩,
        if_neg (c := t.meaning.alternateForm = true ∧ t.meaning.type = 'o' ∧ (m : Int) ≠ 0) fun h' => h ⟨h'.1, h'.2.1⟩]
  obtain ⟨k, h1, h2, h3⟩ := zero_text hzf hc n
  obtain ⟨k', h1', h2', h3'⟩ := zero_text hzf hc m
  rw [h3, h3', hp] at hl
  obtain rfl : k = k' := by omega
  rw [h1, h1', hp, append_lt_iff, lastSymbols_lt _ _ (base_ok _).1 (base_ok _).2 _ _ _ h2 h2']

theorem numeral_short (u : Bool) (b : Nat) (hb : 2 ≤ b) (w n : Nat) (hw : 0 < w) (h : n < b ^ w) : (numeral u b n).length ≤ w := by
  induction w generalizing n with
  | zero => omega
  | succ w ih =>
    rcases lt_or_ge n b with h' | h'
    · rw [numeral_lt u b n hb h']
      simp
    · rw [numeral_ge u b n hb h', List.length_append, List.length_singleton]
      rcases Nat.eq_zero_or_pos w with rfl | hw
      · simp at h
        omega
      · have := ih (n / b) hw ((Nat.div_lt_iff_lt_mul (by omega)).2 (by rwa [Nat.pow_succ] at h))
        omega

/-- C86, with numbers for which the width suffices: the texts have exactly that many characters, they are in the order of the
numbers, and different numbers have different texts. -/
theorem C86_fixed_width (ty : IntTy) (n m : Nat) (hty : ty.Std) (hn : ty.Holds n) (hm : ty.Holds m)
    (t : SpecText) (wf : t.WellFormed) (fits : t.Fits) (hal : CoreTy.Allows (.int ty) t)
    (hz : t.zero = true) (ha : t.align = none) (hs : t.sign = none) (hal' : t.alt = false) (hd : ∀ c ∈ t.type, c ∈ digitTypes)
    (hw : 0 < t.widthValue) (hnw : n < baseOf t.meaning.type ^ t.widthValue) (hmw : m < baseOf t.meaning.type ^ t.widthValue) :
    ∃ textN textM, formatStr ("{:".toList ++ t.text ++ "}".toList) [(CoreArg.int ty n).farg] = .ok () textN ∧
      formatStr ("{:".toList ++ t.text ++ "}".toList) [(CoreArg.int ty m).farg] = .ok () textM ∧
      textN.length = t.widthValue ∧ textM.length = t.widthValue ∧ (textN < textM ↔ n < m) ∧ (textN = textM ↔ n = m) := by
  have hO : t.type ≠ some 'O' := fun h => absurd (hd 'O' h) (by decide)
  have hc : t.meaning.type ≠ 'c' := by
    intro h
    exact absurd (hd 'c' ((meaning_type_some wf 'c' (by decide)).1 h)) (by decide)
  have hlen : ∀ k : Nat, k < baseOf t.meaning.type ^ t.widthValue → (intText t.meaning k).length = t.widthValue := by
    intro k hk
    have hsh := numeral_short (t.meaning.type == 'X') (baseOf t.meaning.type) (base_ok _).1 t.widthValue k hw hk
    have hsg : signOf t.meaning false = [] := by simp [signOf, SpecText.meaning, hs]
    have hpr : prefixOf t.meaning k = [] := by simp [prefixOf, SpecText.meaning, hal']
    have hzf : t.meaning.zeroFlag = true := by simp [SpecText.meaning, hz, ha]
    have hwd : t.meaning.width = t.widthValue := rfl
    unfold intText
    rw [if_neg hc, show decide ((k : Int) < 0) = false by simp, Int.natAbs_natCast, paddedNumber, if_pos hzf, hsg, hpr, fillCount, hwd]
    simp
    omega
  obtain ⟨textN, textM, h1, h2, h3⟩ := C86_order ty ty n m hty hty hn hm t wf fits hal hal hz ha hd (by simp [hal'])
  obtain ⟨textM', textN', g2, g1, g3⟩ := C86_order ty ty m n hty hty hm hn t wf fits hal hal hz ha hd (by simp [hal'])
  have eN := C30_integers ty n hty hn t wf fits hal hO
  have eM := C30_integers ty m hty hm t wf fits hal hO
  obtain rfl : textN = intText t.meaning n := by rw [h1] at eN; cases eN; rfl
  obtain rfl : textM = intText t.meaning m := by rw [h2] at eM; cases eM; rfl
  obtain rfl : textN' = intText t.meaning n := by rw [g1] at eN; cases eN; rfl
  obtain rfl : textM' = intText t.meaning m := by rw [g2] at eM; cases eM; rfl
  have ln := hlen n hnw
  have lm := hlen m hmw
  have lt1 := h3 (ln.trans lm.symm)
  have lt2 := g3 (lm.trans ln.symm)
  refine ⟨_, _, h1, h2, ln, lm, lt1, fun h => ?_, fun h => by rw [h]⟩
  rw [h] at lt1 lt2
  have : ¬ (intText t.meaning m < intText t.meaning m) := List.lt_irrefl _
  exact le_antisymm (not_lt.1 fun h => this (lt2.2 h)) (not_lt.1 fun h => this (lt1.2 h))

/-- `"{:05}"` of 42 and 117. -/
example : ∃ textN textM, formatStr "{:05}".toList [(CoreArg.int i32 (42 : Nat)).farg] = .ok () textN ∧
      formatStr "{:05}".toList [(CoreArg.int i32 (117 : Nat)).farg] = .ok () textM ∧
      textN.length = 5 ∧ textM.length = 5 ∧ (textN < textM ↔ 42 < 117) ∧ (textN = textM ↔ 42 = 117) :=
  C86_fixed_width i32 42 117 (by decide) (by decide) (by decide) { zero := true, width := ['5'] }
    ⟨by decide, by decide, by decide, by decide, by decide, by decide, by decide⟩ ⟨by decide, by decide⟩
    ⟨⟨rfl, by decide⟩, by decide⟩ rfl rfl rfl rfl (by decide) (by decide) (by decide) (by decide)

/-- Without the zeros the order is another one. -/
example : formatStr "{}".toList [(CoreArg.int i32 (42 : Nat)).farg] = .ok () "42".toList ∧
    formatStr "{}".toList [(CoreArg.int i32 (117 : Nat)).farg] = .ok () "117".toList ∧ "117".toList < "42".toList := by
  decide +kernel

end Emio
