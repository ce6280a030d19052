import Verif.Spec.Decimal
import Verif.Lemmas.FloatText
import Verif.Props.Writer
/-
Helper lemmas: the numbers denoted by the texts of floating-point numbers.
-/
namespace Emio
open Spec

/-! ### A literal denotes one number -/

theorem isDigit_span {a a' b b' : Str} (ha : ∀ c ∈ a, c.isDigit) (ha' : ∀ c ∈ a', c.isDigit)
    (hb : ∀ c ∈ b.head?, c.isDigit = false) (hb' : ∀ c ∈ b'.head?, c.isDigit = false) (h : a ++ b = a' ++ b') :
    a = a' ∧ b = b' := by
  induction a generalizing a' with
  | nil =>
    cases a' with
    | nil => exact ⟨rfl, by simpa using h⟩
    | cons c l =>
      simp only [List.nil_append, List.cons_append] at h
      have := hb c (by rw [h]; simp)
      rw [ha' c (by simp)] at this
      cases this
  | cons c l ih =>
    cases a' with
    | nil =>
      simp only [List.nil_append, List.cons_append] at h
      have := hb' c (by rw [← h]; simp)
      rw [ha c (by simp)] at this
      cases this
    | cons c' l' =>
      simp only [List.cons_append, List.cons.injEq] at h
      obtain ⟨rfl, h⟩ := h
      obtain ⟨h1, h2⟩ := ih (fun c hc => ha c (by simp [hc])) (a' := l') (fun c hc => ha' c (by simp [hc])) h
      exact ⟨by rw [h1], h2⟩

theorem Decimal.text_inj {d d' : Decimal} (h : d.WellFormed) (h' : d'.WellFormed) (ht : d.text = d'.text) : d = d' := by
  obtain ⟨i, f, e⟩ := d
  obtain ⟨i', f', e'⟩ := d'
  have hexp : ∀ {e : Option (Char × Char × Str)}, (∀ a s ds, e = some (a, s, ds) → (a = 'e' ∨ a = 'E') ∧
      (s = '+' ∨ s = '-') ∧ ds ≠ [] ∧ ∀ c ∈ ds, c.isDigit) →
      ∀ c ∈ (match e with | some (e, s, ds) => e :: s :: ds | none => ([] : Str)).head?, c.isDigit = false ∧ c ≠ '.' := by
    intro e he c hc
    match e, he, hc with
    | none, _, hc => simp at hc
    | some (a, s, ds), he, hc =>
      simp only [List.head?_cons, Option.mem_def, Option.some.injEq] at hc
      subst hc
      rcases (he _ _ _ rfl).1 with rfl | rfl <;> decide
  have e1 := hexp h.exp
  have e2 := hexp h'.exp
  simp only at e1 e2
  have hrest : ∀ {f : Option Str} {x : Str}, (∀ c ∈ x.head?, c.isDigit = false ∧ c ≠ '.') →
      ∀ c ∈ ((match f with | some f => '.' :: f | none => []) ++ x).head?, c.isDigit = false := by
    intro f x hx c hc
    cases f with
    | none => exact (hx c hc).1
    | some g =>
      simp only [List.cons_append, List.head?_cons, Option.mem_def, Option.some.injEq] at hc
      subst hc
      decide
  unfold Decimal.text at ht
  simp only [List.append_assoc] at ht
  obtain ⟨g1, g2⟩ := isDigit_span h.int.2 h'.int.2 (hrest e1) (hrest e2) ht
  simp only at g1
  subst g1
  have tail : ∀ {e e' : Option (Char × Char × Str)},
      (match e with | some (e, s, ds) => e :: s :: ds | none => ([] : Str)) =
      (match e' with | some (e, s, ds) => e :: s :: ds | none => []) → e = e' := by
    intro e e' he
    match e, e', he with
    | none, none, _ => rfl
    | some (a, s, ds), none, he => simp at he
    | none, some (a, s, ds), he => simp at he
    | some (a, s, ds), some (a', s', ds'), he => simp only [List.cons.injEq] at he; simp [he]
  cases f with
  | none =>
    cases f' with
    | none =>
      have : e = e' := tail (by simpa using g2)
      rw [this]
    | some g =>
      simp only [List.nil_append, List.cons_append] at g2
      have := (e1 '.' (by rw [g2]; simp)).2
      exact absurd rfl this
  | some g =>
    cases f' with
    | none =>
      simp only [List.nil_append, List.cons_append] at g2
      have := (e2 '.' (by rw [← g2]; simp)).2
      exact absurd rfl this
    | some g' =>
      simp only [List.cons_append, List.cons.injEq, true_and] at g2
      obtain ⟨k1, k2⟩ := isDigit_span (h.frac g rfl) (h'.frac g' rfl) (fun c hc => (e1 c hc).1) (fun c hc => (e2 c hc).1) g2
      rw [k1, tail k2]

/-- A text denotes at most one number. -/
theorem Denotes.unique {text : Str} {x y : ℚ} (h : Denotes text x) (h' : Denotes text y) : x = y := by
  obtain ⟨d, w, t, rfl⟩ := h
  obtain ⟨d', w', t', rfl⟩ := h'
  rw [Decimal.text_inj w w' (by rw [t, t'])]

/-! ### Digits -/

theorem symbolValue_digit {c : Char} (h : c.isDigit = true) : ∃ d, symbolValue 10 c = some d := by
  have : (symbolValue 10 c).isSome := by
    simp only [Char.isDigit, ge_iff_le, Bool.and_eq_true, decide_eq_true_eq, UInt32.le_iff_toNat_le] at h
    have h' : 48 ≤ c.toNat ∧ c.toNat ≤ 57 := h
    unfold symbolValue
    simp only [if_pos h']
    rw [Option.filter_some, if_pos (by simp; omega)]
    rfl
  exact Option.isSome_iff_exists.1 this

theorem foldl_digits (l : List Nat) : ∀ a, l.foldl (fun a d => a * 10 + d) a = a * 10 ^ l.length + l.foldl (fun a d => a * 10 + d) 0 := by
  induction l with
  | nil => simp
  | cons d l ih =>
    intro a
    simp only [List.foldl_cons, List.length_cons]
    rw [ih (a * 10 + d), ih (0 * 10 + d), pow_succ]
    ring

theorem value_append (a : Str) {b : Str} (hb : ∀ c ∈ b, c.isDigit) :
    numeralValue 10 (a ++ b) = numeralValue 10 a * 10 ^ b.length + numeralValue 10 b := by
  unfold numeralValue denote
  rw [List.filterMap_append, List.foldl_append, foldl_digits]
  congr 2
  have : ∀ {b : Str}, (∀ c ∈ b, c.isDigit) → (b.filterMap (symbolValue 10)).length = b.length := by
    intro b
    induction b with
    | nil => simp
    | cons c b ih =>
      intro hb
      obtain ⟨d, hd⟩ := symbolValue_digit (hb c (by simp))
      rw [List.filterMap_cons, hd]
      simp [ih (fun c hc => hb c (by simp [hc]))]
  rw [this hb]

theorem digitChar_ok : ∀ d, d < 10 → (Char.ofNat (48 + d)).isDigit = true ∧ numeralValue 10 [Char.ofNat (48 + d)] = d := by
  decide

theorem digits_lastDigits (n D : Nat) : ∀ c ∈ lastDigits n D, c.isDigit := by
  induction n generalizing D with
  | zero => simp [lastDigits]
  | succ n ih =>
    intro c hc
    rw [lastDigits, List.mem_append] at hc
    rcases hc with hc | hc
    · exact ih _ c hc
    · simp only [List.mem_singleton] at hc
      rw [hc]
      exact (digitChar_ok _ (Nat.mod_lt _ (by decide))).1

theorem value_lastDigits (n D : Nat) : numeralValue 10 (lastDigits n D) = D % 10 ^ n := by
  induction n generalizing D with
  | zero => simp [lastDigits, numeralValue, denote, Nat.mod_one]
  | succ n ih =>
    obtain ⟨h1, h2⟩ := digitChar_ok _ (Nat.mod_lt D (show 0 < 10 by decide))
    rw [lastDigits, value_append _ (by simpa using h1), ih, h2, List.length_singleton, pow_one, pow_succ',
      Nat.mod_mul (a := 10) (b := 10 ^ n)]
    omega

theorem value_zeros (n : Nat) : numeralValue 10 (List.replicate n '0') = 0 := by
  rw [← lastDigits_zero, value_lastDigits, Nat.zero_mod]

theorem digits_zeros (n : Nat) : ∀ c ∈ List.replicate n '0', c.isDigit := by
  rw [← lastDigits_zero]; exact digits_lastDigits n 0

theorem numeral10 (n : Nat) : numeral false 10 n ≠ [] ∧ (∀ c ∈ numeral false 10 n, c.isDigit) ∧
    numeralValue 10 (numeral false 10 n) = n := by
  obtain ⟨⟨h1, h2⟩, h3⟩ := numeral_value false 10 n (by decide) (by decide)
  refine ⟨h1, fun c hc => ?_, h3⟩
  have := h2 c hc
  unfold symbolValue at this
  simp only at this
  split at this
  · rename_i hr
    simp only [Char.isDigit, ge_iff_le, Bool.and_eq_true, decide_eq_true_eq, UInt32.le_iff_toNat_le]
    exact hr
  · split at this
    · rw [Option.filter_some, if_neg (by simp)] at this
      simp at this
    · split at this
      · rw [Option.filter_some, if_neg (by simp)] at this
        simp at this
      · simp at this

/-! ### Layouts -/

/-- The digits of an exponent and what they denote. -/
theorem exponent_parts (x : ℤ) : ∃ s ds, exponentText x = s :: ds ∧ (s = '+' ∨ s = '-') ∧ ds ≠ [] ∧
    (∀ c ∈ ds, c.isDigit) ∧ 2 ≤ ds.length ∧ (if s = '-' then -(numeralValue 10 ds : ℤ) else numeralValue 10 ds) = x := by
  obtain ⟨h1, h2, h3⟩ := numeral10 x.natAbs
  have hz : ∀ c ∈ (if x.natAbs < 10 then ['0'] else [] : Str), c.isDigit := by
    split
    · simp only [List.mem_singleton]; rintro c rfl; decide
    · simp
  have hv : numeralValue 10 ((if x.natAbs < 10 then ['0'] else []) ++ numeral false 10 x.natAbs) = x.natAbs := by
    rw [value_append _ h2, h3]
    split
    · have : numeralValue 10 ['0'] = 0 := by decide
      rw [this]; omega
    · have : numeralValue 10 [] = 0 := by decide
      rw [this]; omega
  refine ⟨_, _, rfl, ?_, by simp [h1], ?_, ?_, ?_⟩
  · split
    · exact Or.inr rfl
    · exact Or.inl rfl
  · intro c hc
    rcases List.mem_append.1 hc with hc | hc
    · exact hz c hc
    · exact h2 c hc
  · have := List.length_pos_iff.2 h1
    split
    · simp; omega
    · rename_i hge
      rw [List.nil_append, length_numeral_ge false 10 x.natAbs (by decide) (by omega)]
      have := List.length_pos_iff.2 (numeral10 (x.natAbs / 10)).1
      simp; omega
  · rw [hv]
    by_cases hx : x < 0
    · rw [if_pos hx, if_pos rfl]; omega
    · rw [if_neg hx, if_neg (by decide)]; omega

theorem scientific_denotes (upper point : Bool) {digits : Str} (h : ∀ c ∈ digits, c.isDigit) (h0 : digits ≠ []) (x : ℤ) :
    Denotes (scientific upper point digits x) (numeralValue 10 digits * (10 : ℚ) ^ (x + 1 - digits.length)) := by
  obtain ⟨s, ds, he, hs, hd0, hd, _, hval⟩ := exponent_parts x
  have htake : digits.take 1 ≠ [] := by
    cases digits with
    | nil => exact absurd rfl h0
    | cons c l => simp
  have hlen := List.length_pos_iff.2 h0
  refine ⟨⟨digits.take 1, if point = true ∨ 1 < digits.length then some (digits.drop 1) else none,
    some (if upper then 'E' else 'e', s, ds)⟩, ⟨⟨htake, fun c hc => h c (List.mem_of_mem_take hc)⟩, ?_, ?_⟩, ?_, ?_⟩
  · intro f hf
    simp only at hf
    split at hf
    · obtain rfl := Option.some.inj hf
      exact fun c hc => h c (List.mem_of_mem_drop hc)
    · cases hf
  · intro e s' ds' heq
    simp only [Option.some.injEq, Prod.mk.injEq] at heq
    obtain ⟨rfl, rfl, rfl⟩ := heq
    refine ⟨?_, hs, hd0, hd⟩
    cases upper
    · exact Or.inl rfl
    · exact Or.inr rfl
  · unfold scientific Decimal.text
    simp only
    rw [he]
    split_ifs <;> simp
  · unfold Decimal.value Decimal.exponent Decimal.decimals
    simp only [hval]
    split
    · simp only [Option.getD_some, List.take_append_drop, List.length_drop]
      congr 2
      omega
    · rename_i hne
      have hl1 : digits.length = 1 := by
        have : ¬ 1 < digits.length := fun hh => hne (Or.inr hh)
        omega
      rw [List.take_of_length_le (by omega)]
      simp [hl1]

theorem positional_denotes (point : Bool) {digits : Str} (h : ∀ c ∈ digits, c.isDigit) (h0 : digits ≠ []) (x : ℤ) :
    Denotes (positional point digits x) (numeralValue 10 digits * (10 : ℚ) ^ (x + 1 - digits.length)) := by
  have hlen := List.length_pos_iff.2 h0
  unfold positional
  split
  · rename_i hx
    refine ⟨⟨['0'], some (List.replicate (-x - 1).toNat '0' ++ digits), none⟩, ⟨⟨by simp, by simp [show ('0' : Char).isDigit = true by decide]⟩, ?_, by simp⟩, ?_, ?_⟩
    · intro f hf
      obtain rfl := Option.some.inj hf
      intro c hc
      rcases List.mem_append.1 hc with hc | hc
      · exact digits_zeros _ c hc
      · exact h c hc
    · simp [Decimal.text]
    · unfold Decimal.value Decimal.exponent Decimal.decimals
      simp only [Option.getD_some, List.length_append, List.length_replicate]
      rw [← List.append_assoc, value_append _ h]
      have : numeralValue 10 (['0'] ++ List.replicate (-x - 1).toNat '0') = 0 := value_zeros ((-x - 1).toNat + 1)
      rw [this]
      simp only [Nat.zero_mul, Nat.zero_add]
      congr 2
      push_cast
      omega
  · rename_i hx
    simp only
    generalize hk : (x + 1).toNat = k
    have hk1 : 1 ≤ k := by omega
    have hi0 : digits.take k ++ List.replicate (k - digits.length) '0' ≠ [] := by
      intro hc
      have := congrArg List.length hc
      simp only [List.length_append, List.length_take, List.length_replicate, List.length_nil] at this
      omega
    have hid : ∀ c ∈ digits.take k ++ List.replicate (k - digits.length) '0', c.isDigit := by
      intro c hc
      rcases List.mem_append.1 hc with hc | hc
      · exact h c (List.mem_of_mem_take hc)
      · exact digits_zeros _ c hc
    refine ⟨⟨digits.take k ++ List.replicate (k - digits.length) '0',
      if point = true ∨ k < digits.length then some (digits.drop k) else none, none⟩, ⟨⟨hi0, hid⟩, ?_, by simp⟩, ?_, ?_⟩
    · intro f hf
      simp only at hf
      split at hf
      · obtain rfl := Option.some.inj hf
        exact fun c hc => h c (List.mem_of_mem_drop hc)
      · cases hf
    · unfold Decimal.text
      simp only
      split_ifs <;> simp
    · unfold Decimal.value Decimal.exponent Decimal.decimals
      simp only
      rcases Nat.lt_or_ge k digits.length with hlt | hge
      · rw [if_pos (Or.inr hlt), show k - digits.length = 0 by omega]
        simp only [List.replicate_zero, List.append_nil, Option.getD_some, List.take_append_drop, List.length_drop]
        congr 2
        omega
      · have e : (if point = true ∨ k < digits.length then some (digits.drop k) else none : Option Str).getD [] = [] := by
          split
          · simp [List.drop_eq_nil_of_le hge]
          · rfl
        rw [e, List.append_nil, value_append _ (digits_zeros _), value_zeros, List.take_of_length_le hge]
        simp only [List.length_replicate, List.length_nil, Nat.add_zero]
        simp only [Nat.cast_mul, Nat.cast_pow, Nat.cast_ofNat, Nat.cast_zero, sub_zero, zpow_zero, mul_one]
        rw [← zpow_natCast]
        congr 2
        omega

/-- The parts of a number in fixed notation. -/
theorem fixed_parts (p : Nat) (point : Bool) (v : ℚ) : ∃ ip fp,
    fixedPoint p point v = ip ++ (if point = true ∨ p ≠ 0 then '.' :: fp else []) ∧ ip ≠ [] ∧ (∀ c ∈ ip, c.isDigit) ∧
    (∀ c ∈ fp, c.isDigit) ∧ fp.length = p ∧ numeralValue 10 (ip ++ fp) = roundHalfEven (v * 10 ^ p) := by
  generalize hd : roundHalfEven (v * 10 ^ p) = d
  obtain ⟨h1, h2, h3⟩ := numeral10 (d / 10 ^ p)
  refine ⟨numeral false 10 (d / 10 ^ p), lastDigits p d, by rw [fixedPoint_eq, hd], h1, h2, digits_lastDigits _ _,
    lastDigits_length _ _, ?_⟩
  rw [value_append _ (digits_lastDigits _ _), value_lastDigits, lastDigits_length, h3]
  exact Nat.div_add_mod' d (10 ^ p)

theorem fixed_denotes (p : Nat) (point : Bool) (v : ℚ) : Denotes (fixedPoint p point v) (roundDecimals p v) := by
  obtain ⟨ip, fp, h1, h2, h3, h4, h5, h6⟩ := fixed_parts p point v
  refine ⟨⟨ip, if point = true ∨ p ≠ 0 then some fp else none, none⟩, ⟨⟨h2, h3⟩, ?_, by simp⟩, ?_, ?_⟩
  · intro f hf
    simp only at hf
    split at hf
    · obtain rfl := Option.some.inj hf
      exact h4
    · cases hf
  · rw [h1]
    unfold Decimal.text
    simp only
    split_ifs <;> simp
  · have e : (if point = true ∨ p ≠ 0 then some fp else none : Option Str).getD [] = fp := by
      split
      · rfl
      · rename_i hn
        have hp0 : p = 0 := by
          by_contra hp
          exact hn (Or.inr hp)
        have : fp.length = 0 := by rw [h5, hp0]
        rw [List.eq_nil_of_length_eq_zero this]
        rfl
    unfold Decimal.value Decimal.exponent Decimal.decimals roundDecimals
    simp only
    rw [e, h6, h5, zero_sub, zpow_neg, zpow_natCast, div_eq_mul_inv]

/-- Without the last zero the number is the same. -/
theorem fixed_dropLast_denotes {p : Nat} (hp : 2 ≤ p) (point : Bool) (v : ℚ)
    (h : fixedPoint p point v = (fixedPoint p point v).dropLast ++ ['0']) :
    Denotes (fixedPoint p point v).dropLast (roundDecimals p v) := by
  obtain ⟨ip, fp, h1, h2, h3, h4, h5, h6⟩ := fixed_parts p point v
  rw [if_pos (Or.inr (by omega))] at h1
  have hfp : fp ≠ [] := by
    rintro rfl
    simp at h5
    omega
  have hlast : fp = fp.dropLast ++ ['0'] := by
    have hne : ip ++ '.' :: fp ≠ [] := by simp
    have e1 : (ip ++ '.' :: fp).getLast hne = fp.getLast hfp := by
      rw [List.getLast_append_of_ne_nil _ (by simp), List.getLast_cons hfp]
    have e2 : (ip ++ '.' :: fp).getLast hne = '0' := by
      have : ip ++ '.' :: fp = (fixedPoint p point v).dropLast ++ ['0'] := by rw [← h1]; exact h
      simp only [this, List.getLast_append_of_ne_nil _ (List.cons_ne_nil _ _), List.getLast_singleton]
    conv_lhs => rw [← List.dropLast_append_getLast hfp]
    rw [← e1, e2]
  have hdl : (fixedPoint p point v).dropLast = ip ++ '.' :: fp.dropLast := by
    rw [h1, List.dropLast_append_of_ne_nil (by simp), List.dropLast_cons_of_ne_nil hfp]
  have h4' : ∀ c ∈ fp.dropLast, c.isDigit := fun c hc => h4 c (List.mem_of_mem_dropLast hc)
  refine ⟨⟨ip, some fp.dropLast, none⟩, ⟨⟨h2, h3⟩, ?_, by simp⟩, ?_, ?_⟩
  · intro f hf
    obtain rfl := Option.some.inj hf
    exact h4'
  · rw [hdl]
    simp [Decimal.text]
  · unfold Decimal.value Decimal.exponent Decimal.decimals roundDecimals
    simp only [Option.getD_some, List.length_dropLast, h5]
    have hv : numeralValue 10 (ip ++ fp) = numeralValue 10 (ip ++ fp.dropLast) * 10 := by
      conv_lhs => rw [hlast, ← List.append_assoc]
      rw [value_append _ (by intro c hc; simp only [List.mem_singleton] at hc; rw [hc]; decide)]
      have : numeralValue 10 ['0'] = 0 := by decide
      rw [this]; simp
    rw [← h6, hv]
    push_cast
    obtain ⟨q, rfl⟩ : ∃ q, p = q + 1 := ⟨p - 1, by omega⟩
    rw [show (0 : ℤ) - ((q + 1 - 1 : ℕ) : ℤ) = -(q : ℤ) by simp, zpow_neg, zpow_natCast, pow_succ, div_eq_mul_inv, mul_inv]
    field_simp

/-- The rounded number in terms of digits and exponent. -/
theorem roundSignificant_value {n : Nat} (hn : 1 ≤ n) {v : ℚ} (hv : 0 ≤ v) :
    ((roundSignificant n v).1 : ℚ) * (10 : ℚ) ^ ((roundSignificant n v).2 + 1 - n) = roundDigits n v ∧
    (roundSignificant n v).1 < 10 ^ n ∧ (v ≠ 0 → 10 ^ (n - 1) ≤ (roundSignificant n v).1) := by
  unfold roundSignificant roundDigits
  by_cases h0 : v = 0
  · simp only [if_pos h0]
    simp [h0]
  · have hpos : 0 < v := lt_of_le_of_ne hv (Ne.symm h0)
    simp only [if_neg h0]
    have a : (10 : ℚ) ^ (Int.log 10 v) ≤ v := by exact_mod_cast Int.zpow_log_le_self (b := 10) (by decide) hpos
    have b : v < (10 : ℚ) ^ (Int.log 10 v + 1) := by exact_mod_cast Int.lt_zpow_succ_log_self (b := 10) (by decide) v
    obtain ⟨d1, d2⟩ := digits_range (v := v) (k := Int.log 10 v + 1) (n := n) (by omega) (by simpa using a) b
    rw [show (n : ℤ) - (Int.log 10 v + 1) = n - 1 - Int.log 10 v by ring] at d1 d2
    split
    · rename_i hd
      refine ⟨?_, ?_, fun _ => le_rfl⟩
      · rw [hd]
        push_cast
        rw [← zpow_natCast, ← zpow_natCast, ← zpow_add₀ (by norm_num), ← zpow_add₀ (by norm_num)]
        congr 1
        push_cast [Nat.cast_sub hn]
        ring
      · exact Nat.pow_lt_pow_right (by decide) (by omega)
    · rename_i hd
      exact ⟨rfl, by omega, fun _ => d1⟩

/-- Removing zeros at the end does not change the number. -/
theorem dropZeros_value {digits : Str} (h : ∀ c ∈ digits, c.isDigit) (h0 : digits ≠ []) (x : ℤ) :
    (∀ c ∈ dropZeros digits, c.isDigit) ∧ dropZeros digits ≠ [] ∧
    (numeralValue 10 (dropZeros digits) : ℚ) * (10 : ℚ) ^ (x + 1 - (dropZeros digits).length) =
      numeralValue 10 digits * (10 : ℚ) ^ (x + 1 - digits.length) := by
  unfold dropZeros
  split
  · rename_i hall
    have he : digits = List.replicate digits.length '0' := by
      rw [List.eq_replicate_iff]
      exact ⟨rfl, fun c hc => by simpa using (List.all_eq_true.1 hall) c hc⟩
    refine ⟨by simp [show ('0' : Char).isDigit = true by decide], by simp, ?_⟩
    rw [he, value_zeros, show numeralValue 10 ['0'] = 0 by decide]
    simp
  · rename_i hall
    have hsplit : digits = (digits.reverse.dropWhile (· == '0')).reverse ++
        (digits.reverse.takeWhile (· == '0')).reverse := by
      rw [← List.reverse_append, List.takeWhile_append_dropWhile, List.reverse_reverse]
    have hz : (digits.reverse.takeWhile (· == '0')).reverse =
        List.replicate (digits.reverse.takeWhile (· == '0')).length '0' := by
      rw [List.eq_replicate_iff]
      refine ⟨by simp, fun c hc => ?_⟩
      have := List.mem_takeWhile_imp (List.mem_reverse.1 hc)
      simpa using this
    generalize hA : (digits.reverse.dropWhile (· == '0')).reverse = A at *
    generalize hB : (digits.reverse.takeWhile (· == '0')).length = B at *
    rw [hz] at hsplit
    have hA0 : A ≠ [] := by
      rintro rfl
      apply hall
      rw [List.all_eq_true]
      intro c hc
      rw [hsplit] at hc
      simp only [List.nil_append, List.mem_replicate] at hc
      simp [hc.2]
    refine ⟨fun c hc => h c (by rw [hsplit]; simp [hc]), hA0, ?_⟩
    rw [hsplit, value_append _ (digits_zeros _), value_zeros, List.length_append, List.length_replicate]
    push_cast
    rw [add_zero, mul_assoc, ← zpow_natCast, ← zpow_add₀ (by norm_num)]
    congr 2
    ring

end Emio
