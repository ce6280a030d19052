import Verif.Props.Float
/-
Property C85: an upper-case type changes the case of the text only.
-/
namespace Emio
open Spec

/-- The text in upper case. -/
abbrev shout (s : Str) : Str := s.map Char.toUpper

theorem shout_fixed {s : Str} (h : ∀ c ∈ s, c.toUpper = c) : shout s = s := by
  rw [shout, List.map_congr_left h, List.map_id']

theorem digit_upper {c : Char} (h : c.isDigit = true) : c.toUpper = c := by
  have : c.isDigit = true → ¬ (c.val ≥ 'a'.val ∧ c.val ≤ 'z'.val) := by
    intro h
    simp only [Char.isDigit, Bool.and_eq_true, decide_eq_true_eq] at h
    rintro ⟨h1, h2⟩
    have e1 : c.val ≤ 57 := h.2
    have e2 : c.val ≥ 97 := h1
    exact absurd (UInt32.le_trans e2 e1) (by decide)
  unfold Char.toUpper
  rw [dif_neg (this h)]

theorem symbol_upper : ∀ d < 36, (symbol false d).toUpper = symbol true d := by decide +kernel

theorem symbol_digit (u : Bool) : ∀ d < 10, (symbol u d).toUpper = symbol u d := by revert u; decide +kernel

theorem numeral_shout (b n : Nat) (hb : 1 < b) (hb' : b ≤ 36) : shout (numeral false b n) = numeral true b n := by
  unfold numeral
  split
  · rfl
  · rw [shout, List.map_map]
    refine List.map_congr_left fun d hd => ?_
    exact symbol_upper d (lt_of_lt_of_le (Nat.digits_lt_base hb (List.mem_reverse.1 hd)) hb')

theorem numeral_quiet (u : Bool) (b n : Nat) (hb : 1 < b) (hb' : b ≤ 10) : shout (numeral u b n) = numeral u b n := by
  unfold numeral
  split
  · rfl
  · rw [shout, List.map_map]
    refine List.map_congr_left fun d hd => ?_
    exact symbol_digit u d (lt_of_lt_of_le (Nat.digits_lt_base hb (List.mem_reverse.1 hd)) hb')

theorem surround_shout (a : Align) (fill : Char) (hf : fill.toUpper = fill) (k : Nat) (text : Str) :
    shout (surround a fill k text) = surround a fill k (shout text) := by
  cases a <;> simp [surround, shout, hf]

theorem padded_shout {s s' : Specs} (d : Align) (hs : s' = { s with type := s'.type }) (hf : s.fill.toUpper = s.fill)
    (text : Str) : shout (padded d s text) = padded d s' (shout text) := by
  rw [hs]
  unfold padded fillCount
  rw [surround_shout _ _ hf]
  simp [shout]

theorem number_shout {s s' : Specs} (hs : s' = { s with type := s'.type }) (hf : s.fill.toUpper = s.fill)
    (front digits : Str) : shout (paddedNumber s front digits) = paddedNumber s' (shout front) (shout digits) := by
  have hz : s'.zeroFlag = s.zeroFlag := by rw [hs]
  have hw : s'.width = s.width := by rw [hs]
  unfold paddedNumber
  rw [hz]
  split
  · unfold fillCount
    rw [hw]
    have : ('0' : Char).toUpper = '0' := by decide
    simp [shout, this]
  · rw [padded_shout _ hs hf]
    simp [shout]

theorem sign_shout {s s' : Specs} (hs : s' = { s with type := s'.type }) (n : Bool) :
    shout (signOf s n) = signOf s' n := by
  have h : s'.sign = s.sign := by rw [hs]
  unfold signOf
  rw [h]
  split_ifs <;> decide

theorem int_shout {s s' : Specs} (hs : s' = { s with type := s'.type }) (hf : s.fill.toUpper = s.fill) (n : Int)
    (ht : s.type = 'x' ∧ s'.type = 'X' ∨ s.type = 'b' ∧ s'.type = 'B') : shout (intText s n) = intText s' n := by
  have ha : s'.alternateForm = s.alternateForm := by rw [hs]
  have hp : shout (prefixOf s n) = prefixOf s' n := by
    unfold prefixOf
    rw [ha]
    rcases ht with ⟨h, h'⟩ | ⟨h, h'⟩ <;> rw [h, h'] <;> by_cases h1 : s.alternateForm = true <;> simp [h1, shout] <;> decide
  have hd : shout (numeral (s.type == 'X') (baseOf s.type) n.natAbs) = numeral (s'.type == 'X') (baseOf s'.type) n.natAbs := by
    rcases ht with ⟨h, h'⟩ | ⟨h, h'⟩ <;> rw [h, h']
    · exact numeral_shout 16 _ (by decide) (by decide)
    · exact numeral_quiet false 2 _ (by decide) (by decide)
  have hc : s.type ≠ 'c' ∧ s'.type ≠ 'c' := by
    rcases ht with ⟨h, h'⟩ | ⟨h, h'⟩ <;> rw [h, h'] <;> decide
  unfold intText
  rw [if_neg hc.1, if_neg hc.2, number_shout hs hf, hd]
  congr 1
  rw [shout, List.map_append]
  exact congrArg₂ _ (sign_shout hs _) hp

theorem digits_shout {s : Str} (h : ∀ c ∈ s, c.isDigit) : shout s = s := shout_fixed fun c hc => digit_upper (h c hc)

theorem symbol_isDigit (d : Nat) (h : d < 10) : (symbol false d).isDigit = true := by
  revert d
  decide +kernel

theorem numeral_isDigit (n : Nat) : ∀ c ∈ numeral false 10 n, c.isDigit := by
  intro c hc
  unfold numeral at hc
  split at hc
  · obtain rfl := List.mem_singleton.1 hc
    decide
  · obtain ⟨d, hd, rfl⟩ := List.mem_map.1 hc
    exact symbol_isDigit d (Nat.digits_lt_base (by decide) (List.mem_reverse.1 hd))

theorem lastDigits_isDigit (n d : Nat) : ∀ c ∈ lastDigits n d, c.isDigit := by
  induction n generalizing d with
  | zero => simp [lastDigits]
  | succ n ih =>
    intro c hc
    rcases List.mem_append.1 hc with h | h
    · exact ih _ c h
    · obtain rfl := List.mem_singleton.1 h
      have : ∀ k < 10, (Char.ofNat (48 + k)).isDigit = true := by decide
      exact this _ (Nat.mod_lt _ (by decide))

theorem dropZeros_isDigit {s : Str} (h : ∀ c ∈ s, c.isDigit) : ∀ c ∈ dropZeros s, c.isDigit := by
  intro c hc
  unfold dropZeros at hc
  split at hc
  · obtain rfl := List.mem_singleton.1 hc
    decide
  · have := (List.dropWhile_sublist _).subset (List.mem_reverse.1 hc)
    exact h c (List.mem_reverse.1 this)

theorem exponent_shout (x : ℤ) : shout (exponentText x) = exponentText x := by
  refine shout_fixed fun c hc => ?_
  unfold exponentText at hc
  rcases List.mem_cons.1 hc with rfl | h
  · split <;> decide
  rcases List.mem_append.1 h with h | h
  · split at h
    · obtain rfl := List.mem_singleton.1 h
      decide
    · simp at h
  · exact digit_upper (numeral_isDigit _ c h)

theorem scientific_shout (point : Bool) {digits : Str} (h : ∀ c ∈ digits, c.isDigit) (x : ℤ) :
    shout (scientific false point digits x) = scientific true point digits x := by
  have h1 : shout (digits.take 1) = digits.take 1 := digits_shout fun c hc => h c (List.mem_of_mem_take hc)
  have h2 : shout (digits.drop 1) = digits.drop 1 := digits_shout fun c hc => h c (List.mem_of_mem_drop hc)
  have h3 := exponent_shout x
  unfold scientific
  rw [shout, List.map_append, List.map_append]
  refine congrArg₂ _ (congrArg₂ _ h1 ?_) ?_
  · split
    · exact congrArg₂ List.cons (by decide) h2
    · rfl
  · exact congrArg₂ List.cons (by decide) h3

theorem positional_shout (point : Bool) {digits : Str} (h : ∀ c ∈ digits, c.isDigit) (x : ℤ) :
    shout (positional point digits x) = positional point digits x := by
  refine shout_fixed fun c hc => ?_
  have hz : ∀ k, c ∈ List.replicate k '0' → c.toUpper = c := by
    intro k hk
    rw [(List.mem_replicate.1 hk).2]
    decide
  unfold positional at hc
  split at hc
  · rcases List.mem_cons.1 hc with rfl | hc
    · decide
    rcases List.mem_cons.1 hc with rfl | hc
    · decide
    rcases List.mem_append.1 hc with hc | hc
    · exact hz _ hc
    · exact digit_upper (h c hc)
  · rcases List.mem_append.1 hc with hc | hc
    · rcases List.mem_append.1 hc with hc | hc
      · exact digit_upper (h c (List.mem_of_mem_take hc))
      · exact hz _ hc
    · split at hc
      · rcases List.mem_cons.1 hc with rfl | hc
        · decide
        · exact digit_upper (h c (List.mem_of_mem_drop hc))
      · simp at hc

theorem fixed_shout (p : ℕ) (point : Bool) (v : ℚ) : shout (fixedPoint p point v) = fixedPoint p point v := by
  refine shout_fixed fun c hc => ?_
  unfold fixedPoint at hc
  rcases List.mem_append.1 hc with hc | hc
  · exact digit_upper (numeral_isDigit _ c hc)
  · split at hc
    · rcases List.mem_cons.1 hc with rfl | hc
      · decide
      · exact digit_upper (lastDigits_isDigit _ _ c hc)
    · simp at hc

/-- The letters of the types of floating-point numbers. -/
abbrev FloatPair (s s' : Specs) : Prop :=
  s.type = 'e' ∧ s'.type = 'E' ∨ s.type = 'f' ∧ s'.type = 'F' ∨ s.type = 'g' ∧ s'.type = 'G'

theorem finite_shout {s s' : Specs} (hs : s' = { s with type := s'.type }) (ht : FloatPair s s') (bits : ℕ) :
    shout (finiteText s bits) = finiteText s' bits := by
  have ha : s'.alternateForm = s.alternateForm := by rw [hs]
  have hp : s'.precision = s.precision := by rw [hs]
  have hq : precisionOf s' = precisionOf s := by unfold precisionOf; rw [hp]
  unfold finiteText
  rw [ha, hq, hp]
  rcases ht with ⟨h, h'⟩ | ⟨h, h'⟩ | ⟨h, h'⟩ <;> rw [h, h'] <;> dsimp only
  · rw [if_neg (show ¬ ('e' = 'f' ∨ 'e' = 'F') by decide), if_neg (show ¬ ('E' = 'f' ∨ 'E' = 'F') by decide),
      if_pos (show 'e' = 'e' ∨ 'e' = 'E' by decide), if_pos (show 'E' = 'e' ∨ 'E' = 'E' by decide)]
    exact scientific_shout _ (lastDigits_isDigit _ _) _
  · rw [if_pos (by decide), if_pos (by decide)]
    exact fixed_shout _ _ _
  · rw [if_neg (show ¬ ('g' = 'f' ∨ 'g' = 'F') by decide), if_neg (show ¬ ('G' = 'f' ∨ 'G' = 'F') by decide),
      if_neg (show ¬ ('g' = 'e' ∨ 'g' = 'E') by decide), if_neg (show ¬ ('G' = 'e' ∨ 'G' = 'E') by decide),
      if_neg (show ¬ ('g' = noChar ∧ s.precision < 0) from fun h => absurd h.1 (by decide)),
      if_neg (show ¬ ('G' = noChar ∧ s.precision < 0) from fun h => absurd h.1 (by decide))]
    have hd : ∀ n d, ∀ c ∈ (if s.alternateForm = true then lastDigits n d else dropZeros (lastDigits n d)), c.isDigit := by
      intro n d
      split
      · exact lastDigits_isDigit _ _
      · exact dropZeros_isDigit (lastDigits_isDigit _ _)
    split
    · exact scientific_shout _ (hd _ _) _
    · exact positional_shout _ (hd _ _) _

theorem float_shout {s s' : Specs} (hs : s' = { s with type := s'.type }) (hf : s.fill.toUpper = s.fill)
    (ht : FloatPair s s') (bits : ℕ) : shout (actualText s bits) = actualText s' bits := by
  have hp : precisionOf s' = precisionOf s := by unfold precisionOf; rw [hs]
  have hz : s'.zeroFlag = s.zeroFlag := by rw [hs]
  have hl : LosesZero s' bits ↔ LosesZero s bits := by
    unfold LosesZero
    rw [hp]
    rcases ht with ⟨h, h'⟩ | ⟨h, h'⟩ | ⟨h, h'⟩ <;> rw [h, h'] <;> simp
  unfold actualText
  by_cases h0 : LosesZero s bits
  · rw [if_pos h0, if_pos (hl.2 h0)]
    rw [number_shout hs hf, sign_shout hs, ← finite_shout hs ht, shout, shout, List.map_dropLast]
  · rw [if_neg h0, if_neg (fun h => h0 (hl.1 h))]
    unfold floatText
    split
    · rw [number_shout hs hf, sign_shout hs, finite_shout hs ht]
    · have hn : shout (signOf s (signBit bits) ++ nonFiniteText s bits) = signOf s' (signBit bits) ++ nonFiniteText s' bits := by
        rw [shout, List.map_append]
        refine congrArg₂ _ (sign_shout hs _) ?_
        unfold nonFiniteText
        rcases ht with ⟨h, h'⟩ | ⟨h, h'⟩ | ⟨h, h'⟩ <;> rw [h, h'] <;> split <;> decide
      rw [← hn, hz]
      split
      · refine padded_shout _ ?_ (show Char.toUpper ' ' = ' ' by decide) _
        rw [hs]
      · exact padded_shout _ hs hf _

theorem notLower_upper {c : Char} (h : c.isLower = false) : c.toUpper = c := by
  unfold Char.toUpper
  refine dif_neg fun h' => ?_
  simp only [Char.isLower, Bool.and_eq_false_iff, decide_eq_false_iff_not] at h
  rcases h with h | h
  · exact h h'.1
  · exact h h'.2

/-- The specification with the letter of the type in upper case. -/
def Spec.SpecText.upper (t : SpecText) : SpecText := { t with type := t.type.map Char.toUpper }

/-- C85: `B`, `X`, `E`, `F` and `G` yield what `b`, `x`, `e`, `f` and `g` yield, in upper case: for every argument and
whatever else the specification says, as long as the fill character is no lower-case letter. -/
theorem C85_upper_case (a : CoreArg) (ha : ValidArg a) (t : SpecText) (wf : t.WellFormed) (fits : t.Fits) (c : Char)
    (hc : c ∈ ['b', 'x', 'e', 'f', 'g']) (ht : t.type = some c) (hal : CoreTy.Allows a.ty t)
    (hfill : ∀ f ∈ t.fill, f.isLower = false) :
    ∃ text, formatStr ("{:".toList ++ t.text ++ "}".toList) [a.farg] = .ok () text ∧
      formatStr ("{:".toList ++ t.upper.text ++ "}".toList) [a.farg] = .ok () (text.map Char.toUpper) := by
  have htu : t.upper.type = some c.toUpper := by rw [SpecText.upper, ht]; rfl
  have wf' : t.upper.WellFormed := by
    refine ⟨wf.fill, wf.align, wf.sign, wf.width, wf.widthHead, wf.prec, fun d hd => ?_⟩
    rw [htu] at hd
    obtain rfl := Option.some.inj hd
    have : ∀ c ∈ ['b', 'x', 'e', 'f', 'g'], c.toUpper.isAlpha ∨ c.toUpper = '?' := by decide
    exact this c hc
  have fits' : t.upper.Fits := fits
  have hm : t.meaning.type = c := by simp [SpecText.meaning, ht]
  have hm' : t.upper.meaning.type = c.toUpper := by simp [SpecText.meaning, htu]
  have hs : t.upper.meaning = { t.meaning with type := t.upper.meaning.type } := rfl
  have hf : t.meaning.fill.toUpper = t.meaning.fill := by
    unfold SpecText.meaning
    dsimp only
    split
    · cases h : t.fill with
      | none => decide
      | some f => exact notLower_upper (hfill f h)
    · split <;> decide
  have hO : ∀ c ∈ ['b', 'x', 'e', 'f', 'g'], c ≠ 'O' ∧ c.toUpper ≠ 'O' ∧ c ≠ '?' ∧ c.toUpper ≠ '?' ∧ c ≠ 's' ∧ c ≠ 'p' ∧
      c ≠ 'c' ∧ c.toUpper ≠ 'c' ∧ c ≠ noChar ∧ c.toUpper ≠ noChar ∧ c.toUpper ≠ 's' := by decide
  obtain ⟨h1, h2, h3, h4, h5, h6, h7, h8, h9, h10, h11⟩ := hO c hc
  have hInt : c ∈ integerTypes → t.meaning.type = 'x' ∧ t.upper.meaning.type = 'X' ∨
      t.meaning.type = 'b' ∧ t.upper.meaning.type = 'B' := by
    rw [hm, hm']
    have : ∀ c ∈ ['b', 'x', 'e', 'f', 'g'], c ∈ integerTypes → c = 'x' ∧ c.toUpper = 'X' ∨ c = 'b' ∧ c.toUpper = 'B' := by
      decide
    exact this c hc
  have hIntUp : ∀ c ∈ ['b', 'x', 'e', 'f', 'g'], c ∈ integerTypes → c.toUpper ∈ integerTypes := by decide
  have ne : ∀ {t' : SpecText} {d x : Char}, t'.type = some d → d ≠ x → t'.type ≠ some x := by
    intro t' d x h hne h'
    rw [h] at h'
    exact hne (Option.some.inj h')
  cases a with
  | int ty n =>
    have hct := hal.1.2 c ht
    refine ⟨_, C30_integers ty n ha.1 ha.2 t wf fits hal (ne ht h1), ?_⟩
    rw [C30_integers ty n ha.1 ha.2 t.upper wf' fits' ⟨⟨hal.1.1, fun d hd => ?_⟩, hal.2⟩ (ne htu h2)]
    · exact congrArg _ (int_shout hs hf n (hInt hct)).symm
    · rw [htu] at hd
      obtain rfl := Option.some.inj hd
      exact hIntUp c hc hct
  | bool b =>
    have hct : c ∈ integerTypes := (hal.2 c ht).resolve_left h5
    refine ⟨_, C33_bool_partial b t wf fits hal (ne ht h1), ?_⟩
    rw [C33_bool_partial b t.upper wf' fits' ⟨hal.1, fun d hd => ?_⟩ (ne htu h2)]
    · unfold boolText
      rw [hm, hm', if_neg (not_or.2 ⟨h9, h5⟩), if_neg (not_or.2 ⟨h10, h11⟩)]
      exact congrArg _ (int_shout hs hf _ (hInt hct)).symm
    · rw [htu] at hd
      obtain rfl := Option.some.inj hd
      exact .inr (hIntUp c hc hct)
  | char x =>
    have hct : c ∈ integerTypes := by
      rcases hal.2 with h | ⟨d, hd, -, h⟩
      · rcases h.2 c ht with h | h
        · exact absurd h h7
        · exact absurd h h3
      · rw [ht] at hd
        obtain rfl := Option.some.inj hd
        exact h
    refine ⟨_, C33_char_partial x ha t wf fits hal (ne ht h1) (fun h => absurd h (ne ht h3)), ?_⟩
    rw [C33_char_partial x ha t.upper wf' fits' ⟨hal.1, .inr ⟨c.toUpper, htu, h8, hIntUp c hc hct⟩⟩ (ne htu h2)
      (fun h => absurd h (ne htu h4))]
    unfold charText
    rw [hm, hm', if_neg h3, if_neg (not_or.2 ⟨h9, h7⟩), if_neg h4, if_neg (not_or.2 ⟨h10, h8⟩)]
    exact congrArg _ (int_shout hs hf _ (hInt hct)).symm
  | double bits =>
    refine ⟨_, render_double bits ha t wf fits hal, ?_⟩
    rw [render_double bits ha t.upper wf' fits' ⟨hal.1, fun d hd => ?_⟩]
    · refine congrArg _ (float_shout hs hf ?_ bits).symm
      rw [FloatPair, hm, hm']
      have : ∀ c ∈ ['b', 'x', 'e', 'f', 'g'], c ∈ ['f', 'F', 'e', 'E', 'g', 'G'] →
          c = 'e' ∧ c.toUpper = 'E' ∨ c = 'f' ∧ c.toUpper = 'F' ∨ c = 'g' ∧ c.toUpper = 'G' := by decide
      exact this c hc (hal.2 c ht)
    · rw [htu] at hd
      obtain rfl := Option.some.inj hd
      have : ∀ c ∈ ['b', 'x', 'e', 'f', 'g'], c ∈ ['f', 'F', 'e', 'E', 'g', 'G'] →
          c.toUpper ∈ ['f', 'F', 'e', 'E', 'g', 'G'] := by decide
      exact this c hc (hal.2 c ht)
  | pointer p => exact absurd (hal.2.2 c ht) h6
  | string str =>
    rcases hal.2.1 c ht with h | h
    · exact absurd h h5
    · exact absurd h h3

/-- A hexadecimal number between stars: the hypotheses are met, and the text has letters that change. -/
example : ∃ text, formatStr "{:*^+#10x}".toList [(CoreArg.int i32 255).farg] = .ok () text ∧
    formatStr "{:*^+#10X}".toList [(CoreArg.int i32 255).farg] = .ok () (text.map Char.toUpper) :=
  C85_upper_case (.int i32 255) ⟨by decide, by decide⟩
    { fill := '*', align := '^', sign := '+', alt := true, width := ['1', '0'], type := 'x' }
    ⟨by decide, by decide, by decide, by decide, by decide, by decide, by decide⟩ ⟨by decide, by decide⟩ 'x' (by decide) rfl
    ⟨⟨rfl, by decide⟩, by decide⟩ (by decide)

/-- The fill character is of the text: with a lower-case letter the claim would be false. -/
example : formatStr "{:a>3x}".toList [(CoreArg.int i32 255).farg] = .ok () "aff".toList ∧
    formatStr "{:a>3X}".toList [(CoreArg.int i32 255).farg] = .ok () "aFF".toList := by decide +kernel

end Emio
