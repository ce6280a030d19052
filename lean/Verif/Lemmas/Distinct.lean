import Verif.Spec.Distinct
import Verif.Props.Float
import Verif.Props.Values
import Verif.Props.Writer
/-
Texts that tell values apart.
-/
namespace Emio
open Spec

/-- The characters that may follow a value. -/
def isDelim (c : Char) : Bool := c = ',' || c = ')' || c = ']' || c = '}' || c = ':'

/-- Behind a value. -/
def Delim (rest : Str) : Prop := ∀ c ∈ rest.head?, isDelim c = true

theorem delim_cut {t u r r' : Str} (ht : ∀ c ∈ t, isDelim c = false) (hu : ∀ c ∈ u, isDelim c = false) (hr : Delim r)
    (hr' : Delim r') (h : t ++ r = u ++ r') : t = u ∧ r = r' := by
  induction t generalizing u with
  | nil =>
    cases u with
    | nil => exact ⟨rfl, h⟩
    | cons c u =>
      have h1 := hu c (by simp)
      have h2 := hr c (by rw [List.nil_append] at h; rw [h]; simp)
      rw [h1] at h2; cases h2
  | cons c t ih =>
    cases u with
    | nil =>
      have h1 := ht c (by simp)
      have h2 := hr' c (by rw [List.nil_append] at h; rw [← h]; simp)
      rw [h1] at h2; cases h2
    | cons d u =>
      simp only [List.cons_append, List.cons.injEq] at h
      obtain ⟨e1, e2⟩ := ih (fun x hx => ht x (by simp [hx])) (fun x hx => hu x (by simp [hx])) h.2
      exact ⟨by rw [h.1, e1], e2⟩

theorem digit_plain {c : Char} (h : c.isDigit = true) : isDelim c = false := by
  unfold isDelim
  simp only [Bool.or_eq_false_iff, decide_eq_false_iff_not]
  refine ⟨⟨⟨⟨?_, ?_⟩, ?_⟩, ?_⟩, ?_⟩ <;> rintro rfl <;> exact absurd h (by decide)

theorem hex_plain {c : Char} (h : (symbolValue 16 c).isSome) : isDelim c = false := by
  unfold isDelim
  simp only [Bool.or_eq_false_iff, decide_eq_false_iff_not]
  refine ⟨⟨⟨⟨?_, ?_⟩, ?_⟩, ?_⟩, ?_⟩ <;> rintro rfl <;> exact absurd h (by decide)

theorem quoted_cut {q : Char} (hq : q = '"' ∨ q = '\'') {s s' : Str} (hs : ∀ c ∈ s, c.toNat < 256) (hs' : ∀ c ∈ s', c.toNat < 256)
    {r r' : Str} (h : quoted q s ++ r = quoted q s' ++ r') : s = s' ∧ r = r' := by
  obtain ⟨b, h1, h2⟩ := C21_escaped_literal_ends_at_quote q hq s hs r
  obtain ⟨b', h3, h4⟩ := C21_escaped_literal_ends_at_quote q hq s' hs' r'
  rw [h1, h3] at h
  simp only [List.cons.injEq, true_and] at h
  rw [h, h4] at h2
  simp only [Option.some.injEq, Prod.mk.injEq] at h2
  exact ⟨C21_escape_injective s s' hs hs' h2.1.symm, h2.2.symm⟩

theorem padded_alone (d : Align) (x : Str) (ty : Char) : padded d { type := ty } x = x := by
  unfold padded fillCount surround
  cases d <;> simp

theorem paddedNumber_alone (f x : Str) : paddedNumber {} f x = f ++ x := by
  unfold paddedNumber
  simp only [Bool.false_eq_true, if_false]
  exact padded_alone _ _ _

/-- The default text of an integer. -/
theorem int_plain (n : Int) : intText {} n = (if n < 0 then ['-'] else []) ++ numeral false 10 n.natAbs := by
  unfold intText
  rw [if_neg (by decide), paddedNumber_alone]
  unfold signOf prefixOf baseOf
  by_cases h : n < 0 <;> simp [h, noChar]

theorem int_plain_chars (n : Int) : (∀ c ∈ intText {} n, isDelim c = false) ∧ intText {} n ≠ [] := by
  obtain ⟨h1, h2, _⟩ := numeral_digits n.natAbs
  rw [int_plain]
  refine ⟨?_, by simp [h1]⟩
  intro c hc
  rcases List.mem_append.1 hc with hc | hc
  · split at hc
    · simp only [List.mem_singleton] at hc; subst hc; decide
    · simp at hc
  · exact digit_plain (h2 c hc)

theorem int_plain_inj {n m : Int} (h : intText {} n = intText {} m) : n = m := by
  obtain ⟨h1, h2, h3⟩ := numeral_digits n.natAbs
  obtain ⟨g1, g2, g3⟩ := numeral_digits m.natAbs
  rw [int_plain, int_plain] at h
  have hcase : (n < 0 ↔ m < 0) ∧ numeral false 10 n.natAbs = numeral false 10 m.natAbs := by
    by_cases hn : n < 0 <;> by_cases hm : m < 0
    · simp only [if_pos hn, if_pos hm] at h
      exact ⟨by simp [hn, hm], List.append_cancel_left h⟩
    · simp only [if_pos hn, if_neg hm, List.nil_append] at h
      have := g2 '-' (by rw [← h]; simp)
      exact absurd this (by decide)
    · simp only [if_neg hn, if_pos hm, List.nil_append] at h
      have := h2 '-' (by rw [h]; simp)
      exact absurd this (by decide)
    · simp only [if_neg hn, if_neg hm, List.nil_append] at h
      exact ⟨by simp [hn, hm], h⟩
  have e : n.natAbs = m.natAbs := by rw [← h3, ← g3, hcase.2]
  have := hcase.1
  omega

theorem ptr_plain (addr : Nat) : ptrText {} addr = ['0', 'x'] ++ numeral false 16 addr := padded_alone _ _ _

theorem ptr_plain_chars (addr : Nat) : ∀ c ∈ ptrText {} addr, isDelim c = false := by
  rw [ptr_plain]
  obtain ⟨⟨_, h2⟩, _⟩ := numeral_value false 16 addr (by decide) (by decide)
  intro c hc
  rcases List.mem_append.1 hc with hc | hc
  · have : ∀ c ∈ ['0', 'x'], isDelim c = false := by decide
    exact this c hc
  · exact hex_plain (h2 c hc)

theorem ptr_plain_inj {n m : Nat} (h : ptrText {} n = ptrText {} m) : n = m := by
  rw [ptr_plain, ptr_plain] at h
  obtain ⟨_, h3⟩ := numeral_value false 16 n (by decide) (by decide)
  obtain ⟨_, g3⟩ := numeral_value false 16 m (by decide) (by decide)
  rw [← h3, ← g3, List.append_cancel_left h]

theorem denotes_chars {lit : Str} {x : ℚ} (h : Denotes lit x) :
    (∀ c ∈ lit, isDelim c = false) ∧ ∃ c tl, lit = c :: tl ∧ c.isDigit = true := by
  obtain ⟨d, wf, rfl, _⟩ := h
  obtain ⟨⟨h1, h2⟩, h3, h4⟩ := wf
  constructor
  · intro c hc
    unfold Decimal.text at hc
    simp only [List.mem_append] at hc
    rcases hc with (hc | hc) | hc
    · exact digit_plain (h2 c hc)
    · split at hc
      · rename_i f hf
        rcases List.mem_cons.1 hc with rfl | hc
        · decide
        · exact digit_plain (h3 f hf c hc)
      · simp at hc
    · split at hc
      · rename_i e s ds he
        obtain ⟨g1, g2, _, g4⟩ := h4 e s ds he
        rcases List.mem_cons.1 hc with rfl | hc
        · rcases g1 with rfl | rfl <;> decide
        · rcases List.mem_cons.1 hc with rfl | hc
          · rcases g2 with rfl | rfl <;> decide
          · exact digit_plain (g4 c hc)
      · simp at hc
  · unfold Decimal.text
    cases hi : d.int with
    | nil => exact absurd hi h1
    | cons c tl => exact ⟨c, _, rfl, h2 c (by rw [hi]; simp)⟩

theorem double_plain {bits : Nat} (hb : bits < 2 ^ 64) (hf : IsFinite bits) :
    ∃ lit x, floatText {} bits = (if signBit bits then ['-'] else []) ++ lit ∧ Denotes lit x ∧ ReadsAs x (bits % 2 ^ 63) := by
  obtain ⟨lit, x, h1, h2, h3⟩ := C39_round_trip bits hb hf {} noSpec_ok.1 noSpec_ok.2 ⟨rfl, rfl⟩
  have hr := render_double bits hb {} noSpec_ok.1 noSpec_ok.2 (noSpec_allows .double)
  rw [actual_eq (not_fixed_default noSpec_ok.1 ⟨rfl, rfl⟩ bits), h1] at hr
  have e := (ok_inj hr).2
  refine ⟨lit, x, ?_, h2, h3⟩
  rw [show SpecText.meaning {} = {} from rfl, paddedNumber_alone] at e
  rw [← e]
  unfold signOf
  cases signBit bits <;> simp [noChar]

theorem double_inf {bits : Nat} (hf : ¬ IsFinite bits) (hn : ¬ IsNaN bits) :
    floatText {} bits = (if signBit bits then ['-'] else []) ++ "inf".toList ∧ exponentOf bits = 2047 ∧ fractionOf bits = 0 := by
  have he : exponentOf bits = 2047 := by
    unfold IsFinite at hf
    unfold exponentOf at hf ⊢
    omega
  have h0 : fractionOf bits = 0 := by
    by_contra h
    exact hn ⟨he, h⟩
  refine ⟨?_, he, h0⟩
  unfold floatText
  rw [if_neg hf]
  simp only [Bool.false_eq_true, if_false]
  rw [padded_alone]
  unfold nonFiniteText signOf
  rw [if_pos h0]
  cases signBit bits <;> simp [noChar]

theorem double_plain_chars {bits : Nat} (hb : bits < 2 ^ 64) (hn : ¬ IsNaN bits) :
    (∀ c ∈ floatText {} bits, isDelim c = false) ∧ floatText {} bits ≠ [] := by
  have hs : ∀ c ∈ (if signBit bits then ['-'] else []), isDelim c = false := by
    intro c hc
    split at hc
    · simp only [List.mem_singleton] at hc; subst hc; decide
    · simp at hc
  by_cases hf : IsFinite bits
  · obtain ⟨lit, x, h1, h2, _⟩ := double_plain hb hf
    obtain ⟨h3, c, tl, h4, _⟩ := denotes_chars h2
    rw [h1]
    refine ⟨fun c hc => ?_, by simp [h4]⟩
    rcases List.mem_append.1 hc with hc | hc
    · exact hs c hc
    · exact h3 c hc
  · rw [(double_inf hf hn).1]
    refine ⟨fun c hc => ?_, by simp⟩
    rcases List.mem_append.1 hc with hc | hc
    · exact hs c hc
    · have : ∀ c ∈ "inf".toList, isDelim c = false := by decide
      exact this c hc

theorem bits_eq {a b : Nat} (ha : a < 2 ^ 64) (hb : b < 2 ^ 64) (hs : signBit a = signBit b) (hm : a % 2 ^ 63 = b % 2 ^ 63) : a = b := by
  unfold signBit at hs
  have : a / 2 ^ 63 % 2 = b / 2 ^ 63 % 2 := by
    have h1 : a / 2 ^ 63 % 2 < 2 := Nat.mod_lt _ (by decide)
    have h2 : b / 2 ^ 63 % 2 < 2 := Nat.mod_lt _ (by decide)
    by_cases e : a / 2 ^ 63 % 2 = 1 <;> by_cases e' : b / 2 ^ 63 % 2 = 1 <;> simp [e, e'] at hs <;> omega
  omega

theorem sign_cut {s s' : Bool} {x y : Str} {c d : Char} {xs ys : Str} (hx : x = c :: xs) (hy : y = d :: ys) (hc : c ≠ '-')
    (hd : d ≠ '-') (h : (if s then ['-'] else []) ++ x = (if s' then ['-'] else []) ++ y) : s = s' ∧ x = y := by
  subst hx hy
  cases s <;> cases s' <;> simp at h
  · exact ⟨rfl, by rw [h.1, h.2]⟩
  · exact absurd h.1 hc
  · exact absurd h.1.symm hd
  · exact ⟨rfl, by rw [h.1, h.2]⟩

theorem double_plain_inj {a b : Nat} (ha : a < 2 ^ 64) (hb : b < 2 ^ 64) (hna : ¬ IsNaN a) (hnb : ¬ IsNaN b)
    (h : floatText {} a = floatText {} b) : a = b := by
  have dm : ∀ c : Char, c.isDigit = true → c ≠ '-' ∧ c ≠ 'i' := by
    intro c hc
    constructor <;> rintro rfl <;> exact absurd hc (by decide)
  by_cases hfa : IsFinite a <;> by_cases hfb : IsFinite b
  · obtain ⟨lit, x, h1, h2, h3⟩ := double_plain ha hfa
    obtain ⟨lit', x', g1, g2, g3⟩ := double_plain hb hfb
    obtain ⟨_, c, tl, e1, e2⟩ := denotes_chars h2
    obtain ⟨_, c', tl', e1', e2'⟩ := denotes_chars g2
    rw [h1, g1] at h
    obtain ⟨hs, hl⟩ := sign_cut e1 e1' (dm c e2).1 (dm c' e2').1 h
    subst hl
    have := C39_reading_is_unique.1 _ _ _ h2 g2
    subst this
    exact bits_eq ha hb hs (C39_reading_is_unique.2 _ _ _ h3 g3)
  · obtain ⟨lit, x, h1, h2, h3⟩ := double_plain ha hfa
    obtain ⟨_, c, tl, e1, e2⟩ := denotes_chars h2
    rw [h1, (double_inf hfb hnb).1] at h
    obtain ⟨_, hl⟩ := sign_cut e1 (y := "inf".toList) (d := 'i') (ys := "nf".toList) rfl (dm c e2).1 (by decide) h
    rw [e1] at hl
    exact absurd (List.cons.inj hl).1 (dm c e2).2
  · obtain ⟨lit, x, h1, h2, h3⟩ := double_plain hb hfb
    obtain ⟨_, c, tl, e1, e2⟩ := denotes_chars h2
    rw [h1, (double_inf hfa hna).1] at h
    obtain ⟨_, hl⟩ := sign_cut e1 (y := "inf".toList) (d := 'i') (ys := "nf".toList) rfl (dm c e2).1 (by decide) h.symm
    rw [e1] at hl
    exact absurd (List.cons.inj hl).1 (dm c e2).2
  · obtain ⟨h1, h2, h3⟩ := double_inf hfa hna
    obtain ⟨g1, g2, g3⟩ := double_inf hfb hnb
    rw [h1, g1] at h
    obtain ⟨hs, _⟩ := sign_cut (x := "inf".toList) (c := 'i') (xs := "nf".toList) (y := "inf".toList) (d := 'i')
      (ys := "nf".toList) rfl rfl (by decide) (by decide) h
    refine bits_eq ha hb hs ?_
    unfold exponentOf at h2 g2
    unfold fractionOf at h3 g3
    omega

/-! ### Core values -/

/-- Written under the default specification, or under the one elements have. -/
theorem written_text {a : CoreArg} {sp : SpecText} {text : Str} (wf : sp.WellFormed) (fits : sp.Fits)
    (allows : CoreTy.Allows a.ty sp) (valid : ValidArg a) (hm : sp.meaning = {} ∨ sp.meaning = { type := '?' })
    (h : Written a sp text) : text = argText a sp.meaning := by
  have hc := (allows_iff a.ty wf).2 allows
  have hd : ¬ OctalO a sp.meaning ∧ ¬ LongDebugChar a sp.meaning ∧ ¬ FixedLosesZero a sp.meaning := by
    refine ⟨?_, ?_, ?_⟩
    · rintro ⟨e, _⟩
      rcases hm with hm | hm <;> rw [hm] at e <;> exact absurd e (by decide)
    · unfold LongDebugChar
      cases a with
      | char c => rcases hm with hm | hm <;> rw [hm] <;> simp
      | _ => exact id
    · unfold FixedLosesZero
      cases a with
      | double bits => rcases hm with hm | hm <;> rw [hm] <;> simp [LosesZero, noChar]
      | _ => exact id
  exact h.unique (core_emits a _ (meaning_ok fits) valid hc hd.1 hd.2.1 hd.2.2 (needs_any a _ (meaning_ok fits) hc))

/-- The specification elements have. -/
def elementSpecs (q : Bool) (t : CoreTy) : Specs := if q then (quotedSpec t).meaning else {}

/-- Core values are told apart. -/
theorem core_tells {whole q : Bool} {a b : CoreArg} (hty : a.ty = b.ty) (ha : ValidArg a) (hb : ValidArg b)
    (hstr : a.ty = .string → whole = true ∨ q = true)
    (hna : ∀ bits, a = .double bits → ¬ IsNaN bits) (hnb : ∀ bits, b = .double bits → ¬ IsNaN bits) {r r' : Str}
    (hr : Delim r) (hr' : Delim r') (hw : whole = true → r = r')
    (h : argText a (elementSpecs q a.ty) ++ r = argText b (elementSpecs q b.ty) ++ r') : a = b ∧ r = r' := by
  cases a with
  | bool x =>
    cases b <;> simp [CoreArg.ty] at hty
    rename_i y
    have e : ∀ x, argText (.bool x) (elementSpecs q .bool) = if x then "true".toList else "false".toList := by
      intro x
      have : elementSpecs q .bool = {} := by unfold elementSpecs quotedSpec; split <;> rfl
      rw [this]
      show boolText {} x = _
      unfold boolText
      rw [if_pos (Or.inl rfl)]
      exact padded_alone _ _ _
    simp only [CoreArg.ty, e] at h
    cases x <;> cases y <;> simp at h
    · exact ⟨rfl, h⟩
    · exact ⟨rfl, h⟩
  | char c =>
    cases b <;> simp [CoreArg.ty] at hty
    rename_i d
    cases q with
    | true =>
      have e : ∀ c, argText (.char c) (elementSpecs true .char) = quoted '\'' [c] := by
        intro c
        show padded .left { type := '?' } (quoted '\'' [c]) = _
        exact padded_alone _ _ _
      simp only [CoreArg.ty, e] at h
      obtain ⟨h1, h2⟩ := quoted_cut (Or.inr rfl) (by intro x hx; simp at hx; subst hx; exact ha)
        (by intro x hx; simp at hx; subst hx; exact hb) h
      cases h1
      exact ⟨rfl, h2⟩
    | false =>
      have e : ∀ c, argText (.char c) (elementSpecs false .char) = [c] := by
        intro c
        show padded .left {} [c] = _
        exact padded_alone _ _ _
      simp only [CoreArg.ty, e] at h
      simp only [List.singleton_append, List.cons.injEq] at h
      exact ⟨by rw [h.1], h.2⟩
  | int t n =>
    cases b <;> simp [CoreArg.ty] at hty
    rename_i t' m
    subst hty
    have e : ∀ n, argText (.int t n) (elementSpecs q (.int t)) = intText {} n := by
      intro n
      have : elementSpecs q (.int t) = {} := by unfold elementSpecs quotedSpec; split <;> rfl
      rw [this]
      rfl
    simp only [CoreArg.ty, e] at h
    obtain ⟨h1, h2⟩ := delim_cut (int_plain_chars n).1 (int_plain_chars m).1 hr hr' h
    exact ⟨by rw [int_plain_inj h1], h2⟩
  | double x =>
    cases b <;> simp [CoreArg.ty] at hty
    rename_i y
    have e : ∀ x, argText (.double x) (elementSpecs q .double) = floatText {} x := by
      intro x
      have : elementSpecs q .double = {} := by unfold elementSpecs quotedSpec; split <;> rfl
      rw [this]
      rfl
    simp only [CoreArg.ty, e] at h
    obtain ⟨h1, h2⟩ := delim_cut (double_plain_chars ha (hna x rfl)).1 (double_plain_chars hb (hnb y rfl)).1 hr hr' h
    exact ⟨by rw [double_plain_inj ha hb (hna x rfl) (hnb y rfl) h1], h2⟩
  | pointer x =>
    cases b <;> simp [CoreArg.ty] at hty
    rename_i y
    have e : ∀ x, argText (.pointer x) (elementSpecs q .pointer) = ptrText {} x := by
      intro x
      have : elementSpecs q .pointer = {} := by unfold elementSpecs quotedSpec; split <;> rfl
      rw [this]
      rfl
    simp only [CoreArg.ty, e] at h
    obtain ⟨h1, h2⟩ := delim_cut (ptr_plain_chars x) (ptr_plain_chars y) hr hr' h
    exact ⟨by rw [ptr_plain_inj h1], h2⟩
  | string s =>
    cases b <;> simp [CoreArg.ty] at hty
    rename_i s'
    cases q with
    | true =>
      have e : ∀ s, argText (.string s) (elementSpecs true .string) = quoted '"' s := by
        intro s
        show padded .left { type := '?' } (quoted '"' s) = _
        exact padded_alone _ _ _
      simp only [CoreArg.ty, e] at h
      obtain ⟨h1, h2⟩ := quoted_cut (Or.inl rfl) ha.1 hb.1 h
      exact ⟨by rw [h1], h2⟩
    | false =>
      have e : ∀ s, argText (.string s) (elementSpecs false .string) = s := by
        intro s
        show padded .left {} s = _
        exact padded_alone _ _ _
      simp only [CoreArg.ty, e] at h
      have := hw (by simpa using hstr rfl)
      subst this
      exact ⟨by rw [List.append_cancel_right h], rfl⟩

/-! ### Nested values -/

theorem rangeSpec_nil {n : Bool} {elem : Option Str} (h : rangeSpec n elem = []) : n = false ∧ elem = none := by
  unfold rangeSpec at h
  cases n <;> cases elem <;> simp at h ⊢

theorem renders_core_inv {t : CoreTy} {v : FVal} {q : Bool} {s text : Str} (h : Renders Written (.core t) v q s text) (hs : s = [])
    (hty : HasType v (.core t)) : ∃ a, v = .core a ∧ a.ty = t ∧ ValidArg a ∧ text = argText a (elementSpecs q t) := by
  obtain ⟨a, hva, hta, ha⟩ := hasType_core hty t rfl
  refine ⟨a, hva, hta, ha, ?_⟩
  have key : ∀ ty v q s text, Renders Written ty v q s text → s = [] → v = .core a → ty = .core t →
      text = argText a (elementSpecs q t) := by
    intro ty v q s text h hs hv ht
    cases h with
    | core wf fits allows h =>
      rename_i b sp
      obtain rfl := FVal.core.inj hv
      have hm : sp.meaning = {} := meaning_unique wf fits noSpec_ok.1 noSpec_ok.2 (by rw [hs]; rfl)
      rw [written_text wf fits allows ha (Or.inl hm) h, hm]
      rfl
    | quoted h =>
      rename_i b
      obtain rfl := FVal.core.inj hv
      obtain ⟨h1, h2, h3⟩ := quotedSpec_ok b.ty
      rw [← hta]
      refine written_text h1 h2 h3 ha ?_ h
      rw [quotedSpec_meaning]
      split
      · exact Or.inr rfl
      · exact Or.inl rfl
    | _ => cases hv
  exact key _ _ _ _ _ h hs hva rfl

theorem renders_range_inv {curly : Bool} {t : FTy} {v : FVal} {q : Bool} {s text : Str}
    (h : Renders Written (.range curly t) v q s text) (hs : s = []) :
    ∃ vs texts, v = .range vs ∧ List.Forall₂ (fun v text => Renders Written t v true [] text) vs texts ∧
      text = (if curly then '{' else '[') :: ([',', ' '].intercalate texts ++ [if curly then '}' else ']']) := by
  cases h with
  | range number each =>
    rename_i vs texts n elem
    obtain ⟨rfl, rfl⟩ := rangeSpec_nil hs
    refine ⟨vs, texts, rfl, ?_, ?_⟩
    · rw [List.forall₂_iff_get]
      refine ⟨number.symm, fun i h1 h2 => each i _ _ (by simp) (by simp)⟩
    · unfold bracketed
      cases curly <;> simp

/-- The elements of a tuple. -/
inductive Elements (R : FTy → FVal → Str → Prop) : List FTy → List FVal → List Str → Prop
  | nil : Elements R [] [] []
  | cons {t ts v vs x xs} (h : R t v x) (hs : Elements R ts vs xs) : Elements R (t :: ts) (v :: vs) (x :: xs)

theorem elements_of {R : FTy → FVal → Str → Prop} : ∀ {ts : List FTy} {vs : List FVal} {xs : List Str}, vs.length = ts.length →
    xs.length = vs.length → (∀ (i : Nat) (t : FTy) (v : FVal) (x : Str), ts[i]? = some t → vs[i]? = some v → xs[i]? = some x → R t v x) →
    Elements R ts vs xs := by
  intro ts
  induction ts with
  | nil =>
    intro vs xs h1 h2 _
    cases vs with
    | nil =>
      cases xs with
      | nil => exact .nil
      | cons x xs => simp at h2
    | cons v vs => simp at h1
  | cons t ts ih =>
    intro vs xs h1 h2 h
    cases vs with
    | nil => simp at h1
    | cons v vs =>
      cases xs with
      | nil => simp at h2
      | cons x xs =>
        exact .cons (h 0 t v x rfl rfl rfl) (ih (by simpa using h1) (by simpa using h2)
          (fun i t v x a b c => h (i + 1) t v x (by simpa using a) (by simpa using b) (by simpa using c)))

theorem renders_tuple_inv {entry : Bool} {ts : List FTy} {v : FVal} {q : Bool} {s text : Str}
    (h : Renders Written (.tuple entry ts) v q s text) (hs : s = []) (hty : HasType v (.tuple entry ts)) (hn : NoNaN v) :
    ∃ vs texts, v = .tuple vs ∧
      Elements (fun t v text => HasType v t ∧ NoNaN v ∧ Renders Written t v true [] text) ts vs texts ∧
      text = if entry then [':', ' '].intercalate texts else '(' :: ([',', ' '].intercalate texts ++ [')']) := by
  cases hty with
  | tuple hlen heach =>
    rename_i vs
    have hnn : ∀ v ∈ vs, NoNaN v := by
      cases hn with
      | tuple h => exact h
    cases h with
    | tuple number each =>
      rename_i texts n elem
      obtain ⟨rfl, rfl⟩ := rangeSpec_nil hs
      refine ⟨vs, texts, rfl, elements_of hlen number ?_, rfl⟩
      exact fun i t v x h1 h2 h3 => ⟨heach i v t h2 h1, hnn v (List.mem_of_getElem? h2), each i t v x h1 h2 h3⟩
    | entry number each =>
      rename_i texts n elem
      obtain ⟨rfl, rfl⟩ := rangeSpec_nil hs
      refine ⟨vs, texts, rfl, elements_of hlen number ?_, rfl⟩
      exact fun i t v x h1 h2 h3 => ⟨heach i v t h2 h1, hnn v (List.mem_of_getElem? h2), each i t v x h1 h2 h3⟩

theorem intercalate_two (sep a b : Str) (l : List Str) : sep.intercalate (a :: b :: l) = a ++ (sep ++ sep.intercalate (b :: l)) := by
  simp [List.intercalate]

theorem intercalate_one (sep a : Str) : sep.intercalate [a] = a := by
  simp [List.intercalate]

/-- Lists of values that are told apart. -/
theorem list_tells {R : FVal → Str → Prop} {cl : Char} (hcl : isDelim cl = true) (hcomma : cl ≠ ',')
    (uniq : ∀ v w t u r r', R v t → R w u → Delim r → Delim r' → t ++ r = u ++ r' → v = w ∧ r = r')
    (head : ∀ v t, R v t → ∃ c tl, t = c :: tl ∧ isDelim c = false) :
    ∀ {vs : List FVal} {ts : List Str} {ws : List FVal} {us : List Str}, List.Forall₂ R vs ts → List.Forall₂ R ws us →
      ∀ r r' : Str, [',', ' '].intercalate ts ++ cl :: r = [',', ' '].intercalate us ++ cl :: r' → vs = ws ∧ r = r' := by
  have hne : ∀ {v : FVal} {t : Str} {ts : List Str} {r r' : Str}, R v t → [',', ' '].intercalate (t :: ts) ++ cl :: r ≠ cl :: r' := by
    intro v t ts r r' hv h
    obtain ⟨c, tl, rfl, hc⟩ := head v t hv
    have : c = cl := by
      cases ts with
      | nil => rw [intercalate_one] at h; exact (List.cons.inj h).1
      | cons b l => rw [intercalate_two] at h; exact (List.cons.inj h).1
    rw [this, hcl] at hc
    cases hc
  intro vs
  induction vs with
  | nil =>
    intro ts ws us h1 h2 r r' h
    cases h1
    cases h2 with
    | nil => exact ⟨rfl, (List.cons.inj h).2⟩
    | cons hw _ => exact absurd h.symm (hne hw)
  | cons v vs ih =>
    intro ts ws us h1 h2 r r' h
    cases h1 with
    | cons hv h1 =>
      rename_i t ts
      cases h2 with
      | nil => exact absurd h (hne hv)
      | cons hw h2 =>
        rename_i w u ws us
        have dcl : ∀ x : Str, Delim (cl :: x) := fun x c hc => by simp at hc; subst hc; exact hcl
        have dco : ∀ x : Str, Delim ([',', ' '] ++ x) := fun x c hc => by simp at hc; subst hc; decide
        cases h1 with
        | nil =>
          cases h2 with
          | nil =>
            rw [intercalate_one, intercalate_one] at h
            obtain ⟨rfl, e⟩ := uniq _ _ _ _ _ _ hv hw (dcl r) (dcl r') h
            exact ⟨rfl, (List.cons.inj e).2⟩
          | cons hw' _ =>
            rw [intercalate_one, intercalate_two, List.append_assoc, List.append_assoc] at h
            obtain ⟨_, e⟩ := uniq _ _ _ _ _ _ hv hw (dcl r) (dco _) h
            exact absurd (List.cons.inj e).1 hcomma
        | cons hv' h1 =>
          cases h2 with
          | nil =>
            rw [intercalate_one, intercalate_two, List.append_assoc, List.append_assoc] at h
            obtain ⟨_, e⟩ := uniq _ _ _ _ _ _ hv hw (dco _) (dcl r') h
            exact absurd (List.cons.inj e).1.symm hcomma
          | cons hw' h2 =>
            rw [intercalate_two, intercalate_two, List.append_assoc, List.append_assoc, List.append_assoc, List.append_assoc] at h
            obtain ⟨rfl, e⟩ := uniq _ _ _ _ _ _ hv hw (dco _) (dco _) h
            obtain ⟨e1, e2⟩ := ih (.cons hv' h1) (.cons hw' h2) r r' (List.append_cancel_left e)
            exact ⟨by rw [e1], e2⟩

/-- Tuples of values that are told apart. -/
theorem tuple_tells {R : FTy → FVal → Str → Prop} {s0 : Char} {sep : Str} (hs : isDelim s0 = true) :
    ∀ {ts : List FTy} {vs : List FVal} {xs : List Str} {ws : List FVal} {ys : List Str}, Elements R ts vs xs → Elements R ts ws ys →
      (∀ t ∈ ts, ∀ v w x y r r', R t v x → R t w y → Delim r → Delim r' → x ++ r = y ++ r' → v = w ∧ r = r') →
      ∀ r r' : Str, Delim r → Delim r' → (s0 :: sep).intercalate xs ++ r = (s0 :: sep).intercalate ys ++ r' → vs = ws ∧ r = r' := by
  intro ts
  induction ts with
  | nil =>
    intro vs xs ws ys h1 h2 _ r r' _ _ h
    cases h1; cases h2
    exact ⟨rfl, by simpa [List.intercalate] using h⟩
  | cons t ts ih =>
    intro vs xs ws ys h1 h2 uniq r r' dr dr' h
    cases h1 with
    | cons hv h1 =>
      cases h2 with
      | cons hw h2 =>
        have u := uniq t (by simp)
        have dse : ∀ x : Str, Delim (s0 :: sep ++ x) := fun x c hc => by simp at hc; subst hc; exact hs
        cases ts with
        | nil =>
          cases h1; cases h2
          rw [intercalate_one, intercalate_one] at h
          obtain ⟨rfl, e⟩ := u _ _ _ _ _ _ hv hw dr dr' h
          exact ⟨rfl, e⟩
        | cons t' ts =>
          cases h1 with
          | cons hv' h1 =>
            cases h2 with
            | cons hw' h2 =>
              rw [intercalate_two, intercalate_two, List.append_assoc, List.append_assoc, List.append_assoc, List.append_assoc] at h
              obtain ⟨rfl, e⟩ := u _ _ _ _ _ _ hv hw (dse _) (dse _) h
              obtain ⟨e1, e2⟩ := ih (.cons hv' h1) (.cons hw' h2) (fun t ht => uniq t (List.mem_cons_of_mem _ ht)) r r' dr dr'
                (List.append_cancel_left e)
              exact ⟨by rw [e1], e2⟩

/-- Elements do not begin with a delimiter. -/
theorem renders_head {whole q : Bool} {ty : FTy} (h : Telling whole q ty) : q = true → ∀ {v : FVal} {text : Str}, HasType v ty → NoNaN v →
    Renders Written ty v true [] text → ∃ c tl, text = c :: tl ∧ isDelim c = false := by
  induction h with
  | core _ =>
    rename_i t _
    intro _ v text hty hn hr
    obtain ⟨a, rfl, rfl, ha, rfl⟩ := renders_core_inv hr rfl hty
    have key : ∀ x : Str, (∀ c ∈ x, isDelim c = false) → x ≠ [] → ∃ c tl, x = c :: tl ∧ isDelim c = false := by
      intro x h1 h2
      cases x with
      | nil => exact absurd rfl h2
      | cons c tl => exact ⟨c, tl, rfl, h1 c (by simp)⟩
    have hn' : ∀ bits, a = .double bits → ¬ IsNaN bits := by
      cases hn with
      | core h => exact h
    cases a with
    | bool b => cases b <;> exact ⟨_, _, rfl, by decide⟩
    | char c =>
      refine ⟨'\'', escape [c] ++ ['\''], ?_, by decide⟩
      show padded .left { type := '?' } (quoted '\'' [c]) = _
      rw [padded_alone]
      rfl
    | int t n => exact key _ (int_plain_chars n).1 (int_plain_chars n).2
    | double x => exact key _ (double_plain_chars ha (hn' x rfl)).1 (double_plain_chars ha (hn' x rfl)).2
    | pointer x =>
      refine key _ (ptr_plain_chars x) ?_
      show ptrText {} x ≠ []
      rw [ptr_plain]
      simp
    | string s =>
      refine ⟨'"', escape s ++ ['"'], ?_, by decide⟩
      show padded .left { type := '?' } (quoted '"' s) = _
      rw [padded_alone]
      rfl
  | range _ _ =>
    rename_i curly _ _ _
    intro _ v text hty hn hr
    obtain ⟨vs, texts, rfl, _, rfl⟩ := renders_range_inv hr rfl
    exact ⟨_, _, rfl, by cases curly <;> decide⟩
  | tuple each nonempty ih =>
    rename_i entry ts
    intro _ v text hty hn hr
    obtain ⟨vs, texts, rfl, he, rfl⟩ := renders_tuple_inv hr rfl hty hn
    cases entry with
    | false => exact ⟨_, _, rfl, by decide⟩
    | true =>
      cases he with
      | nil => exact absurd rfl nonempty
      | cons h hs =>
        obtain ⟨c, tl, rfl, hc⟩ := ih _ (by simp) rfl h.1 h.2.1 h.2.2
        cases hs with
        | nil => exact ⟨c, tl, by rw [if_pos rfl, intercalate_one], hc⟩
        | cons _ _ => exact ⟨c, _, by rw [if_pos rfl, intercalate_two, List.cons_append], hc⟩
  | optional _ _ =>
    intro _ v text hty hn hr
    cases hr with
    | none => exact ⟨_, _, rfl, by decide⟩
    | some _ => exact ⟨_, _, rfl, by decide⟩
  | monostate =>
    intro _ v text hty hn hr
    cases hr
    exact ⟨_, _, rfl, by decide⟩
  | variant _ _ _ _ =>
    intro _ v text hty hn hr
    cases hr with
    | variant _ _ => exact ⟨_, _, rfl, by decide⟩
    | valueless => exact ⟨_, _, rfl, by decide⟩

/-! ### Alternatives of variants -/

/-- The characters values of a kind begin with. -/
def beginsWith : Kind → Char → Bool
  | .truth, c => c = 't' || c = 'f'
  | .character, c => c = '\''
  | .number, c => c.isDigit || c = '-' || c = 'i'
  | .pointer, c => c = '0'
  | .text, c => c = '"'
  | .sequence, c => c = '['
  | .set, c => c = '{'
  | .tuple, c => c = '('
  | .optional, c => c = 'o' || c = 'n'
  | .monostate, c => c = 'm'
  | .variant, c => c = 'v'

theorem beginsWith_kind {k k' : Kind} {c : Char} (h : beginsWith k c = true) (h' : beginsWith k' c = true) :
    k = k' ∨ (k = .number ∧ k' = .pointer) ∨ (k = .pointer ∧ k' = .number) := by
  have key : ∀ k k', k ≠ k' → (k, k') ≠ (.number, .pointer) → (k, k') ≠ (.pointer, .number) →
      ∀ c ∈ ['t', 'f', '\'', '"', '[', '{', '(', 'o', 'n', 'm', 'v', '0'], ¬ (beginsWith k c = true ∧ beginsWith k' c = true) := by
    intro k k'
    cases k <;> cases k' <;> decide
  by_cases e : k = k'
  · exact Or.inl e
  by_cases e1 : (k, k') = (.number, .pointer)
  · cases e1; simp
  by_cases e2 : (k, k') = (.pointer, .number)
  · cases e2; simp
  exfalso
  refine key k k' e e1 e2 c ?_ ⟨h, h'⟩
  have mem : ∀ k, k ≠ .number → beginsWith k c = true → c ∈ ['t', 'f', '\'', '"', '[', '{', '(', 'o', 'n', 'm', 'v', '0'] := by
    intro k hk hb
    cases k <;> simp [beginsWith] at hb hk ⊢ <;> tauto
  by_cases hk : k = .number
  · exact mem k' (fun h => e (by rw [hk, h])) h'
  · exact mem k hk h

theorem denotes_noX {lit : Str} {x : ℚ} (h : Denotes lit x) : 'x' ∉ lit := by
  obtain ⟨d, wf, rfl, _⟩ := h
  obtain ⟨⟨h1, h2⟩, h3, h4⟩ := wf
  have nd : ¬ 'x'.isDigit = true := by decide
  intro hc
  unfold Decimal.text at hc
  simp only [List.mem_append] at hc
  rcases hc with (hc | hc) | hc
  · exact nd (h2 _ hc)
  · split at hc
    · rename_i f hf
      rcases List.mem_cons.1 hc with hc | hc
      · exact absurd hc (by decide)
      · exact nd (h3 f hf _ hc)
    · simp at hc
  · split at hc
    · rename_i e s ds he
      obtain ⟨g1, g2, _, g4⟩ := h4 e s ds he
      rcases List.mem_cons.1 hc with hc | hc
      · rw [← hc] at g1; exact absurd g1 (by decide)
      · rcases List.mem_cons.1 hc with hc | hc
        · rw [← hc] at g2; exact absurd g2 (by decide)
        · exact nd (g4 _ hc)
    · simp at hc

/-- The text of a number. -/
def NumberText (t : Str) : Prop :=
  (∀ c ∈ t, isDelim c = false) ∧ 'x' ∉ t ∧ ∃ c tl, t = c :: tl ∧ beginsWith .number c = true

theorem signed_number {b : Bool} {t : Str} (h : NumberText t) : NumberText ((if b then ['-'] else []) ++ t) := by
  cases b with
  | false => exact h
  | true =>
    obtain ⟨h1, h2, _⟩ := h
    refine ⟨?_, ?_, '-', t, rfl, by decide⟩
    · intro c hc
      rcases List.mem_cons.1 hc with rfl | hc
      · decide
      · exact h1 c hc
    · intro hc
      rcases List.mem_cons.1 hc with hc | hc
      · exact absurd hc (by decide)
      · exact h2 hc

theorem digits_number {t : Str} (h : t ≠ []) (hd : ∀ c ∈ t, c.isDigit = true) : NumberText t := by
  refine ⟨fun c hc => digit_plain (hd c hc), fun hc => absurd (hd _ hc) (by decide), ?_⟩
  cases t with
  | nil => exact absurd rfl h
  | cons c tl => exact ⟨c, tl, rfl, by simp [beginsWith, hd c (by simp)]⟩

theorem int_number (n : Int) : NumberText (intText {} n) := by
  obtain ⟨h1, h2, _⟩ := numeral_digits n.natAbs
  have := signed_number (b := decide (n < 0)) (digits_number h1 h2)
  rw [int_plain]
  simpa using this

theorem double_number {bits : Nat} (hb : bits < 2 ^ 64) (hn : ¬ IsNaN bits) : NumberText (floatText {} bits) := by
  by_cases hf : IsFinite bits
  · obtain ⟨lit, x, h1, h2, _⟩ := double_plain hb hf
    obtain ⟨h3, c, tl, h4, h5⟩ := denotes_chars h2
    rw [h1]
    exact signed_number ⟨h3, denotes_noX h2, c, tl, h4, by simp [beginsWith, h5]⟩
  · rw [(double_inf hf hn).1]
    exact signed_number ⟨by decide, by decide, 'i', ['n', 'f'], rfl, by decide⟩

theorem number_kind {ty : FTy} (hk : kindOf ty = .number) {v : FVal} {text : Str} (hty : HasType v ty) (hn : NoNaN v)
    (hr : Renders Written ty v true [] text) : NumberText text := by
  cases ty with
  | core t =>
    obtain ⟨a, rfl, rfl, ha, rfl⟩ := renders_core_inv hr rfl hty
    have hn' : ∀ bits, a = .double bits → ¬ IsNaN bits := by
      cases hn with
      | core h => exact h
    cases a with
    | int t n => exact int_number n
    | double x => exact double_number ha (hn' x rfl)
    | _ => cases hk
  | range c t => cases c <;> cases hk
  | _ => cases hk

theorem pointer_kind {ty : FTy} (hk : kindOf ty = .pointer) {v : FVal} {text : Str} (hty : HasType v ty)
    (hr : Renders Written ty v true [] text) : ∃ tl, text = '0' :: 'x' :: tl ∧ ∀ c ∈ text, isDelim c = false := by
  cases ty with
  | core t =>
    obtain ⟨a, rfl, rfl, ha, rfl⟩ := renders_core_inv hr rfl hty
    cases a with
    | pointer x => exact ⟨_, ptr_plain x, ptr_plain_chars x⟩
    | _ => cases hk
  | range c t => cases c <;> cases hk
  | _ => cases hk

/-- What the text of an alternative begins with. -/
theorem kind_begins {ty : FTy} (noEntry : ∀ us, ty ≠ .tuple true us) {v : FVal} {text : Str} (hty : HasType v ty) (hn : NoNaN v)
    (hr : Renders Written ty v true [] text) : ∃ c tl, text = c :: tl ∧ beginsWith (kindOf ty) c = true := by
  cases ty with
  | core t =>
    cases t with
    | int t => exact (number_kind (ty := .core (.int t)) rfl hty hn hr).2.2
    | double => exact (number_kind (ty := .core .double) rfl hty hn hr).2.2
    | pointer =>
      obtain ⟨tl, rfl, _⟩ := pointer_kind (ty := .core .pointer) rfl hty hr
      exact ⟨_, _, rfl, by decide⟩
    | bool =>
      obtain ⟨a, rfl, hta, ha, rfl⟩ := renders_core_inv hr rfl hty
      cases a <;> simp [CoreArg.ty] at hta
      rename_i b
      cases b <;> exact ⟨_, _, rfl, by decide⟩
    | char =>
      obtain ⟨a, rfl, hta, ha, rfl⟩ := renders_core_inv hr rfl hty
      cases a <;> simp [CoreArg.ty] at hta
      rename_i c
      refine ⟨'\'', escape [c] ++ ['\''], ?_, by decide⟩
      show padded .left { type := '?' } (quoted '\'' [c]) = _
      rw [padded_alone]
      rfl
    | string =>
      obtain ⟨a, rfl, hta, ha, rfl⟩ := renders_core_inv hr rfl hty
      cases a <;> simp [CoreArg.ty] at hta
      rename_i s
      refine ⟨'"', escape s ++ ['"'], ?_, by decide⟩
      show padded .left { type := '?' } (quoted '"' s) = _
      rw [padded_alone]
      rfl
  | range curly t =>
    obtain ⟨vs, texts, rfl, _, rfl⟩ := renders_range_inv hr rfl
    exact ⟨_, _, rfl, by cases curly <;> simp [kindOf, beginsWith]⟩
  | tuple entry ts =>
    obtain ⟨vs, texts, rfl, he, rfl⟩ := renders_tuple_inv hr rfl hty hn
    cases entry with
    | true => exact absurd rfl (noEntry ts)
    | false => exact ⟨_, _, rfl, by simp [kindOf, beginsWith]⟩
  | optional t =>
    cases hr with
    | none => exact ⟨_, _, rfl, by simp [kindOf, beginsWith]⟩
    | some _ => exact ⟨_, _, rfl, by simp [kindOf, beginsWith]⟩
  | monostate =>
    cases hr
    exact ⟨_, _, rfl, by simp [kindOf, beginsWith]⟩
  | variant ts =>
    cases hr with
    | variant _ _ => exact ⟨_, _, rfl, by simp [kindOf, beginsWith]⟩
    | valueless => exact ⟨'v', _, rfl, by simp [kindOf, beginsWith]⟩

/-- Equal texts are of the same kind. -/
theorem kinds_differ {ty ty' : FTy} (ne : ∀ us, ty ≠ .tuple true us) (ne' : ∀ us, ty' ≠ .tuple true us) {v w : FVal} {t u r r' : Str}
    (hv : HasType v ty) (hw : HasType w ty') (nv : NoNaN v) (nw : NoNaN w) (rv : Renders Written ty v true [] t)
    (rw' : Renders Written ty' w true [] u) (dr : Delim r) (dr' : Delim r') (h : t ++ r = u ++ r') : kindOf ty = kindOf ty' := by
  obtain ⟨c, tl, h1, h2⟩ := kind_begins ne hv nv rv
  obtain ⟨c', tl', g1, g2⟩ := kind_begins ne' hw nw rw'
  have hc : c = c' := by rw [h1, g1] at h; exact (List.cons.inj h).1
  subst hc
  rcases beginsWith_kind h2 g2 with e | ⟨e, e'⟩ | ⟨e, e'⟩
  · exact e
  · obtain ⟨a1, a2, _⟩ := number_kind e hv nv rv
    obtain ⟨z, b1, b2⟩ := pointer_kind e' hw rw'
    have := (delim_cut a1 b2 dr dr' h).1
    rw [this, b1] at a2
    simp at a2
  · obtain ⟨a1, a2, _⟩ := number_kind e' hw nw rw'
    obtain ⟨z, b1, b2⟩ := pointer_kind e hv rv
    have := (delim_cut b2 a1 dr dr' h).1
    rw [← this, b1] at a2
    simp at a2

/-- The text of a valueless variant is not that of another one. -/
theorem valueless_differs {ty : FTy} (ne : ∀ us, ty ≠ .tuple true us) {v : FVal} {t r r' : Str} (hv : HasType v ty) (nv : NoNaN v)
    (rv : Renders Written ty v true [] t) : t ++ r ≠ "valueless by exception".toList ++ r' := by
  intro h
  obtain ⟨c, tl, h1, h2⟩ := kind_begins ne hv nv rv
  have hc : c = 'v' := by rw [h1] at h; exact (List.cons.inj h).1
  subst hc
  have hk : kindOf ty = .variant := by
    rcases beginsWith_kind h2 (k' := .variant) (by decide) with e | ⟨_, e⟩ | ⟨_, e⟩
    · exact e
    · cases e
    · cases e
  cases ty with
  | variant ts =>
    cases rv with
    | variant _ _ => simp at h
    | valueless => simp at h
  | range b _ => cases b <;> cases hk
  | core t => cases t <;> cases hk
  | _ => cases hk

theorem kind_unique {ts : List FTy} (h : (ts.map kindOf).Nodup) {t u : FTy} (ht : t ∈ ts) (hu : u ∈ ts) (e : kindOf t = kindOf u) : t = u := by
  induction ts with
  | nil => cases ht
  | cons a ts ih =>
    simp only [List.map_cons, List.nodup_cons, List.mem_map, not_exists, not_and] at h
    rcases List.mem_cons.1 ht with rfl | ht' <;> rcases List.mem_cons.1 hu with rfl | hu'
    · rfl
    · exact absurd e.symm (h.1 u hu')
    · exact absurd e (h.1 t ht')
    · exact ih h.2 ht' hu'

/-- Values are told apart. -/
theorem tells {whole q : Bool} {ty : FTy} (h : Telling whole q ty) : ∀ {v w : FVal} {t u r r' : Str}, HasType v ty → HasType w ty →
    NoNaN v → NoNaN w → Renders Written ty v q [] t → Renders Written ty w q [] u → Delim r → Delim r' → (whole = true → r = r') →
    t ++ r = u ++ r' → v = w ∧ r = r' := by
  induction h with
  | core hstr =>
    intro v w t u r r' hv hw nv nw rv rw' dr dr' hwh h
    obtain ⟨a, rfl, rfl, ha, rfl⟩ := renders_core_inv rv rfl hv
    obtain ⟨b, rfl, hb1, hb, rfl⟩ := renders_core_inv rw' rfl hw
    have na : ∀ bits, a = .double bits → ¬ IsNaN bits := by
      cases nv with
      | core h => exact h
    have nb : ∀ bits, b = .double bits → ¬ IsNaN bits := by
      cases nw with
      | core h => exact h
    rw [← hb1] at h
    rw [hb1] at h
    obtain ⟨rfl, e⟩ := core_tells hb1.symm ha hb hstr na nb dr dr' hwh (by rw [hb1]; exact h)
    exact ⟨rfl, e⟩
  | range each ih =>
    rename_i curly ty
    intro v w t u r r' hv hw nv nw rv rw' dr dr' hwh h
    obtain ⟨vs, ts, rfl, h1, rfl⟩ := renders_range_inv rv rfl
    obtain ⟨ws, us, rfl, h2, rfl⟩ := renders_range_inv rw' rfl
    have tv : ∀ v ∈ vs, HasType v ty := by cases hv with | range h => exact h
    have tw : ∀ v ∈ ws, HasType v ty := by cases hw with | range h => exact h
    have nv' : ∀ v ∈ vs, NoNaN v := by cases nv with | range h => exact h
    have nw' : ∀ v ∈ ws, NoNaN v := by cases nw with | range h => exact h
    have comb : ∀ {vs : List FVal} {ts : List Str}, (∀ v ∈ vs, HasType v ty) → (∀ v ∈ vs, NoNaN v) →
        List.Forall₂ (fun v text => Renders Written ty v true [] text) vs ts →
        List.Forall₂ (fun v text => HasType v ty ∧ NoNaN v ∧ Renders Written ty v true [] text) vs ts := by
      intro vs ts a b c
      induction c with
      | nil => exact .nil
      | cons h _ ih => exact .cons ⟨a _ (by simp), b _ (by simp), h⟩ (ih (fun v hv => a v (by simp [hv])) (fun v hv => b v (by simp [hv])))
    have := list_tells (cl := if curly then '}' else ']') (by cases curly <;> decide) (by cases curly <;> decide)
      (fun v w t u r r' h1 h2 d d' h => ih h1.1 h2.1 h1.2.1 h2.2.1 h1.2.2 h2.2.2 d d' (by simp) h)
      (fun v t h => renders_head each rfl h.1 h.2.1 h.2.2) (comb tv nv' h1) (comb tw nw' h2) r r'
      (by simpa using h)
    exact ⟨by rw [this.1], this.2⟩
  | tuple each _ ih =>
    rename_i e _ _
    intro v w t u r r' hv hw nv nw rv rw' dr dr' hwh h
    obtain ⟨vs, xs, rfl, h1, rfl⟩ := renders_tuple_inv rv rfl hv nv
    obtain ⟨ws, ys, rfl, h2, rfl⟩ := renders_tuple_inv rw' rfl hw nw
    have uniq := fun t ht v w x y r r' (h1 : HasType v t ∧ NoNaN v ∧ Renders Written t v true [] x)
        (h2 : HasType w t ∧ NoNaN w ∧ Renders Written t w true [] y) d d' h =>
      ih t ht (r := r) (r' := r') h1.1 h2.1 h1.2.1 h2.2.1 h1.2.2 h2.2.2 d d' (by simp) h
    cases e with
    | true =>
      have := tuple_tells (s0 := ':') (sep := [' ']) (by decide) h1 h2 uniq r r' dr dr' h
      exact ⟨by rw [this.1], this.2⟩
    | false =>
      have dcl : ∀ x : Str, Delim (')' :: x) := fun x c hc => by simp at hc; subst hc; decide
      have := tuple_tells (s0 := ',') (sep := [' ']) (by decide) h1 h2 uniq (')' :: r) (')' :: r') (dcl r) (dcl r') (by simpa using h)
      exact ⟨by rw [this.1], (List.cons.inj this.2).2⟩
  | optional content ih =>
    intro v w t u r r' hv hw nv nw rv rw' dr dr' hwh h
    have dcl : ∀ x : Str, Delim (')' :: x) := fun x c hc => by simp at hc; subst hc; decide
    cases rv with
    | none =>
      cases rw' with
      | none => exact ⟨rfl, List.append_cancel_left h⟩
      | some c => simp at h
    | some c =>
      cases rw' with
      | none => simp at h
      | some c' =>
        cases hv with
        | some hv =>
          cases hw with
          | some hw =>
            cases nv with
            | some nv =>
              cases nw with
              | some nw =>
                have := ih (r := ')' :: r) (r' := ')' :: r') hv hw nv nw c c' (dcl r) (dcl r') (fun e => by rw [hwh e])
                  (by simpa using h)
                exact ⟨by rw [this.1], (List.cons.inj this.2).2⟩
  | monostate =>
    intro v w t u r r' hv hw nv nw rv rw' dr dr' hwh h
    cases rv
    cases rw'
    exact ⟨rfl, List.append_cancel_left h⟩
  | variant each different noEntry ih =>
    intro v w t u r r' hv hw nv nw rv rw' dr dr' hwh h
    have dcl : ∀ x : Str, Delim (')' :: x) := fun x c hc => by simp at hc; subst hc; decide
    cases rv with
    | variant mem c =>
      cases hv with
      | variant _ hv =>
        cases nv with
        | variant nv =>
          cases rw' with
          | variant mem' c' =>
            cases hw with
            | variant _ hw =>
              cases nw with
              | variant nw =>
                have h' := List.append_cancel_left (by simpa only [List.append_assoc] using h)
                have hk := kind_unique different mem mem'
                  (kinds_differ (noEntry _ mem) (noEntry _ mem') hv hw nv nw c c' (dcl r) (dcl r') h')
                subst hk
                have := ih _ mem (r := ')' :: r) (r' := ')' :: r') hv hw nv nw c c' (dcl r) (dcl r') (by simp) h'
                exact ⟨by rw [this.1], (List.cons.inj this.2).2⟩
          | valueless =>
            exact absurd (List.append_cancel_left (as := "variant(".toList) (by simpa using h))
              (valueless_differs (r := ')' :: r) (r' := ')' :: r') (noEntry _ mem) hv nv c)
    | valueless =>
      cases rw' with
      | variant mem' c' =>
        cases hw with
        | variant _ hw =>
          cases nw with
          | variant nw =>
            exact absurd (List.append_cancel_left (as := "variant(".toList) (by simpa using h.symm))
              (valueless_differs (r := ')' :: r') (r' := ')' :: r) (noEntry _ mem') hw nw c')
      | valueless => exact ⟨rfl, List.append_cancel_left h⟩

end Emio
