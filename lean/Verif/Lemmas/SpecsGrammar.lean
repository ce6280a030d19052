import Verif.Lemmas.SpecsAgree
import Verif.Props.ParseInt
import Verif.Spec.WideNumbers
/-
The steps of `validate_format_specs` and the grammar of format specifications.

`u` is the reader before the character handed to a step was read.
-/
namespace Emio
open Reader Spec

/-! ### Forwards -/

variable {u : Reader} {s : Specs} {c d : Char} {l : Str}

theorem align_fill (h : u.At (c :: d :: l)) {e : Char} {l' : Str} (hl : l = e :: l') (hd : isAlignChar d = true) :
    Validate.align s c (u.adv 1) = .ok ((u.adv 2).adv 1) ({ s with align := alignOf d, fill := c }, e) := by
  subst hl
  unfold Validate.align
  rw [M.bind_ok h.adv1.peek, if_pos hd, M.bind_ok (M.modify_run _ _), h.adv1.pop1, M.bind_ok h.adv1.adv1.readChar]
  rfl

theorem align_only (h : u.At (c :: d :: l)) (hd : isAlignChar d = false) (hc : isAlignChar c = true) :
    Validate.align s c (u.adv 1) = .ok ((u.adv 1).adv 1) ({ s with align := alignOf c }, d) := by
  unfold Validate.align
  rw [M.bind_ok h.adv1.peek, if_neg (by simp [hd]), if_pos hc, M.bind_ok h.adv1.readChar]
  rfl

theorem align_none (h : u.At (c :: d :: l)) (hd : isAlignChar d = false) (hc : isAlignChar c = false) :
    Validate.align s c (u.adv 1) = .ok (u.adv 1) (s, c) := by
  unfold Validate.align
  rw [M.bind_ok h.adv1.peek, if_neg (by simp [hd]), if_neg (by simp [hc])]
  rfl

theorem sign_some (h : u.At (c :: d :: l)) (hc : isSignChar c = true) :
    Validate.sign s c (u.adv 1) = .ok ((u.adv 1).adv 1) ({ s with sign := c }, d) := by
  unfold Validate.sign
  rw [if_pos hc, M.bind_ok h.adv1.readChar]
  rfl

theorem sign_none (hc : isSignChar c = false) (r : Reader) : Validate.sign s c r = .ok r (s, c) := by
  unfold Validate.sign
  rw [if_neg (by simp [hc])]
  rfl

theorem alternate_some (h : u.At ('#' :: d :: l)) :
    Validate.alternate s '#' (u.adv 1) = .ok ((u.adv 1).adv 1) ({ s with alternateForm := true }, d) := by
  unfold Validate.alternate
  rw [if_pos rfl, M.bind_ok h.adv1.readChar]
  rfl

theorem alternate_none (hc : c ≠ '#') (r : Reader) : Validate.alternate s c r = .ok r (s, c) := by
  unfold Validate.alternate
  rw [if_neg hc]
  rfl

theorem zero_some (h : u.At ('0' :: d :: l)) :
    Validate.zero s '0' (u.adv 1) = .ok ((u.adv 1).adv 1)
      (if s.align = .none then { s with fill := '0', align := .right, zeroFlag := true } else s, d) := by
  unfold Validate.zero
  rw [if_pos rfl, M.bind_ok h.adv1.readChar]
  rfl

theorem zero_none (hc : c ≠ '0') (r : Reader) : Validate.zero s c r = .ok r (s, c) := by
  unfold Validate.zero
  rw [if_neg hc]
  rfl

theorem width_none (hc : isDigit c = false) (r : Reader) : Validate.width s c r = .ok r (s, c) := by
  unfold Validate.width
  rw [if_neg (by simp [hc])]
  rfl

/-- Reading a number as `uint32_t`. -/
theorem parse_wide {r : Reader} {ds tail : Str} (h : r.At (ds ++ tail)) (hd : Digits ds) (htail : NoDigit tail) :
    (WrapsDown (2 ^ 32) 10 ds → Reader.parseInt u32 10 r = .err r .outOfRange) ∧
    (¬ WrapsDown (2 ^ 32) 10 ds →
      Reader.parseInt u32 10 r = .ok (r.adv ds.length) ((numeralValue 10 ds % 2 ^ 32 : Nat) : Int)) := by
  have := C01_parse_int_wide_unsigned u32 (Or.inl rfl) 10 r .none ds tail (by omega) (by omega) h.1 h.2 hd.isNumeral
    htail.next (by simp)
  rw [show ((10 : Nat) : Int) = 10 from rfl] at this
  rw [this]
  refine ⟨fun hw => if_pos (Or.inr hw), fun hw => ?_⟩
  rw [if_neg (by simp; exact hw)]
  simp [Sign.text, Reader.adv]

theorem width_some {ds : Str} (h : u.At (ds ++ d :: l)) (hds : Digits ds) (hc : ds.head? = some c)
    (hd : isDigit d = false) (hfit : Passes ds) :
    Validate.width s c (u.adv 1) =
      .ok ((u.adv ds.length).adv 1) ({ s with width := ((numeralValue 10 ds % 2 ^ 32 : Nat) : Int) }, d) := by
  have hcd : isDigit c = true := hds.2 c (List.mem_of_head? hc)
  unfold Validate.width
  rw [if_pos hcd, M.bind_ok (M.modify_run _ _)]
  have := hfit.2
  rw [h.unpop, M.bind_ok ((parse_wide h hds (noDigit_cons hd)).2 hfit.1), if_neg (by unfold int32Max; omega),
    M.bind_ok h.adv.readChar]
  rfl

theorem precision_none (hc : c ≠ '.') (r : Reader) : Validate.precision s c r = .ok r (s, c) := by
  unfold Validate.precision
  rw [if_neg hc]
  rfl

theorem noDigitNext_eq {r : Reader} (h : r.At (c :: l)) : Validate.noDigitNext r = !isDigit c := by
  unfold Validate.noDigitNext
  rw [h.peek]

theorem precision_some {ds : Str} (h : u.At ('.' :: (ds ++ d :: l))) (hds : Digits ds)
    (hd : isDigit d = false) (hfit : Passes ds) :
    Validate.precision s '.' (u.adv 1) =
      .ok ((u.adv (ds.length + 1)).adv 1) ({ s with precision := ((numeralValue 10 ds % 2 ^ 32 : Nat) : Int) }, d) := by
  obtain ⟨a, as, rfl⟩ := List.exists_cons_of_ne_nil hds.1
  have ha : isDigit a = true := hds.2 a (by simp)
  unfold Validate.precision
  rw [if_pos rfl, M.bind_ok (M.get_run _), noDigitNext_eq h.adv1, ha, if_neg (by simp)]
  have := hfit.2
  rw [M.bind_ok ((parse_wide h.adv1 hds (noDigit_cons hd)).2 hfit.1), if_neg (by unfold int32Max; omega),
    M.bind_ok h.adv1.adv.readChar]
  simp [Reader.adv_adv, Nat.add_comm]

theorem type_none (hc : isAlpha c = false) (hq : c ≠ '?') (r : Reader) : Validate.type s c r = .ok r (s, c) := by
  unfold Validate.type
  rw [if_neg (by simp [hc, hq])]
  rfl

theorem type_some (h : u.At (c :: d :: l)) (hc : isAlpha c = true ∨ c = '?') :
    Validate.type s c (u.adv 1) = .ok ((u.adv 1).adv 1) ({ s with type := c }, d) := by
  unfold Validate.type
  rw [if_pos (by simpa using hc), M.bind_ok h.adv1.readChar]
  rfl

/-! ### Backwards -/

/-- What a step leaves behind: a prefix of the text is consumed, one character more is read. -/
def StepTo (u : Reader) (c : Char) (l : Str) (r' : Reader) (c' : Char) (seg : Str) : Prop :=
  ∃ l', c :: l = seg ++ c' :: l' ∧ r' = (u.adv seg.length).adv 1

theorem stepTo_nil (u : Reader) (c : Char) (l : Str) : StepTo u c l (u.adv 1) c [] := ⟨l, rfl, rfl⟩

variable {r' : Reader} {s' : Specs} {c' : Char}

theorem readChar_at {r : Reader} (h : r.At l) (hr : readChar r = .ok r' c') : ∃ l', l = c' :: l' ∧ r' = r.adv 1 := by
  have := readChar_ok_inv h.1 hr
  exact ⟨_, h.unique this.1, this.2.1⟩

theorem align_inv (h : u.At (c :: l)) (hv : Validate.align s c (u.adv 1) = .ok r' (s', c')) :
    (∃ d, isAlignChar d = true ∧ s' = { s with align := alignOf d, fill := c } ∧ StepTo u c l r' c' [c, d]) ∨
    (isAlignChar c = true ∧ s' = { s with align := alignOf c } ∧ StepTo u c l r' c' [c]) ∨
    (isAlignChar c = false ∧ s' = s ∧ StepTo u c l r' c' []) := by
  unfold Validate.align at hv
  obtain ⟨r1, c2, h1, hv'⟩ := bind_ok_inv hv
  clear hv
  obtain ⟨hr1, l1, hl⟩ := peek_ok_inv h.adv1.1 h1
  subst hr1
  obtain rfl := h.adv1.unique hl
  split at hv'
  · rename_i hc2
    left
    obtain ⟨r2, x, h2, hv⟩ := bind_ok_inv hv'
    rw [M.modify_run] at h2
    obtain ⟨rfl, _⟩ := ok_inj h2
    obtain ⟨r3, c3, h3, hv⟩ := bind_ok_inv hv
    rw [hl.pop1] at h3
    obtain ⟨l', rfl, rfl⟩ := readChar_at hl.adv1 h3
    rw [M.pure_run] at hv
    obtain ⟨rfl, hh⟩ := ok_inj hv
    cases hh
    exact ⟨c2, hc2, rfl, l', rfl, rfl⟩
  · right
    split at hv'
    · rename_i hc
      left
      obtain ⟨r3, c3, h3, hv⟩ := bind_ok_inv hv'
      obtain ⟨l', hl', rfl⟩ := readChar_at hl h3
      rw [M.pure_run] at hv
      obtain ⟨rfl, hh⟩ := ok_inj hv
      cases hh
      exact ⟨hc, rfl, l', by rw [hl']; rfl, rfl⟩
    · rename_i hc
      right
      rw [M.pure_run] at hv'
      obtain ⟨rfl, hh⟩ := ok_inj hv'
      cases hh
      exact ⟨by simpa using hc, rfl, stepTo_nil ..⟩

theorem sign_inv (h : u.At (c :: l)) (hv : Validate.sign s c (u.adv 1) = .ok r' (s', c')) :
    (isSignChar c = true ∧ s' = { s with sign := c } ∧ StepTo u c l r' c' [c]) ∨
    (isSignChar c = false ∧ s' = s ∧ StepTo u c l r' c' []) := by
  unfold Validate.sign at hv
  split at hv
  · rename_i hc
    left
    obtain ⟨r3, c3, h3, hv⟩ := bind_ok_inv hv
    obtain ⟨l', hl', rfl⟩ := readChar_at h.adv1 h3
    rw [M.pure_run] at hv
    obtain ⟨rfl, hh⟩ := ok_inj hv
    cases hh
    exact ⟨hc, rfl, l', by rw [hl']; rfl, rfl⟩
  · rename_i hc
    right
    rw [M.pure_run] at hv
    obtain ⟨rfl, hh⟩ := ok_inj hv
    cases hh
    exact ⟨by simpa using hc, rfl, stepTo_nil ..⟩

theorem alternate_inv (h : u.At (c :: l)) (hv : Validate.alternate s c (u.adv 1) = .ok r' (s', c')) :
    (c = '#' ∧ s' = { s with alternateForm := true } ∧ StepTo u c l r' c' [c]) ∨
    (c ≠ '#' ∧ s' = s ∧ StepTo u c l r' c' []) := by
  unfold Validate.alternate at hv
  split at hv
  · rename_i hc
    left
    obtain ⟨r3, c3, h3, hv⟩ := bind_ok_inv hv
    obtain ⟨l', hl', rfl⟩ := readChar_at h.adv1 h3
    rw [M.pure_run] at hv
    obtain ⟨rfl, hh⟩ := ok_inj hv
    cases hh
    exact ⟨hc, rfl, l', by rw [hl']; rfl, rfl⟩
  · rename_i hc
    right
    rw [M.pure_run] at hv
    obtain ⟨rfl, hh⟩ := ok_inj hv
    cases hh
    exact ⟨by simpa using hc, rfl, stepTo_nil ..⟩

theorem zero_inv (h : u.At (c :: l)) (hv : Validate.zero s c (u.adv 1) = .ok r' (s', c')) :
    (c = '0' ∧ s' = (if s.align = .none then { s with fill := '0', align := .right, zeroFlag := true } else s) ∧
      StepTo u c l r' c' [c]) ∨
    (c ≠ '0' ∧ s' = s ∧ StepTo u c l r' c' []) := by
  unfold Validate.zero at hv
  split at hv
  · rename_i hc
    left
    obtain ⟨r3, c3, h3, hv⟩ := bind_ok_inv hv
    obtain ⟨l', hl', rfl⟩ := readChar_at h.adv1 h3
    rw [M.pure_run] at hv
    obtain ⟨rfl, hh⟩ := ok_inj hv
    obtain ⟨rfl, rfl⟩ := Prod.mk.inj hh
    exact ⟨hc, rfl, l', by rw [hl']; rfl, rfl⟩
  · rename_i hc
    right
    rw [M.pure_run] at hv
    obtain ⟨rfl, hh⟩ := ok_inj hv
    cases hh
    exact ⟨by simpa using hc, rfl, stepTo_nil ..⟩

theorem numeral_fit {ds : Str} {r r1 : Reader} {v : Int} {tail : Str} (h : r.At (ds ++ tail)) (hds : Digits ds)
    (htail : NoDigit tail) (hp : parseInt u32 10 r = .ok r1 v) (hfit : numeralValue 10 ds < 2 ^ 31) :
    v = numeralValue 10 ds := by
  rw [parse_decimal u32 (by decide) h hds htail ⟨(by have : u32.min = 0 := (by decide); omega), by
    have : u32.max = 4294967295 := by decide
    omega⟩] at hp
  exact (ok_inj hp).2.symm

theorem width_inv (h : u.At (c :: l)) (hv : Validate.width s c (u.adv 1) = .ok r' (s', c')) :
    (∃ ds w, Digits ds ∧ ds.head? = some c ∧ StepTo u c l r' c' ds ∧ s' = { s with width := w } ∧
      isDigit c' = false ∧ (0 ≤ w ∧ w ≤ int32Max) ∧ (numeralValue 10 ds < 2 ^ 31 → w = numeralValue 10 ds)) ∨
    (isDigit c = false ∧ s' = s ∧ StepTo u c l r' c' []) := by
  unfold Validate.width at hv
  split at hv
  · rename_i hc
    left
    obtain ⟨r1, x, h1, hv⟩ := bind_ok_inv hv
    rw [M.modify_run, h.unpop] at h1
    obtain ⟨rfl, _⟩ := ok_inj h1
    obtain ⟨r2, w, h2, hv⟩ := bind_ok_inv hv
    obtain ⟨ds, tail, hl, hds, htail, rfl⟩ := parse_decimal_inv u32 h hc h2
    have h0 := parseInt_nonneg h.1 h2
    split at hv
    · simp at hv
    · rename_i hle
      rw [hl] at h
      obtain ⟨r3, c3, h3, hv⟩ := bind_ok_inv hv
      obtain ⟨l', rfl, rfl⟩ := readChar_at h.adv h3
      rw [M.pure_run] at hv
      obtain ⟨rfl, hh⟩ := ok_inj hv
      cases hh
      refine ⟨ds, w, hds, ?_, ⟨l', hl, rfl⟩, rfl, htail c' rfl, ⟨h0, by omega⟩, numeral_fit h hds htail h2⟩
      obtain ⟨a, as, rfl⟩ := List.exists_cons_of_ne_nil hds.1
      simp at hl
      simp [hl.1]
  · rename_i hc
    right
    rw [M.pure_run] at hv
    obtain ⟨rfl, hh⟩ := ok_inj hv
    cases hh
    exact ⟨by simpa using hc, rfl, stepTo_nil ..⟩

theorem precision_inv (h : u.At (c :: l)) (hv : Validate.precision s c (u.adv 1) = .ok r' (s', c')) :
    (∃ ds p, c = '.' ∧ Digits ds ∧ StepTo u c l r' c' ('.' :: ds) ∧ s' = { s with precision := p } ∧
      isDigit c' = false ∧ (0 ≤ p ∧ p ≤ int32Max) ∧ (numeralValue 10 ds < 2 ^ 31 → p = numeralValue 10 ds)) ∨
    (c ≠ '.' ∧ s' = s ∧ StepTo u c l r' c' []) := by
  unfold Validate.precision at hv
  split at hv
  · rename_i hc
    subst hc
    left
    obtain ⟨r1, x, h1, hv⟩ := bind_ok_inv hv
    rw [M.get_run] at h1
    obtain ⟨rfl, rfl⟩ := ok_inj h1
    split at hv
    · simp at hv
    · rename_i hnd
      obtain ⟨r2, w, h2, hv⟩ := bind_ok_inv hv
      have hne : l ≠ [] := by
        rintro rfl
        have := parseInt_eof u32 10 (by decide) (by decide) (u.adv 1) h.adv1.1 .none h.adv1.2
        rw [show ((10 : Nat) : Int) = 10 from rfl] at this
        rw [this] at h2
        simp at h2
      obtain ⟨a, as, rfl⟩ := List.exists_cons_of_ne_nil hne
      rw [noDigitNext_eq h.adv1] at hnd
      obtain ⟨ds, tail, hl, hds, htail, rfl⟩ := parse_decimal_inv u32 h.adv1 (by simpa using hnd) h2
      have h0 := parseInt_nonneg h.adv1.1 h2
      split at hv
      · simp at hv
      · rename_i hle
        rw [hl] at h
        obtain ⟨r3, c3, h3, hv⟩ := bind_ok_inv hv
        obtain ⟨l', rfl, rfl⟩ := readChar_at h.adv1.adv h3
        rw [M.pure_run] at hv
        obtain ⟨rfl, hh⟩ := ok_inj hv
        cases hh
        refine ⟨ds, w, rfl, hds, ⟨l', by rw [hl]; rfl, ?_⟩, rfl, htail c' rfl, ⟨h0, by omega⟩, numeral_fit h.adv1 hds htail h2⟩
        simp [Reader.adv_adv, Nat.add_comm]
  · rename_i hc
    right
    rw [M.pure_run] at hv
    obtain ⟨rfl, hh⟩ := ok_inj hv
    cases hh
    exact ⟨by simpa using hc, rfl, stepTo_nil ..⟩

theorem type_inv (h : u.At (c :: l)) (hv : Validate.type s c (u.adv 1) = .ok r' (s', c')) :
    ((isAlpha c = true ∨ c = '?') ∧ s' = { s with type := c } ∧ StepTo u c l r' c' [c]) ∨
    (s' = s ∧ StepTo u c l r' c' []) := by
  unfold Validate.type at hv
  split at hv
  · rename_i hc
    left
    obtain ⟨r3, c3, h3, hv⟩ := bind_ok_inv hv
    obtain ⟨l', hl', rfl⟩ := readChar_at h.adv1 h3
    rw [M.pure_run] at hv
    obtain ⟨rfl, hh⟩ := ok_inj hv
    cases hh
    exact ⟨by simpa using hc, rfl, l', by rw [hl']; rfl, rfl⟩
  · rename_i hc
    right
    rw [M.pure_run] at hv
    obtain ⟨rfl, hh⟩ := ok_inj hv
    cases hh
    exact ⟨rfl, stepTo_nil ..⟩

end Emio
