import Verif.Spec.WrittenOut
import Verif.Props.Sizes
import Verif.Props.Columns
import Verif.Props.Float
/-
Property C88: leaving out a part of a specification means the usual.
-/
namespace Emio
open Spec

/-! ### What the parts are used for -/

theorem writePadded_congr {d : Align} {s s' : Specs} (hw : s'.width = s.width) (hf : s'.fill = s.fill)
    (ha : (if s'.align = .none then d else s'.align) = (if s.align = .none then d else s.align)) (w : Nat) (f : Fmt Unit) :
    writePadded d s w f = writePadded d s' w f := by
  have key : ∀ s : Specs, writePadded d s w f =
      writePadded d { width := s.width, fill := s.fill, align := if s.align = .none then d else s.align } w f := by
    intro s
    unfold writePadded writePaddingLeft writePaddingRight
    by_cases h : s.align = .none
    · simp only [h, if_true]
      by_cases hd : d = .none
      · simp [hd]
      · simp [hd]
    · simp [h]
  rw [key s, key s', hw, hf, ha]

/-- The signs ask for the same. -/
def SameSign (s s' : Specs) : Prop := s'.sign = s.sign ∨ (s.sign = noChar ∧ s'.sign = '-')

theorem sign_congr {s s' : Specs} (hs : SameSign s s') (hz : s'.zeroFlag = s.zeroFlag) (b : Bool) :
    tryWriteSign s b = tryWriteSign s' b := by
  unfold tryWriteSign
  rw [hz]
  rcases hs with h | ⟨h, h'⟩
  · rw [h]
  · rw [h, h']
    cases b <;> simp [noChar]

theorem hasSign_congr {s s' : Specs} (hs : SameSign s s') (b : Bool) :
    (b || s'.sign == ' ' || s'.sign == '+') = (b || s.sign == ' ' || s.sign == '+') := by
  rcases hs with h | ⟨h, h'⟩
  · rw [h]
  · rw [h, h']
    cases b <;> decide

theorem prefix_congr {s s' : Specs} (ha : s'.alternateForm = s.alternateForm) (hz : s'.zeroFlag = s.zeroFlag) (p : Str) :
    tryWritePrefix s p = tryWritePrefix s' p := by
  unfold tryWritePrefix
  rw [ha, hz]

/-- The specifications differ in what is written out only. -/
structure WrittenAlike (d : Align) (s s' : Specs) : Prop where
  width : s'.width = s.width
  fill : s'.fill = s.fill
  alt : s'.alternateForm = s.alternateForm
  zero : s'.zeroFlag = s.zeroFlag
  sign : SameSign s s'
  align : (if s'.align = .none then d else s'.align) = (if s.align = .none then d else s.align)

theorem WrittenAlike.padded {d : Align} {s s' : Specs} (h : WrittenAlike d s s') (w : Nat) (f : Fmt Unit) : writePadded d s w f = writePadded d s' w f :=
  writePadded_congr h.width h.fill h.align w f

theorem int_congr {s s' : Specs} (h : WrittenAlike (if s.type = 'c' then .left else .right) s s')
    (ht : s'.type = s.type ∨ (s.type = noChar ∧ s'.type = 'd')) (t : IntTy) (n : Int) : writeArgInt s t n = writeArgInt s' t n := by
  have hc : s'.type = 'c' ↔ s.type = 'c' := by
    rcases ht with h | ⟨h, h'⟩
    · rw [h]
    · rw [h, h']; decide
  have ho : s'.type = 'o' ↔ s.type = 'o' := by
    rcases ht with h | ⟨h, h'⟩
    · rw [h]
    · rw [h, h']; decide
  have hm : makeWriteIntOptions s.type = makeWriteIntOptions s'.type := by
    rcases ht with h | ⟨h, h'⟩
    · rw [h]
    · rw [h, h']; rfl
  unfold writeArgInt
  by_cases hcc : s.type = 'c'
  · rw [if_pos hcc] at h
    rw [if_pos hcc, if_pos (hc.2 hcc)]
    exact h.padded _ _
  · rw [if_neg hcc] at h
    rw [if_neg hcc, if_neg (fun e => hcc (hc.1 e)), hm]
    simp only [ho, sign_congr h.sign h.zero, prefix_congr h.alt h.zero, hasSign_congr h.sign, h.alt, h.padded]

theorem fp_congr {s s' : Specs} (ha : s'.alternateForm = s.alternateForm) (ht : s'.type = s.type)
    (hp : s'.precision = s.precision ∨ (s.precision = -1 ∧ s.type ≠ noChar ∧ s'.precision = 6)) :
    parseFpSpecs s = parseFpSpecs s' := by
  unfold parseFpSpecs
  rcases hp with h | ⟨h1, h2, h3⟩
  · rw [h, ht, ha]
  · rw [h1, h3, ht, ha]
    simp [h2, toInt16]

theorem double_congr {s s' : Specs} (h : WrittenAlike .right s s') (ht : s'.type = s.type)
    (hp : s'.precision = s.precision ∨ (s.precision = -1 ∧ s.type ≠ noChar ∧ s'.precision = 6)) {dec : Decoded}
    (hl : dec.category = .infinity ∨ dec.category = .nan → WrittenAlike .left s s') :
    formatAndWriteDecimal s dec = formatAndWriteDecimal s' dec := by
  have hfp := fp_congr h.alt ht hp
  unfold formatAndWriteDecimal
  rw [← hfp]
  simp only
  split
  · rename_i hn
    have hl := hl hn
    have hz : WrittenAlike .left (if s.zeroFlag = true then { s with fill := ' ', zeroFlag := false } else s)
        (if s'.zeroFlag = true then { s' with fill := ' ', zeroFlag := false } else s') := by
      rw [h.zero]
      split
      · exact ⟨hl.width, rfl, hl.alt, rfl, hl.sign, hl.align⟩
      · exact hl
    rw [sign_congr hz.sign hz.zero]
    simp only [hz.padded]
  · congr 1
    funext x
    obtain ⟨digits, exp⟩ := x
    simp only
    unfold writeDecimalFp
    simp only [hasSign_congr h.sign, sign_congr h.sign h.zero]
    congr 1
    funext sg
    have hlay : ∀ size x, fixedLayout s (parseFpSpecs s) size x = fixedLayout s' (parseFpSpecs s) size x := by
      intro size x
      unfold fixedLayout
      rw [h.alt]
    unfold writeDecimalExp writeDecimalFixed
    simp only [h.padded, hlay]

/-! ### What is written out -/

theorem value_dropZeros (ds : Str) : numeralValue 10 (ds.dropWhile (· == '0')) = numeralValue 10 ds := by
  induction ds with
  | nil => rfl
  | cons c ds ih =>
    rw [List.dropWhile_cons]
    split
    · rename_i h
      rw [ih, beq_iff_eq.1 h]
      exact (value_zeros_append 10 (by decide) 1 ds).symm
    · rfl

theorem writtenOut_width (ty : CoreTy) (t : SpecText) : (t.writtenOut ty).widthValue = t.widthValue := by
  unfold SpecText.writtenOut SpecText.widthValue
  simp only
  split
  · exact value_dropZeros _
  · rfl

theorem usualSign_cases (ty : CoreTy) (o : Option Char) : usualSign ty o = none ∨ usualSign ty o = some '-' := by
  unfold usualSign
  split <;> first | (split_ifs <;> simp) | simp

theorem usualAlign_cases (ty : CoreTy) (o : Option Char) : usualAlign ty o = '<' ∨ usualAlign ty o = '>' := by
  unfold usualAlign
  split <;> first | (split_ifs <;> simp) | simp

theorem alignment_usual {ty : CoreTy} {o : Option Char} {d : Align} (h : SpecText.alignment (some (usualAlign ty o)) = d) : d ≠ .none := by
  rcases usualAlign_cases ty o with e | e <;> rw [e] at h <;> subst h <;> decide

theorem writtenOut_alike {ty : CoreTy} {t : SpecText} {d : Align}
    (hd : t.align = none → t.zero = false → SpecText.alignment (some (usualAlign ty t.type)) = d) :
    WrittenAlike d t.meaning (t.writtenOut ty).meaning := by
  refine ⟨?_, ?_, rfl, ?_, ?_, ?_⟩
  · exact congrArg Int.ofNat (writtenOut_width ty t)
  · unfold SpecText.meaning SpecText.writtenOut
    cases ha : t.align <;> cases hz : t.zero <;> simp
  · unfold SpecText.meaning SpecText.writtenOut
    cases ha : t.align <;> cases hz : t.zero <;> simp
  · unfold SameSign SpecText.meaning SpecText.writtenOut
    cases hs : t.sign with
    | some c => left; rfl
    | none =>
      rcases usualSign_cases ty t.type with h | h
      · left; simp [h]
      · right; simp [h]; rfl
  · unfold SpecText.meaning SpecText.writtenOut
    cases ha : t.align with
    | some c => simp
    | none =>
      cases hz : t.zero with
      | true => simp
      | false =>
        have h := hd ha hz
        have hn := alignment_usual h
        simp [h, hn]

theorem writtenOut_type (ty : CoreTy) (t : SpecText) : (t.writtenOut ty).type = t.type ∨ (t.type = none ∧ (t.writtenOut ty).type = usualType ty) := by
  unfold SpecText.writtenOut
  cases h : t.type with
  | some c => left; rfl
  | none => right; exact ⟨rfl, rfl⟩

theorem writtenOut_meaning_type (ty : CoreTy) (t : SpecText) :
    (t.writtenOut ty).meaning.type = t.meaning.type ∨
      (t.meaning.type = noChar ∧ (t.writtenOut ty).meaning.type = (usualType ty).getD noChar) := by
  rcases writtenOut_type ty t with h | ⟨h, h'⟩
  · left; show (t.writtenOut ty).type.getD _ = t.type.getD _; rw [h]
  · right
    exact ⟨by show t.type.getD _ = _; rw [h]; rfl, by show (t.writtenOut ty).type.getD _ = _; rw [h']; rfl⟩

theorem writtenOut_wellFormed {ty : CoreTy} {t : SpecText} (wf : t.WellFormed) : (t.writtenOut ty).WellFormed := by
  refine ⟨?_, ?_, ?_, ?_, ?_, ?_, ?_⟩
  · intro c hc
    unfold SpecText.writtenOut at hc ⊢
    cases ha : t.align with
    | some a =>
      simp only [ha, Option.isSome_some, if_true, Option.mem_def, Option.some.injEq] at hc ⊢
      subst hc
      cases hf : t.fill with
      | none => simp
      | some f => simpa using (wf.fill f hf).2
    | none =>
      cases hz : t.zero <;> simp [ha, hz] at hc ⊢
      subst hc
      decide
  · intro c hc
    unfold SpecText.writtenOut at hc
    cases ha : t.align with
    | some a =>
      simp only [ha, Option.isSome_some, if_true] at hc
      exact wf.align c (by rw [ha]; exact hc)
    | none =>
      cases hz : t.zero <;> simp [ha, hz] at hc
      subst hc
      rcases usualAlign_cases ty t.type with e | e <;> rw [e] <;> simp
  · intro c hc
    unfold SpecText.writtenOut at hc
    cases hs : t.sign with
    | some a => exact wf.sign c (by rw [hs]; simpa [hs] using hc)
    | none =>
      simp only [hs, Option.orElse_none] at hc
      rcases usualSign_cases ty t.type with h | h <;> rw [h] at hc <;> simp at hc
      subst hc
      simp
  · intro c hc
    unfold SpecText.writtenOut at hc
    simp only at hc
    split at hc
    · exact wf.width c ((List.dropWhile_suffix _).subset hc)
    · exact wf.width c hc
  · unfold SpecText.writtenOut
    simp only
    cases ha : t.align with
    | some a =>
      intro _
      simp only [Option.isSome_some, if_true]
      intro h
      have := List.head?_dropWhile_not (fun c => c == '0') t.width
      rw [h] at this
      simp at this
    | none => simpa using wf.widthHead
  · intro p hp
    unfold SpecText.writtenOut at hp
    cases h : t.prec with
    | some q => exact wf.prec p (by rw [h]; simpa [h] using hp)
    | none =>
      simp only [h, Option.orElse_none] at hp
      unfold usualPrecision at hp
      split at hp <;> simp at hp
      subst hp
      decide
  · intro c hc
    rcases writtenOut_type ty t with h | ⟨_, h⟩
    · exact wf.type c (h ▸ hc)
    · rw [h] at hc
      cases ty <;> simp [usualType] at hc <;> subst hc <;> decide

theorem writtenOut_prec (ty : CoreTy) (t : SpecText) : (t.writtenOut ty).prec = t.prec ∨
    (ty = .double ∧ t.prec = none ∧ t.type.isSome ∧ (t.writtenOut ty).prec = some ['6']) := by
  unfold SpecText.writtenOut
  cases h : t.prec with
  | some p => left; rfl
  | none =>
    simp only [Option.orElse_none]
    unfold usualPrecision
    split
    · right; rename_i e; rw [e]; exact ⟨rfl, trivial, rfl, rfl⟩
    · left; rfl

theorem writtenOut_precValue (ty : CoreTy) (t : SpecText) : (t.writtenOut ty).precValue = t.precValue ∨
    (ty = .double ∧ t.precValue = -1 ∧ t.type.isSome ∧ (t.writtenOut ty).precValue = 6) := by
  rcases writtenOut_prec ty t with h | ⟨h1, h2, h3, h4⟩
  · left; unfold SpecText.precValue; rw [h]
  · right
    refine ⟨h1, by unfold SpecText.precValue; rw [h2], h3, by unfold SpecText.precValue; rw [h4]; rfl⟩

theorem writtenOut_fits {ty : CoreTy} {t : SpecText} (fits : t.Fits) : (t.writtenOut ty).Fits := by
  refine ⟨by rw [writtenOut_width]; exact fits.1, ?_⟩
  rcases writtenOut_precValue ty t with h | ⟨_, _, _, h⟩ <;> rw [h]
  · exact fits.2
  · decide

theorem writtenOut_textOnly {ty : CoreTy} {t : SpecText} (h : t.TextOnly) (hs : usualSign ty t.type = none) : (t.writtenOut ty).TextOnly := by
  obtain ⟨h1, h2, h3⟩ := h
  refine ⟨by simp [SpecText.writtenOut, h1, hs], h2, ?_⟩
  unfold SpecText.writtenOut
  rcases h3 with h | h
  · left; simp [h]
  · left; cases ha : t.align <;> simp [ha] at h ⊢

theorem writtenOut_allows {ty : CoreTy} {t : SpecText} (hal : CoreTy.Allows ty t) : CoreTy.Allows ty (t.writtenOut ty) := by
  have hp := writtenOut_prec ty t
  have hty := writtenOut_type ty t
  cases ty with
  | int i =>
    obtain ⟨⟨h1, h2⟩, h3⟩ := hal
    refine ⟨⟨?_, ?_⟩, ?_⟩
    · simpa [h1] using hp
    · rcases hty with h | ⟨_, h⟩ <;> rw [h]
      · exact h2
      · simp [usualType, integerTypes]
    · rcases h3 with h | h
      · exact Or.inl h
      · by_cases hi : i.signed = true
        · exact Or.inl hi
        · right; simp [SpecText.writtenOut, h, usualSign, hi]
  | bool =>
    refine ⟨by simpa [hal.1] using hp, ?_⟩
    rcases hty with h | ⟨_, h⟩ <;> rw [h]
    · exact hal.2
    · simp [usualType]
  | char =>
    refine ⟨by simpa [hal.1] using hp, ?_⟩
    rcases hal.2 with ⟨h1, h2⟩ | ⟨c, hc, h1, h2⟩
    · left
      refine ⟨writtenOut_textOnly h1 ?_, ?_⟩
      · cases hx : t.type with
        | none => rfl
        | some c => rcases h2 c hx with e | e <;> subst e <;> rfl
      · rcases hty with h | ⟨_, h⟩ <;> rw [h]
        · exact h2
        · simp [usualType]
    · right
      rcases hty with h | ⟨h, _⟩
      · exact ⟨c, by rw [h]; exact hc, h1, h2⟩
      · rw [h] at hc; cases hc
  | pointer =>
    refine ⟨by simpa [hal.1] using hp, writtenOut_textOnly hal.2.1 rfl, ?_⟩
    rcases hty with h | ⟨_, h⟩ <;> rw [h]
    · exact hal.2.2
    · simp [usualType]
  | double =>
    refine ⟨?_, ?_⟩
    · rcases writtenOut_precValue .double t with h | ⟨_, _, _, h⟩ <;> rw [h]
      · exact hal.1
      · decide
    · rcases hty with h | ⟨_, h⟩ <;> rw [h]
      · exact hal.2
      · simp [usualType]
  | string =>
    refine ⟨writtenOut_textOnly hal.1 rfl, ?_, ?_⟩
    · rcases hty with h | ⟨_, h⟩ <;> rw [h]
      · exact hal.2.1
      · simp [usualType]
    · intro hx
      have hp' : (t.writtenOut .string).prec = t.prec := by rcases hp with h | ⟨h, _⟩; exact h; cases h
      rw [hp']
      rcases hty with h | ⟨_, h⟩
      · exact hal.2.2 (h ▸ hx)
      · rw [h] at hx; cases hx

/-- An alignment or zeros are given, or the value is no infinity and not NaN. -/
def Spec.SpecText.Placed (t : SpecText) : CoreArg → Prop
  | .double bits => IsFinite bits ∨ t.align.isSome ∨ t.zero = true
  | _ => True

theorem writtenOut_write {a : CoreArg} {t : SpecText} (wf : t.WellFormed) (hal : CoreTy.Allows a.ty t) (hv : ValidArg a)
    (hpl : t.Placed a) : a.write t.meaning = a.write (t.writtenOut a.ty).meaning := by
  have hm := writtenOut_meaning_type a.ty t
  have ht := fun c hc => meaning_type_some wf c hc
  have htn : t.meaning.type = noChar ↔ t.type = none := by
    show t.type.getD _ = _ ↔ _
    cases h : t.type with
    | none => simp; rfl
    | some c =>
      simp only [Option.getD_some, reduceCtorEq, iff_false]
      rintro rfl
      rcases wf.type _ h with h | h <;> revert h <;> decide
  cases a with
  | int i n =>
    refine int_congr (writtenOut_alike ?_) hm i n
    intro _ _
    simp only [CoreArg.ty, usualAlign, ht 'c' (by decide)]
    split_ifs <;> rfl
  | bool b =>
    have hm : (t.writtenOut .bool).meaning.type = t.meaning.type ∨
        (t.meaning.type = noChar ∧ (t.writtenOut .bool).meaning.type = 's') := hm
    show writeArgBool t.meaning b = writeArgBool (t.writtenOut .bool).meaning b
    unfold writeArgBool
    by_cases hx : t.meaning.type ≠ noChar ∧ t.meaning.type ≠ 's'
    · have he : (t.writtenOut .bool).meaning.type = t.meaning.type := by
        rcases hm with h | ⟨h, _⟩
        · exact h
        · exact absurd h hx.1
      have hx' := hx
      rw [← he] at hx'
      rw [if_pos hx, if_pos hx']
      refine int_congr (writtenOut_alike ?_) (Or.inl he) _ _
      intro _ _
      have h1 : t.type ≠ none := fun h => hx.1 (htn.2 h)
      have h2 : t.type ≠ some 's' := fun h => hx.2 ((ht 's' (by decide)).2 h)
      simp only [usualAlign, ht 'c' (by decide), h1, h2, false_or]
      split_ifs <;> rfl
    · have hx' : ¬ ((t.writtenOut .bool).meaning.type ≠ noChar ∧ (t.writtenOut .bool).meaning.type ≠ 's') := by
        rcases hm with h | ⟨_, h⟩ <;> rw [h]
        · exact hx
        · decide
      have hA : WrittenAlike .left t.meaning (t.writtenOut .bool).meaning := writtenOut_alike fun _ _ => by
        have : t.type = none ∨ t.type = some 's' := by
          by_cases h : t.type = none
          · exact Or.inl h
          · right
            by_contra h'
            exact hx ⟨fun e => h (htn.1 e), fun e => h' ((ht 's' (by decide)).1 e)⟩
        rcases this with h | h <;> rw [h] <;> rfl
      rw [if_neg hx, if_neg hx', hA.padded, hA.padded]
  | char c =>
    have hm : (t.writtenOut .char).meaning.type = t.meaning.type ∨
        (t.meaning.type = noChar ∧ (t.writtenOut .char).meaning.type = 'c') := hm
    show writeArgChar t.meaning c = writeArgChar (t.writtenOut .char).meaning c
    unfold writeArgChar
    by_cases hx : t.meaning.type ≠ noChar ∧ t.meaning.type ≠ 'c' ∧ t.meaning.type ≠ '?'
    · have he : (t.writtenOut .char).meaning.type = t.meaning.type := by
        rcases hm with h | ⟨h, _⟩
        · exact h
        · exact absurd h hx.1
      have hx' := hx
      rw [← he] at hx'
      rw [if_pos hx, if_pos hx']
      refine int_congr (writtenOut_alike ?_) (Or.inl he) _ _
      intro _ _
      have h1 : t.type ≠ none := fun h => hx.1 (htn.2 h)
      have h2 : t.type ≠ some 'c' := fun h => hx.2.1 ((ht 'c' (by decide)).2 h)
      have h3 : t.type ≠ some '?' := fun h => hx.2.2 ((ht '?' (by decide)).2 h)
      rw [if_neg hx.2.1]
      simp [usualAlign, h1, h2, h3, SpecText.alignment]
    · have hx' : ¬ ((t.writtenOut .char).meaning.type ≠ noChar ∧ (t.writtenOut .char).meaning.type ≠ 'c' ∧ (t.writtenOut .char).meaning.type ≠ '?') := by
        rcases hm with h | ⟨_, h⟩ <;> rw [h]
        · exact hx
        · decide
      have hq : (t.writtenOut .char).meaning.type = '?' ↔ t.meaning.type = '?' := by
        rcases hm with h | ⟨h', h⟩ <;> rw [h]
        rw [h']; decide
      have hA : WrittenAlike .left t.meaning (t.writtenOut .char).meaning := writtenOut_alike fun _ _ => by
        have : t.type = none ∨ t.type = some 'c' ∨ t.type = some '?' := by
          by_contra h
          simp only [not_or] at h
          exact hx ⟨fun e => h.1 (htn.1 e), fun e => h.2.1 ((ht 'c' (by decide)).1 e), fun e => h.2.2 ((ht '?' (by decide)).1 e)⟩
        rcases this with h | h | h <;> rw [h] <;> rfl
      rw [if_neg hx, if_neg hx', hA.padded, hA.padded]
      simp only [ne_eq, hq]
  | pointer addr =>
    show writeArgPtr t.meaning addr = writeArgPtr (t.writtenOut .pointer).meaning addr
    have hA : WrittenAlike .right t.meaning (t.writtenOut .pointer).meaning := writtenOut_alike fun _ _ => rfl
    exact int_congr (s := { t.meaning with alternateForm := true, type := 'x' })
      (s' := { (t.writtenOut .pointer).meaning with alternateForm := true, type := 'x' })
      ⟨hA.width, hA.fill, rfl, hA.zero, hA.sign, hA.align⟩ (Or.inl rfl) u64 addr
  | string str =>
    have hA : WrittenAlike .left t.meaning (t.writtenOut .string).meaning := writtenOut_alike fun _ _ => rfl
    have hp : (t.writtenOut .string).meaning.precision = t.meaning.precision := by
      rcases writtenOut_precValue .string t with h | ⟨h, _⟩
      · exact h
      · cases h
    have hq : (t.writtenOut .string).meaning.type = '?' ↔ t.meaning.type = '?' := by
      rcases hm with h | ⟨h', h⟩
      · exact iff_of_eq (congrArg (· = '?') h)
      · rw [h']
        show (t.writtenOut (CoreArg.string str).ty).meaning.type = '?' ↔ _
        rw [h, show (usualType (CoreArg.string str).ty).getD noChar = 's' from rfl]; decide
    show writeArgStr t.meaning str = writeArgStr (t.writtenOut .string).meaning str
    unfold writeArgStr
    simp only [ne_eq, hq, hp, hA.padded]
  | double bits =>
    have hty : (t.writtenOut .double).meaning.type = t.meaning.type := by
      rcases hm with h | ⟨h', h⟩
      · exact h
      · rw [h']; exact h
    refine double_congr (writtenOut_alike fun _ _ => rfl) hty ?_ ?_
    · rcases writtenOut_precValue .double t with h | ⟨_, h1, h2, h3⟩
      · exact Or.inl h
      · refine Or.inr ⟨h1, fun h => ?_, h3⟩
        rw [htn.1 h] at h2; cases h2
    · intro hn
      have hnf : ¬ IsFinite bits := by
        intro hf
        by_cases h0 : bits % 2 ^ 63 = 0
        · have := (C38_decoded_exactly_partial bits hv).2.2.2.2.1 h0
          rw [this] at hn; simp at hn
        · have := ((C38_decoded_exactly_partial bits hv).2.2.2.2.2 hf h0).1
          rw [this] at hn; simp at hn
      refine writtenOut_alike fun h1 h2 => ?_
      rcases hpl with h | h | h
      · exact absurd h hnf
      · rw [h1] at h; cases h
      · rw [h2] at h; cases h

/-! ### C88 leaving out a part of a specification means the usual -/

/-- The property: every specification a type allows can be written out in full, and nothing changes by that. -/
def DefaultsCanBeWrittenOut : Prop :=
  ∀ (a : CoreArg) (t : SpecText), ValidArg a → t.WellFormed → t.Fits → CoreTy.Allows a.ty t →
    formatStr ("{:".toList ++ (t.writtenOut a.ty).text ++ ['}']) [a.farg] =
      formatStr ("{:".toList ++ t.text ++ ['}']) [a.farg]

/-- It does not hold for infinities and NaN: `{:5}` and `{: >-5}` place `inf` differently, although both place numbers to
the right. -/
theorem C88_non_finite_violated : ¬ DefaultsCanBeWrittenOut := by
  intro h
  have := h (.double (2047 * 2 ^ 52)) { width := ['5'] } (by unfold ValidArg; decide)
    ⟨by simp, by simp, by simp, by simp, by decide, by simp, by simp⟩ (by unfold SpecText.Fits; decide) ⟨by decide, by simp⟩
  revert this
  decide +kernel

/-- A truth value, a character or an integer. -/
def IsIntegral : CoreArg → Prop
  | .bool _ | .char _ | .int _ _ => True
  | _ => False

/-- `a` is formatted by both specifications to the same end. -/
theorem formatStr_writtenOut {a : CoreArg} {t t' : SpecText} (wf : t.WellFormed) (fits : t.Fits) (hal : CoreTy.Allows a.ty t)
    (wf' : t'.WellFormed) (fits' : t'.Fits) (hal' : CoreTy.Allows a.ty t') (hv : ValidArg a)
    (hw : a.write t.meaning = a.write t'.meaning) (hO : t.type = some 'O' ↔ t'.type = some 'O') :
    formatStr (Template.single (some t')).text [a.farg] = formatStr (Template.single (some t)).text [a.farg] := by
  have hone : ∀ (sp : SpecText) (j : Nat), AsksO (Template.single (some sp)) [a] j →
      sp.type = some 'O' ∧ IsIntegral a := by
    rintro sp j ⟨k, s, b, _, hs, hb, h1, h2⟩
    have hs : s = ([], ⟨[], some sp⟩) := by
      cases j with
      | zero => simpa [Template.single] using hs.symm
      | succ j => simp [Template.single] at hs
    subst hs
    have hb : b = a := by
      cases k with
      | zero => simpa using hb.symm
      | succ k => simp at hb
    subst hb
    exact ⟨h1, by cases b <;> exact h2⟩
  have back : ∀ (sp : SpecText), (sp.type = some 'O' ∧ IsIntegral a) →
      AsksO (Template.single (some sp)) [a] 0 := fun sp h => ⟨0, _, a, rfl, rfl, rfl, h.1, by
    have := h.2
    cases a <;> exact this⟩
  have s1 := C22_fails_iff_O (Template.single (some t)) [a] (single_suits wf fits hal) (by simpa using hv)
  have s2 := C22_fails_iff_O (Template.single (some t')) [a] (single_suits wf' fits' hal') (by simpa using hv)
  by_cases h : ∃ j, AsksO (Template.single (some t)) [a] j
  · obtain ⟨j, hj⟩ := h
    have e1 := s1.2.2 ⟨j, hj⟩
    obtain ⟨g1, g2⟩ := hone t j hj
    have e2 := s2.2.2 ⟨0, back t' ⟨hO.1 g1, g2⟩⟩
    exact e2.trans e1.symm
  · have hno : ∀ j, ¬ AsksO (Template.single (some t)) [a] j := by simpa using h
    rcases coreTotal_written a t wf fits hal hv with ⟨text, hE⟩ | ⟨ht, hF⟩
    · have r1 := formats_single (a := a.farg) (spec := some t) (core_reads a t wf fits ((allows_iff a.ty wf).2 hal) hE)
      have hE' : Emits (a.write t'.meaning) text 1421 := hw ▸ hE
      have r2 := formats_single (a := a.farg) (spec := some t') (core_reads a t' wf' fits' ((allows_iff a.ty wf').2 hal') hE')
      exact r2.str.trans r1.str.symm
    · exfalso
      refine hno 0 (back t ⟨(meaning_type_some wf 'O' (by decide)).1 ht, ?_⟩)
      have h2 := (meaning_type_some wf 'O' (by decide)).1 ht
      cases a with
      | bool _ => trivial
      | char _ => trivial
      | int _ _ => trivial
      | double _ => have := hal.2 'O' h2; simp at this
      | pointer _ => have := hal.2.2 'O' h2; simp at this
      | string _ => have := hal.2.1 'O' h2; simp at this

theorem writtenOut_O {ty : CoreTy} {t : SpecText} : t.type = some 'O' ↔ (t.writtenOut ty).type = some 'O' := by
  rcases writtenOut_type ty t with h | ⟨h, h'⟩
  · rw [h]
  · rw [h, h']
    cases ty <;> simp [usualType]

/-- It holds for everything else, and also for infinities and NaN if their place is given: what is written out is a
specification that the type allows, and the result is the same. -/
theorem C88_written_out_partial (a : CoreArg) (t : SpecText) (hv : ValidArg a) (wf : t.WellFormed) (fits : t.Fits)
    (hal : CoreTy.Allows a.ty t) (hpl : t.Placed a) :
    (t.writtenOut a.ty).WellFormed ∧ (t.writtenOut a.ty).Fits ∧ CoreTy.Allows a.ty (t.writtenOut a.ty) ∧
      formatStr ("{:".toList ++ (t.writtenOut a.ty).text ++ ['}']) [a.farg] =
        formatStr ("{:".toList ++ t.text ++ ['}']) [a.farg] := by
  refine ⟨writtenOut_wellFormed wf, writtenOut_fits fits, writtenOut_allows hal, ?_⟩
  have := formatStr_writtenOut wf fits hal (writtenOut_wellFormed wf) (writtenOut_fits fits) (writtenOut_allows hal) hv
    (writtenOut_write wf hal hv hpl) writtenOut_O
  rwa [single_text, single_text] at this

/-- Infinities and NaN are placed to the left if nothing is given: the same specification with `<` says the same. -/
theorem C88_non_finite_place (bits : Nat) (t : SpecText) (hb : bits < 2 ^ 64) (hf : ¬ IsFinite bits) (wf : t.WellFormed)
    (fits : t.Fits) (hal : CoreTy.Allows .double t) (ha : t.align = none) (hz : t.zero = false) :
    formatStr ("{:".toList ++ ({ t with align := some '<' } : SpecText).text ++ ['}']) [(CoreArg.double bits).farg] =
      formatStr ("{:".toList ++ t.text ++ ['}']) [(CoreArg.double bits).farg] := by
  have hfill : t.fill = none := by
    cases h : t.fill with
    | none => rfl
    | some c => have := (wf.fill c h).1; rw [ha] at this; cases this
  have wf' : ({ t with align := some '<' } : SpecText).WellFormed :=
    ⟨fun c hc => by simp [hfill] at hc, by simp, wf.sign, wf.width, wf.widthHead, wf.prec, wf.type⟩
  have hal' : CoreTy.Allows .double ({ t with align := some '<' } : SpecText) := hal
  have hw : (CoreArg.double bits).write t.meaning =
      (CoreArg.double bits).write ({ t with align := some '<' } : SpecText).meaning := by
    show formatAndWriteDecimal _ _ = formatAndWriteDecimal _ _
    have hA : WrittenAlike .left t.meaning ({ t with align := some '<' } : SpecText).meaning := by
      refine ⟨rfl, ?_, rfl, ?_, Or.inl rfl, ?_⟩ <;> simp [SpecText.meaning, ha, hz, hfill, SpecText.alignment]
    have hn : (decode bits).category = .infinity ∨ (decode bits).category = .nan := by
      rw [(decode_special hb hf).1]
      split <;> simp
    have hzf : t.meaning.zeroFlag = false := by simp [SpecText.meaning, hz]
    have hzf' : ({ t with align := some '<' } : SpecText).meaning.zeroFlag = false := by simp [SpecText.meaning]
    have hfp := fp_congr (s := t.meaning) (s' := ({ t with align := some '<' } : SpecText).meaning) rfl rfl (Or.inl rfl)
    unfold formatAndWriteDecimal
    rw [← hfp]
    simp only [if_pos hn, hzf, hzf', Bool.false_eq_true, if_false, sign_congr hA.sign hA.zero, hA.padded]
  have := formatStr_writtenOut (a := .double bits) wf fits hal wf' fits hal' hb hw Iff.rfl
  rwa [single_text, single_text] at this

/-- `{:07x}` is `{:-07x}`, `{:e}` is `{: >-.6e}`, `{:^09}` is `{: ^9s}`: all of that is covered. -/
example : ∃ (a : CoreArg) (t : SpecText), ValidArg a ∧ t.WellFormed ∧ t.Fits ∧ CoreTy.Allows a.ty t ∧ t.Placed a ∧
    t.text = "e".toList ∧ (t.writtenOut a.ty).text = " >-.6e".toList :=
  ⟨.double 0, { type := 'e' }, by unfold ValidArg; decide, ⟨by simp, by simp, by simp, by simp, by decide, by simp, by
    intro c hc; left; simp at hc; subst hc; rfl⟩, by unfold SpecText.Fits; decide, ⟨by decide, by simp⟩, Or.inl (by decide), rfl, rfl⟩

example : (2047 * 2 ^ 52 < 2 ^ 64 ∧ ¬ IsFinite (2047 * 2 ^ 52)) ∧ CoreTy.Allows .double { width := ['5'] } ∧
    formatStr "{:5}".toList [(CoreArg.double (2047 * 2 ^ 52)).farg] = .ok () "inf  ".toList ∧
    formatStr "{:>5}".toList [(CoreArg.double (2047 * 2 ^ 52)).farg] = .ok () "  inf".toList := by
  refine ⟨by decide, ⟨by decide, by simp⟩, ?_⟩
  decide +kernel

end Emio
