import Verif.Props.NotCut
/- C106 for floating-point numbers. -/
namespace Emio
open BufferImpl Spec

/-- A formatter that writes a number in one call. -/
def NumAround (m : Fmt Unit) (s : Specs) (front body : Str) : Prop :=
  ∃ op, WritesAround m (numberParts s front body).left [op] (numberParts s front body).right ∧
    op.text = (numberParts s front body).body ∧ op.Fine ∧ fillsUp op = false

/-- The specification without width and zero flag. -/
def plainOf (s : Specs) : Specs := { s with width := 0, zeroFlag := false }

theorem plainOf_ok {s : Specs} (h : s.Ok) : (plainOf s).Ok :=
  ⟨⟨by simp [plainOf], by simp [plainOf, int32Max]⟩, h.precision, by simp [plainOf]⟩

theorem number_around {s : Specs} (h : s.Ok) (neg : Bool) {body : Str} (hlt : body.length + 1 < 2 ^ 31) {f : Char → Fmt Unit}
    (hf : ∀ sign ops, f sign ops =
      .ok (ops ++ [.area (body.length + (if sign ≠ noChar then 1 else 0)) (signText sign ++ body)]) ()) :
    NumAround (do
      let sign ← tryWriteSign s neg
      writePadded .right s ((if neg || s.sign == ' ' || s.sign == '+' then 1 else 0) + body.length) (f sign))
      s (signOf s neg) body := by
  have hsl : (signOf s neg).length ≤ 1 := by rw [← signOf_length]; split <;> omega
  have hfe : ∀ sign, f sign =
      emit (.area (body.length + (if sign ≠ noChar then 1 else 0)) (signText sign ++ body)) := by
    intro sign
    funext ops
    exact hf sign ops
  have hl : (signOf s neg).length + body.length = (signOf s neg ++ body).length := by rw [List.length_append]
  unfold NumAround numberParts
  rw [signOf_length]
  cases hz : s.zeroFlag with
  | true =>
    obtain ⟨hfill, halign⟩ := h.zero hz
    simp only [if_true]
    refine ⟨.area body.length body, ?_, rfl, rfl, rfl⟩
    refine writesAround_bind (v := noChar) ?_ ?_
    · intro ops
      obtain ⟨new, g1, g2, g3, _⟩ := (sign_emits s neg).1 hz ops
      refine ⟨new, g1, g2, fun op ho => ⟨g3 op ho, Or.inr ?_⟩⟩
      have := congrArg List.length g2
      obtain ⟨a, b, rfl⟩ := List.append_of_mem ho
      simp only [render_append, render_cons, List.length_append] at this
      omega
    · have := writePadded_around .right (Or.inr rfl) s h ((signOf s neg).length + body.length) (by omega)
        (func := emit (.area body.length body)) (mid := [.area body.length body]) (fun _ => rfl)
      rw [halign, hfill] at this
      rw [hfe, ← hl]
      simpa [around, signText] using this
  | false =>
    obtain ⟨c, hc1, hc2⟩ := (sign_emits s neg).2 hz
    simp only [Bool.false_eq_true, if_false]
    refine ⟨.area (body.length + (if c ≠ noChar then 1 else 0)) (signOf s neg ++ body), ?_, rfl, ?_, rfl⟩
    · have e : (paddedParts .right s (signOf s neg ++ body)).left =
          [] ++ (paddedParts .right s (signOf s neg ++ body)).left := rfl
      rw [e]
      refine writesAround_bind (v := c) (fun ops => ⟨[], by simp [hc1], cuttable_nil⟩) ?_
      rw [hfe, hc2, hl]
      exact writePadded_around .right (Or.inr rfl) s h _ (by rw [← hl]; omega) fun _ => by rw [hc2.symm]; rfl
    · rw [signText_length, hc2]
      show (signOf s neg ++ body).length = _
      rw [List.length_append]
      omega

theorem writePadded_plain (s : Specs) (n : Nat) (func : Fmt Unit) (ops : List WOp) :
    writePadded .right (plainOf s) n func ops = func ops := by
  unfold writePadded
  generalize hs : (if (plainOf s).align = .none then { plainOf s with align := .right } else plainOf s) = s'
  have e1 : s'.width = 0 := by rw [← hs]; split <;> rfl
  have hleft : writePaddingLeft s' n ops = .ok ops 0 := by
    unfold writePaddingLeft
    simp only
    rw [if_pos (Or.inl e1)]
    rfl
  rw [M.bind_ok hleft]
  cases hx : func ops with
  | ok r u =>
    rw [M.bind_ok hx]
    unfold writePaddingRight
    rw [if_pos (Or.inl rfl)]
    rfl
  | err r e => rw [M.bind_err hx]
  | bad b => rw [M.bind_bad hx]

/-- The number in a field is the number without the padding. -/
theorem number_shape {s : Specs} (h : s.Ok) (neg : Bool) {n : Nat} {f : Char → Fmt Unit}
    (hF : ∀ sign ops r, f sign ops = .ok r () → ∃ b : Str, ∀ sign ops, f sign ops =
      .ok (ops ++ [.area (n + (if sign ≠ noChar then 1 else 0)) (signText sign ++ b)]) ())
    {new : List WOp} (hfine : ∀ op ∈ new, op.Fine)
    (hrun : (do
      let sign ← tryWriteSign (plainOf s) neg
      writePadded .right (plainOf s) ((if neg || s.sign == ' ' || s.sign == '+' then 1 else 0) + n) (f sign) : Fmt Unit) [] =
      .ok new ()) :
    ∃ body, render new = signOf s neg ++ body ∧ (body.length + 1 < 2 ^ 31 → NumAround (do
      let sign ← tryWriteSign s neg
      writePadded .right s ((if neg || s.sign == ' ' || s.sign == '+' then 1 else 0) + n) (f sign))
      s (signOf s neg) body) := by
  obtain ⟨c, hc1, hc2⟩ := (sign_emits (plainOf s) neg).2 rfl
  rw [M.bind_ok (hc1 []), writePadded_plain] at hrun
  obtain ⟨b, hb⟩ := hF c [] new hrun
  rw [hb c []] at hrun
  obtain ⟨rfl, _⟩ := ok_inj hrun
  have hn : (signText c ++ b).length = n + (if c ≠ noChar then 1 else 0) :=
    hfine (.area (n + (if c ≠ noChar then 1 else 0)) (signText c ++ b)) (by simp)
  rw [signText_length, List.length_append] at hn
  obtain rfl : b.length = n := by omega
  refine ⟨b, ?_, fun hlt => number_around h neg hlt hb⟩
  have : signText c = signOf s neg := hc2
  simp [WOp.text, this]

theorem liftPure_cases {α : Type} {m : Pure' α} {f : α → Fmt Unit} {ops r : List WOp}
    (h : (liftPure m >>= f) ops = .ok r ()) : ∃ a, Yields m a ∧ f a ops = .ok r () := by
  cases hm : m () with
  | ok u a =>
    refine ⟨a, hm, ?_⟩
    have : liftPure m ops = .ok ops a := by unfold liftPure; rw [hm]
    rwa [M.bind_ok this] at h
  | err u e =>
    have : liftPure m ops = .err ops e := by unfold liftPure; rw [hm]
    rw [M.bind_err this] at h; cases h
  | bad b =>
    have : liftPure m ops = .bad b := by unfold liftPure; rw [hm]
    rw [M.bind_bad this] at h; cases h

theorem liftPure_yields {α : Type} {m : Pure' α} {a : α} (h : Yields m a) (f : α → Fmt Unit) (ops : List WOp) :
    (liftPure m >>= f) ops = f a ops := by
  have : liftPure m ops = .ok ops a := by unfold liftPure; rw [h]
  rw [M.bind_ok this]

/-- Finite numbers, in terms of the same number without width and zero flag. -/
theorem float_shape {s : Specs} (h : s.Ok) {dec : Decoded} (h1 : dec.category ≠ .infinity) (h2 : dec.category ≠ .nan)
    {new : List WOp} (hfine : ∀ op ∈ new, op.Fine) (hrun : formatAndWriteDecimal (plainOf s) dec [] = .ok new ()) :
    ∃ body, render new = signOf s dec.negative ++ body ∧ (body.length + 1 < 2 ^ 31 →
      NumAround (formatAndWriteDecimal s dec) s (signOf s dec.negative) body) := by
  have e : ∀ s : Specs, formatAndWriteDecimal s dec = (do
      let (digits, exp) ← liftPure (formatDecimal (parseFpSpecs s) dec)
      writeDecimalFp s (parseFpSpecs s) dec.negative digits exp) := by
    intro s
    unfold formatAndWriteDecimal
    simp only
    rw [if_neg (by tauto)]
  rw [e] at hrun ⊢
  obtain ⟨⟨digits, exp⟩, hy, hrun⟩ := liftPure_cases hrun
  have hy' : Yields (formatDecimal (parseFpSpecs s) dec) (digits, exp) := hy
  have hl : (do
      let (digits, exp) ← liftPure (formatDecimal (parseFpSpecs s) dec)
      writeDecimalFp s (parseFpSpecs s) dec.negative digits exp : Fmt Unit) =
      writeDecimalFp s (parseFpSpecs s) dec.negative digits exp := by
    funext ops
    exact liftPure_yields hy' _ ops
  rw [hl]
  have hrun : writeDecimalFp (plainOf s) (parseFpSpecs s) dec.negative digits exp [] = .ok new () := hrun
  unfold writeDecimalFp at hrun ⊢
  simp only at hrun ⊢
  cases huse : useExpFormat (parseFpSpecs s) (exp - 1) with
  | true =>
    simp only [huse, if_true] at hrun ⊢
    unfold writeDecimalExp at hrun ⊢
    refine number_shape h dec.negative ?_ hfine hrun
    intro sign ops r hr
    obtain ⟨a, ha, hr⟩ := liftPure_cases hr
    obtain ⟨z, hz, hr⟩ := liftPure_cases hr
    refine ⟨a ++ z ++ (if (parseFpSpecs s).upper then 'E' else 'e') :: writeExponent (exp - 1), fun sign ops => ?_⟩
    rw [liftPure_yields ha, liftPure_yields hz]
    simp only [List.append_assoc]
    rfl
  | false =>
    simp only [huse, Bool.false_eq_true, if_false] at hrun ⊢
    unfold writeDecimalFixed at hrun ⊢
    refine number_shape h dec.negative ?_ hfine hrun
    intro sign ops r hr
    obtain ⟨a, ha, hr⟩ := liftPure_cases hr
    refine ⟨a, fun sign ops => ?_⟩
    rw [liftPure_yields ha]
    rfl

open Classical in
/-- The characters of a finite number as they are written: in the fixed format a zero may be missing (C44). -/
noncomputable def writtenDigits (s : Specs) (bits : Nat) : Str :=
  if LosesZero s bits then (finiteText s bits).dropLast else finiteText s bits

theorem float_around {s : Specs} (h : s.Ok) (hc : checkFloatingPointSpecs s = true) {bits : Nat} (hb : bits < 2 ^ 64)
    (hf : IsFinite bits) (hn : (finiteText s bits).length + 1 ≤ 1421) :
    NumAround (formatAndWriteDecimal s (decode bits)) s (signOf s (signBit bits)) (writtenDigits s bits) := by
  obtain ⟨c1, c2, c3, _⟩ := finite_cases hb hf
  have hc0 : checkFloatingPointSpecs (plainOf s) = true := hc
  obtain ⟨new, g1, g2, g3, _⟩ := float_emits (plainOf_ok h) hc0 hb (k := 1421) (by decide) (fun _ => hn) (by decide) []
  rw [List.nil_append] at g1
  obtain ⟨body, b1, b2⟩ := float_shape h c1 c2 g3 g1
  have ht : actualText (plainOf s) bits = signOf s (signBit bits) ++ writtenDigits s bits := by
    have key : ∀ d : Str, paddedNumber (plainOf s) (signOf (plainOf s) (signBit bits)) d = signOf s (signBit bits) ++ d := by
      intro d
      unfold paddedNumber
      rw [if_neg (by simp [plainOf])]
      unfold padded
      have : fillCount (plainOf s) (signOf (plainOf s) (signBit bits) ++ d).length = 0 := by
        simp [fillCount, plainOf]
      rw [this]
      have hs : ∀ al (c : Char) (t : Str), surround al c 0 t = t := by intro al c t; cases al <;> simp [surround]
      rw [hs]
      rfl
    unfold actualText writtenDigits
    have hz : LosesZero (plainOf s) bits ↔ LosesZero s bits := Iff.rfl
    by_cases hl : LosesZero s bits
    · rw [if_pos (hz.2 hl), if_pos hl]
      exact key _
    · rw [if_neg (fun h => hl (hz.1 h)), if_neg hl]
      unfold floatText
      rw [if_pos hf]
      exact key _
  rw [ht, ← c3] at g2
  rw [g2] at b1
  have hbody := List.append_cancel_left b1
  rw [← c3, hbody]
  refine b2 ?_
  rw [← hbody]
  unfold writtenDigits
  split
  · rw [List.length_dropLast]; omega
  · omega

/-- C106 for finite floating-point numbers: the digits are those `format` writes (C44). -/
theorem C106_floats (bits : Nat) (hb : bits < 2 ^ 64) (hf : IsFinite bits) (t : SpecText) (wf : t.WellFormed)
    (fits : t.Fits) (hal : CoreTy.Allows .double t) :
    ∃ digits : Str,
      formatStr ("{:".toList ++ t.text ++ "}".toList) [(CoreArg.double bits).farg] =
        .ok () (paddedNumber t.meaning (signOf t.meaning (signBit bits)) digits) ∧
      (¬ LosesZero t.meaning bits → digits = finiteText t.meaning bits) ∧
      ∀ (mem : Str) (ops : List ClientOp) (s : SpanBuf) (old : Str),
        client spanReset ops (SpanBuf.new mem, []) = some (s, old) →
        ∃ s', formatTo ("{:".toList ++ t.text ++ "}".toList) [(CoreArg.double bits).farg] s =
            (if old.length + (paddedNumber t.meaning (signOf t.meaning (signBit bits)) digits).length ≤ mem.length
              then .ok s' () else .err s' .eof) ∧
          s'.view = old ++ (numberParts t.meaning (signOf t.meaning (signBit bits)) digits).kept
            (mem.length - old.length) := by
  have hc : checkFloatingPointSpecs t.meaning = true := (allows_iff .double wf).2 hal
  have hn := (needs_any (.double bits) t.meaning (meaning_ok fits) hc).double bits rfl hf
  refine ⟨writtenDigits t.meaning bits, ?_, fun h => if_neg h, ?_⟩
  · rw [render_double bits hb t wf fits hal]
    congr 1
    unfold actualText writtenDigits floatText
    rw [if_pos hf]
    split <;> rfl
  · intro mem ops s old h
    obtain ⟨op, h1, h2, h3, h4⟩ := float_around (meaning_ok fits) hc hb hf hn
    obtain ⟨s', e1, e2⟩ := span_field_around (.double bits) t wf fits hal h1 h2 h3 h4 h
    rw [parts_number] at e1
    exact ⟨s', e1, e2⟩

/-- -1.5 in four characters: the sign and the zeros are kept, of the digits nothing. -/
example : (numberParts { fill := '0', align := .right, zeroFlag := true, width := 6 } ['-'] "1.5".toList).kept 4 =
      "-00".toList ∧
    (numberParts { fill := '0', align := .right, zeroFlag := true, width := 6 } ['-'] "1.5".toList).kept 6 =
      "-001.5".toList := by decide +kernel

example : IsFinite 0xBFF8000000000000 ∧ CoreTy.Allows .double { zero := true, width := ['6'] } ∧
    ({ zero := true, width := ['6'] } : SpecText).text = "06".toList ∧
    ({ zero := true, width := ['6'] } : SpecText).WellFormed ∧ ({ zero := true, width := ['6'] } : SpecText).Fits :=
  ⟨by decide +kernel, ⟨by decide, by simp⟩, by decide +kernel, by constructor <;> decide,
    by constructor <;> decide +kernel⟩

end Emio
