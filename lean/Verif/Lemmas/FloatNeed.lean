import Verif.Lemmas.FloatText
import Verif.Spec.OnePiece
/-
The contiguous area that a floating-point number needs.
-/
namespace Emio
open Spec

/-- Performing one call between the paddings. -/
theorem padded_contains {d : Align} {s : Specs} {W : Nat} {f : Fmt Unit} {op : WOp} (hf : ∀ ops, f ops = .ok (ops ++ [op]) ())
    {ops ops' : List WOp} (h : writePadded d s W f ops = .ok ops' ()) :
    ∃ l r, ops' = ops ++ (l ++ op :: r) ∧ ∀ o ∈ l ++ r, o.need = 0 := by
  unfold writePadded at h
  generalize (if s.align = .none then { s with align := d } else s : Specs) = s1 at h
  cases hl : writePaddingLeft s1 W ops with
  | err o e => rw [M.bind_err hl] at h; cases h
  | bad b => rw [M.bind_bad hl] at h; cases h
  | ok o w =>
    obtain ⟨l, rfl, hol⟩ : ∃ l, o = ops ++ l ∧ ∀ x ∈ l, x.need = 0 := by
      unfold writePaddingLeft at hl
      simp only at hl
      split at hl
      · cases hl; exact ⟨[], by simp, by simp⟩
      · split at hl
        · cases hl
        · split at hl
          · cases hl; exact ⟨[], by simp, by simp⟩
          · cases hl
            exact ⟨_, rfl, fun x hx => by rw [List.mem_singleton] at hx; subst hx; rfl⟩
    rw [M.bind_ok hl, M.bind_ok (hf _)] at h
    unfold writePaddingRight at h
    have hor : (∃ c n, ops' = ops ++ l ++ [op] ++ [.charN c n]) ∨ ops' = ops ++ l ++ [op] := by
      split at h
      · cases h; exact Or.inr rfl
      · cases h; exact Or.inl ⟨_, _, rfl⟩
    rcases hor with ⟨c, n, rfl⟩ | rfl
    · refine ⟨l, [.charN c n], by simp, fun x hx => ?_⟩
      simp only [List.mem_append, List.mem_singleton] at hx
      rcases hx with hx | hx
      · exact hol x hx
      · rw [hx]; rfl
    · exact ⟨l, [], by simp, fun x hx => hol x (by simpa using hx)⟩

/-- Without a width there is no padding. -/
theorem padded_plain {d : Align} {s : Specs} (hw : s.width = 0) {W : Nat} {f : Fmt Unit} {op : WOp}
    (hf : ∀ ops, f ops = .ok (ops ++ [op]) ()) (ops : List WOp) : writePadded d s W f ops = .ok (ops ++ [op]) () := by
  unfold writePadded
  have h1 : (if s.align = .none then { s with align := d } else s : Specs).width = 0 := by split <;> exact hw
  generalize (if s.align = .none then { s with align := d } else s : Specs) = s1 at h1
  have hl : writePaddingLeft s1 W ops = .ok ops 0 := by
    unfold writePaddingLeft
    simp only
    rw [if_pos (Or.inl h1)]; rfl
  rw [M.bind_ok hl, M.bind_ok (hf ops)]
  unfold writePaddingRight
  rw [if_pos (Or.inl rfl)]
  rfl

theorem padded_stuck {d : Align} {s : Specs} {W : Nat} {f : Fmt Unit} {ops ops' : List WOp}
    (hf : ∀ ops ops', f ops ≠ .ok ops' ()) : writePadded d s W f ops ≠ .ok ops' () := by
  intro h
  unfold writePadded at h
  generalize (if s.align = .none then { s with align := d } else s : Specs) = s1 at h
  cases hl : writePaddingLeft s1 W ops with
  | err o e => rw [M.bind_err hl] at h; cases h
  | bad b => rw [M.bind_bad hl] at h; cases h
  | ok o w =>
    rw [M.bind_ok hl] at h
    cases hx : f o with
    | err o e => rw [M.bind_err hx] at h; cases h
    | bad b => rw [M.bind_bad hx] at h; cases h
    | ok o' u => exact hf o o' hx

/-- Writes one area, or nothing successfully. -/
def OneArea (f : Fmt Unit) : Prop :=
  (∃ n data, ∀ ops, f ops = .ok (ops ++ [.area n data]) ()) ∨ ∀ ops ops', f ops ≠ .ok ops' ()

/-- Writing into an area something that is computed. -/
theorem OneArea.lift {α : Type} (m : Pure' α) {f : α → Fmt Unit} (hf : ∀ a, OneArea (f a)) :
    OneArea (do let x ← liftPure m; f x) := by
  cases h : m () with
  | ok u a =>
    have h1 : ∀ ops, (do let x ← liftPure m; f x : Fmt Unit) ops = f a ops := by
      intro ops
      have : liftPure m ops = .ok ops a := by unfold liftPure; rw [h]
      rw [M.bind_ok this]
    rcases hf a with ⟨n, data, hn⟩ | hn
    · exact Or.inl ⟨n, data, fun ops => by rw [h1, hn]⟩
    · exact Or.inr fun ops ops' => by rw [h1]; exact hn ops ops'
  | err u e =>
    right
    intro ops ops' hx
    have : liftPure m ops = .err ops e := by unfold liftPure; rw [h]
    rw [M.bind_err this] at hx; cases hx
  | bad b =>
    right
    intro ops ops' hx
    have : liftPure m ops = .bad b := by unfold liftPure; rw [h]
    rw [M.bind_bad this] at hx; cases hx

theorem OneArea.emit (n : Nat) (data : Str) : OneArea (emit (.area n data)) := Or.inl ⟨n, data, fun _ => rfl⟩

theorem number_area {s : Specs} {neg : Bool} {W W0 : Nat} {f : Char → Fmt Unit}
    (hf : ∀ c, OneArea (f c))
    {ops ops' : List WOp}
    (h : (do let sign ← tryWriteSign s neg; writePadded .right s W (f sign) : Fmt Unit) ops = .ok ops' ()) :
    ∃ n data sg l r, (ops' = ops ++ (l ++ .area n data :: r) ∧ ∀ o ∈ l ++ r, o.need ≤ 1) ∧
      (do let sign ← tryWriteSign { s with width := 0 } neg; writePadded .right { s with width := 0 } W0 (f sign) : Fmt Unit) [] =
        .ok (sg ++ [.area n data]) () ∧
      render sg = if s.zeroFlag then signOf s neg else [] := by
  obtain ⟨c, sg, l1, hs, hs1, hs0, hsg⟩ : ∃ c sg l1, tryWriteSign s neg ops = .ok (ops ++ l1) c ∧
      (∀ o ∈ l1, o.need ≤ 1) ∧
      tryWriteSign { s with width := 0 } neg [] = .ok sg c ∧ render sg = if s.zeroFlag then signOf s neg else [] := by
    rcases Bool.eq_false_or_eq_true s.zeroFlag with hz | hz
    · obtain ⟨new, g1, g2, _, g5⟩ := (sign_emits s neg).1 hz ops
      obtain ⟨new0, g3, g4, _⟩ := (sign_emits s neg).1 hz []
      exact ⟨_, new0, new, g1, g5, g3, by rw [if_pos hz]; exact g4⟩
    · obtain ⟨c, hc1, hc2⟩ := (sign_emits s neg).2 hz
      exact ⟨c, [], [], by rw [List.append_nil]; exact hc1 ops, by simp, hc1 [], by rw [hz]; rfl⟩
  rw [M.bind_ok hs] at h
  rcases hf c with ⟨n, data, hn⟩ | hn
  · obtain ⟨l, r, rfl, h2⟩ := padded_contains hn h
    refine ⟨n, data, sg, l1 ++ l, r, ⟨by simp, fun o ho => ?_⟩, ?_, hsg⟩
    · simp only [List.mem_append] at ho
      rcases ho with (ho | ho) | ho
      · exact hs1 o ho
      · have := h2 o (by simp [ho]); omega
      · have := h2 o (by simp [ho]); omega
    · rw [M.bind_ok hs0, padded_plain rfl hn]
  · exact absurd h (padded_stuck hn)

/-- The area of a finite number is the one it has without padding. -/
theorem float_area {s : Specs} {dec : Decoded} (hfin : ¬ (dec.category = .infinity ∨ dec.category = .nan))
    {ops ops' : List WOp} (h : formatAndWriteDecimal s dec ops = .ok ops' ()) :
    ∃ n data sg l r, (ops' = ops ++ (l ++ .area n data :: r) ∧ ∀ o ∈ l ++ r, o.need ≤ 1) ∧
      formatAndWriteDecimal { s with width := 0 } dec [] = .ok (sg ++ [.area n data]) () ∧
      render sg = if s.zeroFlag then signOf s dec.negative else [] := by
  unfold formatAndWriteDecimal at h ⊢
  simp only at h ⊢
  rw [if_neg hfin] at h ⊢
  have hfp : parseFpSpecs { s with width := 0 } = parseFpSpecs s := rfl
  rw [hfp]
  generalize parseFpSpecs s = fp at h ⊢
  cases hd : formatDecimal fp dec () with
  | err u e =>
    have : liftPure (formatDecimal fp dec) ops = .err ops e := by unfold liftPure; rw [hd]
    rw [M.bind_err this] at h; cases h
  | bad b =>
    have : liftPure (formatDecimal fp dec) ops = .bad b := by unfold liftPure; rw [hd]
    rw [M.bind_bad this] at h; cases h
  | ok u r =>
    have hl : ∀ ops, liftPure (formatDecimal fp dec) ops = .ok ops r := fun ops => by unfold liftPure; rw [hd]
    rw [M.bind_ok (hl ops)] at h
    rw [M.bind_ok (hl [])]
    obtain ⟨digits, exp⟩ := r
    simp only at h ⊢
    unfold writeDecimalFp at h ⊢
    simp only at h ⊢
    by_cases hu : useExpFormat fp (exp - 1) = true
    · simp only [if_pos hu] at h ⊢
      unfold writeDecimalExp at h ⊢
      simp only at h ⊢
      exact number_area (fun c => OneArea.lift _ fun a => OneArea.lift _ fun z => OneArea.emit _ _) h
    · simp only [if_neg hu] at h ⊢
      unfold writeDecimalFixed at h ⊢
      simp only at h ⊢
      exact number_area (fun c => OneArea.lift _ fun a => OneArea.emit _ _) h

theorem signOf_width (s : Specs) (neg : Bool) : signOf { s with width := 0 } neg = signOf s neg := rfl

theorem paddedNumber_plain (s : Specs) (front digits : Str) : paddedNumber { s with width := 0 } front digits = front ++ digits := by
  unfold paddedNumber padded
  have hf : ∀ n, fillCount { s with width := 0 } n = 0 := fun n => by simp [fillCount]
  simp only [hf]
  split
  · simp
  · unfold surround
    split <;> simp

theorem finiteText_width (s : Specs) (bits : Nat) : finiteText { s with width := 0 } bits = finiteText s bits := rfl

theorem losesZero_width (s : Specs) (bits : Nat) : LosesZero { s with width := 0 } bits ↔ LosesZero s bits := Iff.rfl

/-- The largest area that a finite number asks for. -/
theorem float_need {s : Specs} (h : s.Ok) (hc : checkFloatingPointSpecs s = true) {bits : Nat} (hb : bits < 2 ^ 64)
    (hf : IsFinite bits) {ops ops' : List WOp} (hok : formatAndWriteDecimal s (decode bits) ops = .ok ops' ()) :
    ∃ l op r, ops' = ops ++ (l ++ op :: r) ∧ op.need = onePiece s bits ∧ ∀ o ∈ l ++ r, o.need ≤ 1 := by
  have hcat : ¬ ((decode bits).category = .infinity ∨ (decode bits).category = .nan) ∧
      (decode bits).negative = signBit bits := by
    by_cases h0 : bits % 2 ^ 63 = 0
    · obtain ⟨h1, h2⟩ := decode_zero hb h0
      rw [h1]; exact ⟨by simp, h2⟩
    · obtain ⟨h1, h2, _⟩ := decode_spec hb hf h0
      rw [h1]; exact ⟨by simp, h2⟩
  obtain ⟨n, data, sg, l, r, ⟨h1, h2⟩, h3, h4⟩ := float_area hcat.1 hok
  have h0 : Specs.Ok { s with width := 0 } := ⟨⟨by simp, by simp [int32Max]⟩, h.precision, h.zero⟩
  have hc0 : checkFloatingPointSpecs { s with width := 0 } = true := hc
  obtain ⟨new, e1, e2, e3, _⟩ := float_emits h0 hc0 hb (k := max 1 ((finiteText s bits).length + 1))
    (by omega) (fun _ => by rw [finiteText_width]; omega) (by
      have := finiteText_length (floatSpecs h hc) hf
      omega) []
  rw [h3] at e1
  have e1 : sg ++ [.area n data] = new := by injection e1
  subst e1
  have hfine : data.length = n := e3 (.area n data) (by simp)
  have hlen := congrArg List.length e2
  have hr : render (sg ++ [.area n data]) = render sg ++ data := by simp [render, WOp.text]
  rw [hr, h4, hcat.2, List.length_append, hfine] at hlen
  have hact : (actualText { s with width := 0 } bits).length =
      (signOf s (signBit bits)).length +
        open Classical in (if LosesZero s bits then (finiteText s bits).length - 1 else (finiteText s bits).length) := by
    unfold actualText floatText
    rw [if_pos hf]
    simp only [paddedNumber_plain, losesZero_width, finiteText_width, signOf_width]
    split
    · rw [if_pos (by assumption)]; simp
    · rw [if_neg (by assumption)]; simp
  have hn : n = onePiece s bits := by
    unfold onePiece
    rw [hact] at hlen
    split at hlen
    · rename_i hz; rw [if_pos hz]; omega
    · rename_i hz; rw [if_neg hz]; simp at hlen; omega
  exact ⟨l, .area n data, r, h1, hn, h2⟩

end Emio
