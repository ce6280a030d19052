import Verif.Model.Scan
import Verif.Spec.WideScan
import Verif.Lemmas.SpecsForward
import Verif.Lemmas.SpecsTotal
import Verif.Lemmas.Numerals
/-
Specifications of scan strings: what validation accepts and parsing repeats.
-/
namespace Emio
open Reader Spec

variable {u : Reader} {s : ScanSpecs} {c d e : Char} {l l' : Str}

/-! ### Forwards -/

theorem scan_alternate_fwd {b : Bool} (h : u.At (c :: l)) (heq : c :: l = (if b then ['#'] else []) ++ e :: l')
    (he : b = false → e ≠ '#') :
    ScanValidate.alternate s c (u.adv 1) =
      .ok ((u.adv (if b then ['#'] else []).length).adv 1) ({ s with alternateForm := b || s.alternateForm }, e) := by
  unfold ScanValidate.alternate
  cases b with
  | false =>
    cases heq
    rw [if_neg (he rfl)]
    rfl
  | true =>
    cases heq
    rw [if_pos rfl, M.bind_ok h.adv1.readChar]
    rfl

theorem scan_width_fwd {ds : Str} (h : u.At (c :: l)) (heq : c :: l = ds ++ e :: l')
    (hd : ∀ x ∈ ds, isDigit x = true) (he : isDigit e = false)
    (hfit : ds ≠ [] → Passes ds ∧ numeralValue 10 ds % 2 ^ 32 ≠ 0) :
    ScanValidate.width s c (u.adv 1) = .ok ((u.adv ds.length).adv 1)
      ({ s with width := if ds = [] then s.width else (numeralValue 10 ds % 2 ^ 32 : Nat) }, e) := by
  unfold ScanValidate.width
  cases ds with
  | nil =>
    cases heq
    rw [if_neg (by simp [he])]
    rfl
  | cons x xs =>
    obtain ⟨f1, f2⟩ := hfit (by simp)
    have hx : x = c := by simp at heq; exact heq.1.symm
    rw [heq] at h
    have := f1.2
    rw [if_pos (by rw [← hx]; exact hd x (by simp)), M.bind_ok (M.modify_run _ _), h.unpop,
      M.bind_ok ((parse_wide h ⟨by simp, hd⟩ (noDigit_cons he)).2 f1.1), if_neg ?_, M.bind_ok h.adv.readChar]
    · simp only [reduceCtorEq, if_false]; rfl
    · unfold int32Max; omega

theorem scan_type_fwd {o : Option Char} (h : u.At (c :: l)) (heq : c :: l = o.toList ++ '}' :: l')
    (ho : ∀ x ∈ o, isAlpha x = true) :
    ScanValidate.type s c (u.adv 1) = .ok ((u.adv o.toList.length).adv 1) ({ s with type := o.getD s.type }, '}') := by
  unfold ScanValidate.type
  cases o with
  | none =>
    cases heq
    rw [if_neg (by decide)]
    rfl
  | some x =>
    cases heq
    rw [if_pos (ho c rfl), M.bind_ok h.adv1.readChar]
    rfl

theorem alpha_props {c : Char} (h : isAlpha c = true) : c ≠ '#' ∧ isDigit c = false ∧ c ≠ '{' ∧ c ≠ '}' := by
  unfold isAlpha at h
  have e1 : ('#' : Char).toNat = 35 := by decide
  have e2 : ('{' : Char).toNat = 123 := by decide
  have e3 : ('}' : Char).toNat = 125 := by decide
  simp at h
  refine ⟨?_, ?_, ?_, ?_⟩
  · rintro rfl; omega
  · unfold isDigit; simp; omega
  · rintro rfl; omega
  · rintro rfl; omega

theorem scan_specs_forward_wide {t : ScanSpec} (wf : t.WellFormed) (pass : t.NumbersPass) {tail : Str}
    (h : u.At (t.text ++ '}' :: tail)) : validateScanSpecs {} u = .ok (u.adv (t.text.length + 1)) t.taken := by
  have hty : ∀ x ∈ t.type, isAlpha x = true := fun x hx => by rw [isAlpha_eq]; exact wf.type x hx
  have hw : ∀ x ∈ t.width, isDigit x = true := fun x hx => by rw [isDigit_eq]; exact wf.width x hx
  obtain ⟨c, l, hcl⟩ := exists_cons_append t.text '}' tail
  rw [hcl] at h
  unfold validateScanSpecs
  rw [M.bind_ok h.readChar]
  by_cases hc : c = '}'
  · rw [if_pos hc]
    subst hc
    have hn : t.text = [] := by
      cases ht : t.text with
      | nil => rfl
      | cons x xs =>
        rw [ht] at hcl
        simp at hcl
        obtain ⟨rfl, _⟩ := hcl
        have hm : '}' ∈ t.text := by rw [ht]; simp
        unfold ScanSpec.text at hm
        simp only [List.mem_append, Option.mem_toList] at hm
        rcases hm with (hm | hm) | hm
        · split at hm <;> simp at hm
        · exact absurd (hw _ hm) (by decide)
        · exact absurd (hty _ hm) (by decide)
    rw [hn]
    obtain ⟨al, w, ty⟩ := t
    unfold ScanSpec.text at hn
    simp only [List.append_eq_nil_iff, Option.toList_eq_nil_iff] at hn
    obtain ⟨⟨h1, rfl⟩, rfl⟩ := hn
    cases al
    · rfl
    · simp at h1
  · rw [if_neg hc]
    have h0 : c :: l = (if t.alt then ['#'] else []) ++ (t.width ++ (t.type.toList ++ '}' :: tail)) := by
      rw [← hcl]; simp [ScanSpec.text]
    obtain ⟨c1, l1, h1⟩ : ∃ c1 l1, t.width ++ (t.type.toList ++ '}' :: tail) = c1 :: l1 := by
      obtain ⟨x, y, hxy⟩ := exists_cons_append (t.width ++ t.type.toList) '}' tail
      exact ⟨x, y, by rw [← hxy]; simp⟩
    obtain ⟨c2, l2, h2⟩ := exists_cons_append t.type.toList '}' tail
    have p2 : c2 ≠ '#' ∧ isDigit c2 = false := by
      rcases head_cases h2 with ⟨hm, _⟩ | ⟨_, hm⟩
      · rw [Option.mem_toList] at hm
        exact ⟨(alpha_props (hty _ hm)).1, (alpha_props (hty _ hm)).2.1⟩
      · cases hm; decide
    have p1 : c1 ≠ '#' := by
      rcases head_cases h1 with ⟨hm, _⟩ | ⟨_, hm⟩
      · have := hw _ hm
        rintro rfl
        exact absurd this (by decide)
      · rw [hm] at h2; cases h2; exact p2.1
    rw [h1] at h0
    rw [M.bind_ok (scan_alternate_fwd h h0 (fun _ => p1))]
    rw [h0] at h
    have a1 := h.adv
    rw [h2] at h1
    simp only
    rw [M.bind_ok (scan_width_fwd a1 h1.symm hw p2.2 pass)]
    rw [← h1] at a1
    have a2 := a1.adv
    simp only
    rw [M.bind_ok (scan_type_fwd a2 h2.symm hty)]
    simp only [if_true]
    refine congrArg₂ _ ?_ ?_
    · unfold ScanSpec.taken ScanSpec.meaning
      simp only [Bool.or_false]
      rfl
    · simp only [adv_adv, ScanSpec.text, List.length_append]

/-- The width passes if it fits. -/
theorem scan_fits_pass {t : ScanSpec} (h : t.Fits) : t.NumbersPass ∧ t.taken = t.meaning := by
  by_cases hw : t.width = []
  · refine ⟨fun h => absurd hw h, ?_⟩
    unfold ScanSpec.taken ScanSpec.meaning ScanSpec.size
    simp [hw]
  · have := h (numeralValue 10 t.width) (by simp [ScanSpec.size, hw])
    have hm : numeralValue 10 t.width % 2 ^ 32 = numeralValue 10 t.width := Nat.mod_eq_of_lt (by omega)
    refine ⟨fun _ => ⟨passes_small this.2, by omega⟩, ?_⟩
    unfold ScanSpec.taken ScanSpec.meaning ScanSpec.size
    simp [hw]
    omega

theorem scan_specs_forward {t : ScanSpec} (wf : t.WellFormed) (fits : t.Fits) {tail : Str}
    (h : u.At (t.text ++ '}' :: tail)) : validateScanSpecs {} u = .ok (u.adv (t.text.length + 1)) t.meaning := by
  rw [scan_specs_forward_wide wf (scan_fits_pass fits).1 h, (scan_fits_pass fits).2]

/-! ### Reduced widths -/

theorem scan_reduced_size (t : ScanSpec) : t.reduced.size = t.size.map (· % 2 ^ 32) := by
  unfold ScanSpec.size ScanSpec.reduced
  by_cases hw : t.width = []
  · simp [hw]
  · simp only [hw, if_false]
    rw [if_neg (numeral_digits _).1, (numeral_digits _).2.2]
    simp

theorem scan_reduced_wellFormed {t : ScanSpec} (wf : t.WellFormed) : t.reduced.WellFormed where
  width := by
    simp only [ScanSpec.reduced]
    split
    · simp
    · exact (numeral_digits _).2.1
  type := wf.type

theorem scan_reduced_meaning (t : ScanSpec) : t.reduced.meaning = t.taken := by
  unfold ScanSpec.taken
  conv_lhs => unfold ScanSpec.meaning
  rw [scan_reduced_size]
  unfold ScanSpec.size ScanSpec.meaning
  by_cases hw : t.width = []
  · simp only [hw, if_true, Option.map_none]; rfl
  · simp only [hw, if_false, Option.map_some]; rfl

theorem scan_reduced_fits {t : ScanSpec} (h : t.NumbersPass) : t.reduced.Fits := by
  intro w hw
  rw [scan_reduced_size] at hw
  unfold ScanSpec.size at hw
  split at hw
  · simp at hw
  · rename_i hne
    simp only [Option.map_some, Option.mem_def, Option.some.injEq] at hw
    obtain ⟨h1, h2⟩ := h hne
    have := h1.2
    omega

/-! ### Parsing repeats validation -/

theorem scan_agree {r' : Reader} {s' : ScanSpecs} (hu : u.Inv) (hv : validateScanSpecs s u = .ok r' s') :
    parseScanSpecs s u = .ok r' s' ∧ r'.Inv := by
  unfold validateScanSpecs at hv
  unfold parseScanSpecs
  obtain ⟨r1, c1, h1, hv⟩ := bind_ok_inv hv
  have i1 := readChar_ok_inv hu h1
  rw [M.bind_ok (assume_ok h1)]
  split at hv
  · rename_i hc
    rw [if_pos hc]
    rw [M.pure_run] at hv ⊢
    obtain ⟨rfl, rfl⟩ := ok_inj hv
    exact ⟨rfl, i1.2.2⟩
  · rename_i hc
    rw [if_neg hc]
    obtain ⟨r2, ⟨s2, c2⟩, h2, hv⟩ := bind_ok_inv hv
    have A : ScanParse.alternate s c1 r1 = .ok r2 (s2, c2) ∧ r2.Inv := by
      unfold ScanValidate.alternate at h2
      unfold ScanParse.alternate
      split at h2
      · rename_i hc
        rw [if_pos hc]
        obtain ⟨r3, c', h3, h2⟩ := bind_ok_inv h2
        rw [M.bind_ok (assume_ok h3)]
        have := readChar_ok_inv i1.2.2 h3
        simp only [M.pure_run] at h2 ⊢
        obtain ⟨rfl, hh⟩ := ok_inj h2
        cases hh
        exact ⟨rfl, this.2.2⟩
      · rename_i hc
        rw [if_neg hc]
        simp only [M.pure_run] at h2 ⊢
        obtain ⟨rfl, hh⟩ := ok_inj h2
        cases hh
        exact ⟨rfl, i1.2.2⟩
    rw [M.bind_ok A.1]
    obtain ⟨r3, ⟨s3, c3⟩, h3, hv⟩ := bind_ok_inv hv
    have B : ScanParse.width s2 c2 r2 = .ok r3 (s3, c3) ∧ r3.Inv := by
      unfold ScanValidate.width at h3
      unfold ScanParse.width
      split at h3
      · rename_i hc
        rw [if_pos hc]
        obtain ⟨r4, x, h4, h3⟩ := bind_ok_inv h3
        rw [M.modify_run] at h4
        obtain ⟨rfl, _⟩ := ok_inj h4
        rw [M.bind_ok (M.modify_run _ _)]
        obtain ⟨r5, w, h5, h3⟩ := bind_ok_inv h3
        have hi : (r2.unpop 1).Inv := by
          have := A.2
          unfold Reader.Inv at *
          unfold unpop
          split
          · simp only; omega
          · simp
        rw [M.bind_ok (assume_ok h5)]
        have h0 := parseInt_nonneg hi h5
        have hi5 := parseInt_inv hi h5
        split at h3
        · simp at h3
        · rename_i hle
          obtain ⟨r6, c', h6, h3⟩ := bind_ok_inv h3
          rw [M.bind_ok (assume_ok h6)]
          have := readChar_ok_inv hi5 h6
          simp only [M.pure_run] at h3 ⊢
          obtain ⟨rfl, hh⟩ := ok_inj h3
          cases hh
          refine ⟨?_, this.2.2⟩
          rw [toInt32_id w h0 (by omega)]
      · rename_i hc
        rw [if_neg hc]
        simp only [M.pure_run] at h3 ⊢
        obtain ⟨rfl, hh⟩ := ok_inj h3
        cases hh
        exact ⟨rfl, A.2⟩
    simp only
    rw [M.bind_ok B.1]
    obtain ⟨r4, ⟨s4, c4⟩, h4, hv⟩ := bind_ok_inv hv
    simp only at hv ⊢
    split at hv
    · rename_i hc4
      rw [M.pure_run] at hv
      obtain ⟨rfl, rfl⟩ := ok_inj hv
      unfold ScanValidate.type at h4
      unfold ScanParse.type
      split at h4
      · rename_i hc
        rw [if_pos hc]
        obtain ⟨r5, c', h5, h4⟩ := bind_ok_inv h4
        have := readChar_ok_inv B.2 h5
        rw [M.bind_ok (M.modify_run _ _)]
        simp only [M.pure_run] at h4 ⊢
        obtain ⟨rfl, hh⟩ := ok_inj h4
        cases hh
        refine ⟨?_, this.2.2⟩
        rw [this.2.1, this.1.pop1]
      · rename_i hc
        rw [if_neg hc]
        simp only [M.pure_run] at h4 ⊢
        obtain ⟨rfl, hh⟩ := ok_inj h4
        cases hh
        exact ⟨rfl, B.2⟩
    · simp at hv

/-! ### Backwards -/

theorem scan_specs_backward {r' : Reader} {s' : ScanSpecs} (hu : u.Inv) (hv : validateScanSpecs {} u = .ok r' s') :
    ∃ (t : ScanSpec) (tail : Str), t.WellFormed ∧ u.rest = t.text ++ '}' :: tail ∧ r' = u.adv (t.text.length + 1) ∧
      t.NumbersPass ∧ s' = t.taken := by
  suffices H : ∃ (t : ScanSpec) (tail : Str), t.WellFormed ∧ u.rest = t.text ++ '}' :: tail ∧
      r' = u.adv (t.text.length + 1) ∧ t.NumbersPass by
    obtain ⟨t, tail, wf, hr, he, hw⟩ := H
    refine ⟨t, tail, wf, hr, he, hw, ?_⟩
    rw [scan_specs_forward_wide wf hw ⟨hu, hr⟩] at hv
    exact (ok_inj hv).2.symm
  unfold validateScanSpecs at hv
  obtain ⟨r1, c, h1, hv⟩ := bind_ok_inv hv
  obtain ⟨l, hl, rfl⟩ := readChar_at ⟨hu, rfl⟩ h1
  have h : u.At (c :: l) := ⟨hu, hl⟩
  split at hv
  · rename_i hc
    subst hc
    rw [M.pure_run] at hv
    obtain ⟨rfl, rfl⟩ := ok_inj hv
    exact ⟨{}, l, ⟨by simp, by simp⟩, by simpa [ScanSpec.text] using hl, rfl, fun h => absurd rfl h⟩
  · rename_i hc
    obtain ⟨r2, ⟨s2, c2⟩, h2, hv⟩ := bind_ok_inv hv
    have A : ∃ b : Bool, StepTo u c l r2 c2 (if b then ['#'] else []) := by
      unfold ScanValidate.alternate at h2
      split at h2
      · rename_i hc
        subst hc
        obtain ⟨r3, c3, h3, h2⟩ := bind_ok_inv h2
        obtain ⟨l', hl', rfl⟩ := readChar_at h.adv1 h3
        rw [M.pure_run] at h2
        obtain ⟨rfl, hh⟩ := ok_inj h2
        cases hh
        exact ⟨true, l', by rw [hl']; rfl, rfl⟩
      · rw [M.pure_run] at h2
        obtain ⟨rfl, hh⟩ := ok_inj h2
        cases hh
        exact ⟨false, stepTo_nil ..⟩
    obtain ⟨b, hs⟩ := A
    obtain ⟨l2, u2, hu2, e2, rfl, a2⟩ := hs.at h
    obtain ⟨r3, ⟨s3, c3⟩, h3, hv⟩ := bind_ok_inv hv
    have B : ∃ ds, (∀ x ∈ ds, isDigit x = true) ∧ StepTo u2 c2 l2 r3 c3 ds ∧
        (ds ≠ [] → Passes ds ∧ numeralValue 10 ds % 2 ^ 32 ≠ 0) := by
      unfold ScanValidate.width at h3
      split at h3
      · rename_i hc
        obtain ⟨r1, x, h1, h3⟩ := bind_ok_inv h3
        rw [M.modify_run, a2.unpop] at h1
        obtain ⟨rfl, _⟩ := ok_inj h1
        obtain ⟨r2, w, h2, h3⟩ := bind_ok_inv h3
        obtain ⟨ds, tail, hl, hds, htail, rfl⟩ := parse_decimal_inv u32 a2 hc h2
        split at h3
        · simp at h3
        · rename_i hle
          have a2' := a2
          rw [hl] at a2
          obtain ⟨r3, c3, h5, h3⟩ := bind_ok_inv h3
          obtain ⟨l', rfl, rfl⟩ := readChar_at a2.adv h5
          rw [M.pure_run] at h3
          obtain ⟨rfl, hh⟩ := ok_inj h3
          cases hh
          refine ⟨ds, hds.2, ⟨l', hl, rfl⟩, fun _ => ?_⟩
          obtain ⟨w1, w2⟩ := parse_wide a2 hds htail
          by_cases hwr : WrapsDown (2 ^ 32) 10 ds
          · rw [w1 hwr] at h2; simp at h2
          · rw [w2 hwr] at h2
            have := (ok_inj h2).2
            unfold int32Max at hle
            exact ⟨⟨hwr, by omega⟩, by omega⟩
      · rw [M.pure_run] at h3
        obtain ⟨rfl, hh⟩ := ok_inj h3
        cases hh
        exact ⟨[], by simp, stepTo_nil .., by simp⟩
    obtain ⟨ds, hds, hs, hfit⟩ := B
    obtain ⟨l3, u3, hu3, e3, rfl, a3⟩ := hs.at a2
    obtain ⟨r4, ⟨s4, c4⟩, h4, hv⟩ := bind_ok_inv hv
    simp only at h4 hv
    have C : ∃ o : Option Char, (∀ x ∈ o, isAlpha x = true) ∧ StepTo u3 c3 l3 r4 c4 o.toList := by
      unfold ScanValidate.type at h4
      split at h4
      · rename_i hc
        obtain ⟨r3, c3, h3, h4⟩ := bind_ok_inv h4
        obtain ⟨l', hl', rfl⟩ := readChar_at a3.adv1 h3
        rw [M.pure_run] at h4
        obtain ⟨rfl, hh⟩ := ok_inj h4
        cases hh
        exact ⟨some _, by simpa using hc, l', by rw [hl']; rfl, rfl⟩
      · rw [M.pure_run] at h4
        obtain ⟨rfl, hh⟩ := ok_inj h4
        cases hh
        exact ⟨none, by simp, stepTo_nil ..⟩
    obtain ⟨o, ho, hs⟩ := C
    obtain ⟨l4, u4, hu4, e4, rfl, a4⟩ := hs.at a3
    split at hv
    · rename_i hc4
      subst hc4
      rw [M.pure_run] at hv
      obtain ⟨rfl, rfl⟩ := ok_inj hv
      refine ⟨⟨b, ds, o⟩, l4, ⟨fun x hx => by rw [← isDigit_eq]; exact hds x hx, fun x hx => by
        rw [← isAlpha_eq]; exact ho x hx⟩, ?_, ?_, ?_⟩
      · rw [h.2, e2, e3, e4]; simp [ScanSpec.text]
      · rw [hu4, hu3, hu2]
        simp only [adv_adv, ScanSpec.text, List.length_append]
      · exact hfit
    · simp at hv

/-! ### Validation terminates -/

theorem safe_scan_specs (s : ScanSpecs) {r : Reader} (h : r.Inv) : Safe (validateScanSpecs s) r := by
  unfold validateScanSpecs
  refine (safe_readChar h).bind fun c r h => ?_
  split
  · exact safe_pure _ h
  · refine Safe.bind ?_ fun p r h => ?_
    · unfold ScanValidate.alternate
      split
      · exact (safe_readChar h).bind fun c r h => safe_pure _ h
      · exact safe_pure _ h
    · refine Safe.bind ?_ fun p r h => ?_
      · unfold ScanValidate.width
        split
        · refine (safe_unpop 1 h).bind fun _ r h => (safe_parse32 h).bind fun w r h => ?_
          split
          · exact safe_throw _
          · exact (safe_readChar h).bind fun c r h => safe_pure _ h
        · exact safe_pure _ h
      · refine Safe.bind ?_ fun p r h => ?_
        · unfold ScanValidate.type
          split
          · exact (safe_readChar h).bind fun c r h => safe_pure _ h
          · exact safe_pure _ h
        · simp only
          split
          · exact safe_pure _ h
          · exact safe_throw _

end Emio
