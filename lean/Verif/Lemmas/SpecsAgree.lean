import Verif.Lemmas.FormatSpecs
/-
`parse_format_specs` repeats what `validate_format_specs` did.
-/
namespace Emio
open Reader

theorem readChar_ok_inv {r r' : Reader} {c : Char} (h : r.Inv) (hr : readChar r = .ok r' c) :
    r.At (c :: r'.rest) ∧ r' = r.adv 1 ∧ r'.Inv := by
  rw [readChar_eq r h] at hr
  cases hl : r.rest with
  | nil => rw [hl] at hr; simp at hr
  | cons d l =>
    rw [hl] at hr
    simp only [Run.ok.injEq] at hr
    obtain ⟨rfl, rfl⟩ := hr
    have hat : r.At (d :: l) := ⟨h, hl⟩
    have := hat.adv1
    refine ⟨⟨h, ?_⟩, rfl, this.1⟩
    rw [hl]
    congr 1
    exact this.2.symm

theorem peek_ok_inv {r r' : Reader} {c : Char} (h : r.Inv) (hr : peek r = .ok r' c) :
    r' = r ∧ ∃ l, r.At (c :: l) := by
  rw [peek_eq r h] at hr
  cases hl : r.rest with
  | nil => rw [hl] at hr; simp at hr
  | cons d l =>
    rw [hl] at hr
    simp only [Run.ok.injEq] at hr
    obtain ⟨rfl, rfl⟩ := hr
    exact ⟨rfl, l, h, hl⟩

theorem ok_inj {σ α : Type} {s s' : σ} {a a' : α} (h : (Run.ok s a : Run σ α) = .ok s' a') : s = s' ∧ a = a' := by
  simpa using h

theorem parseInt_inv {t : IntTy} {r r' : Reader} {v : Int} (h : r.Inv) (hr : parseInt t 10 r = .ok r' v) : r'.Inv := by
  obtain ⟨b, sg, ds, tail, hb, _, _, hrest, hne, hall, htail, hpos⟩ :=
    C02_parse_int_consumes_sign_and_digits t 10 r r' v h hr
  have : r.At ((sg.text ++ ds) ++ tail) := ⟨h, by simpa using hrest⟩
  have := this.adv
  rw [hpos]
  simpa [Reader.adv, Nat.add_assoc] using this.1

theorem parseInt_nonneg {r r' : Reader} {v : Int} (h : r.Inv) (hr : parseInt u32 10 r = .ok r' v) : 0 ≤ v := by
  rcases parse_unsigned u32 (Or.inr rfl) h with ⟨e, he⟩ | ⟨r1, w, hw, h0, _⟩
  · rw [he] at hr; simp at hr
  · rw [hw] at hr; obtain ⟨_, rfl⟩ := ok_inj hr; exact h0

theorem agree_align {s : Specs} {c : Char} {r r' : Reader} {p} (h : r.Inv) (hv : Validate.align s c r = .ok r' p) :
    Parse.align s c r = .ok r' p ∧ r'.Inv := by
  unfold Validate.align at hv
  unfold Parse.align
  obtain ⟨r1, c2, h1, hv'⟩ := bind_ok_inv hv
  clear hv
  obtain ⟨hr1, l, hl⟩ := peek_ok_inv h h1
  subst hr1
  rw [M.bind_ok (assume_ok h1)]
  split at hv'
  · rename_i hc2
    rw [if_pos hc2]
    obtain ⟨r2, u, h2, hv⟩ := bind_ok_inv hv'
    rw [M.modify_run] at h2
    obtain ⟨rfl, _⟩ := ok_inj h2
    rw [M.bind_ok (M.modify_run _ _)]
    obtain ⟨r3, c', h3, hv⟩ := bind_ok_inv hv
    have hi : (r1.pop 1).Inv := by rw [hl.pop1]; exact hl.adv1.1
    have h3' := readChar_ok_inv hi h3
    rw [M.bind_ok (assume_ok h3)]
    simp only [M.pure_run] at hv ⊢
    obtain ⟨rfl, rfl⟩ := ok_inj hv
    exact ⟨rfl, h3'.2.2⟩
  · rename_i hc2
    rw [if_neg hc2]
    split at hv'
    · rename_i hc
      rw [if_pos hc]
      obtain ⟨r3, c', h3, hv⟩ := bind_ok_inv hv'
      have h3' := readChar_ok_inv h h3
      rw [M.bind_ok (assume_ok h3)]
      simp only [M.pure_run] at hv ⊢
      obtain ⟨rfl, rfl⟩ := ok_inj hv
      exact ⟨rfl, h3'.2.2⟩
    · rename_i hc
      rw [if_neg hc]
      simp only [M.pure_run] at hv' ⊢
      obtain ⟨rfl, rfl⟩ := ok_inj hv'
      exact ⟨rfl, h⟩

theorem agree_sign {s : Specs} {c : Char} {r r' : Reader} {p} (h : r.Inv) (hv : Validate.sign s c r = .ok r' p) :
    Parse.sign s c r = .ok r' p ∧ r'.Inv := by
  unfold Validate.sign at hv
  unfold Parse.sign
  split at hv
  · rename_i hc
    rw [if_pos hc]
    obtain ⟨r1, c', h1, hv⟩ := bind_ok_inv hv
    rw [M.bind_ok (assume_ok h1)]
    have := readChar_ok_inv h h1
    simp only [M.pure_run] at hv ⊢
    obtain ⟨rfl, rfl⟩ := ok_inj hv
    exact ⟨rfl, this.2.2⟩
  · rename_i hc
    rw [if_neg hc]
    simp only [M.pure_run] at hv ⊢
    obtain ⟨rfl, rfl⟩ := ok_inj hv
    exact ⟨rfl, h⟩

theorem agree_alternate {s : Specs} {c : Char} {r r' : Reader} {p} (h : r.Inv)
    (hv : Validate.alternate s c r = .ok r' p) : Parse.alternate s c r = .ok r' p ∧ r'.Inv := by
  unfold Validate.alternate at hv
  unfold Parse.alternate
  split at hv
  · rename_i hc
    rw [if_pos hc]
    obtain ⟨r1, c', h1, hv⟩ := bind_ok_inv hv
    rw [M.bind_ok (assume_ok h1)]
    have := readChar_ok_inv h h1
    simp only [M.pure_run] at hv ⊢
    obtain ⟨rfl, rfl⟩ := ok_inj hv
    exact ⟨rfl, this.2.2⟩
  · rename_i hc
    rw [if_neg hc]
    simp only [M.pure_run] at hv ⊢
    obtain ⟨rfl, rfl⟩ := ok_inj hv
    exact ⟨rfl, h⟩

theorem agree_zero {s : Specs} {c : Char} {r r' : Reader} {p} (h : r.Inv) (hv : Validate.zero s c r = .ok r' p) :
    Parse.zero s c r = .ok r' p ∧ r'.Inv := by
  unfold Validate.zero at hv
  unfold Parse.zero
  split at hv
  · rename_i hc
    rw [if_pos hc]
    obtain ⟨r1, c', h1, hv⟩ := bind_ok_inv hv
    rw [M.bind_ok (assume_ok h1)]
    have := readChar_ok_inv h h1
    simp only [M.pure_run] at hv ⊢
    obtain ⟨rfl, rfl⟩ := ok_inj hv
    exact ⟨rfl, this.2.2⟩
  · rename_i hc
    rw [if_neg hc]
    simp only [M.pure_run] at hv ⊢
    obtain ⟨rfl, rfl⟩ := ok_inj hv
    exact ⟨rfl, h⟩

theorem unpop_inv {r : Reader} (h : r.Inv) (n : Nat) : (r.unpop n).Inv := by
  have : (r.unpop n).pos ≤ r.pos := by unfold Reader.unpop; split <;> simp
  have h2 : (r.unpop n).src = r.src := by unfold Reader.unpop; split <;> rfl
  unfold Reader.Inv at *
  rw [h2]
  omega

theorem agree_width {s : Specs} {c : Char} {r r' : Reader} {p} (h : r.Inv) (hv : Validate.width s c r = .ok r' p) :
    Parse.width s c r = .ok r' p ∧ r'.Inv := by
  unfold Validate.width at hv
  unfold Parse.width
  split at hv
  · rename_i hc
    rw [if_pos hc]
    obtain ⟨r1, u, h1, hv⟩ := bind_ok_inv hv
    simp only [M.modify_run] at h1
    obtain ⟨rfl, _⟩ := ok_inj h1
    rw [M.bind_ok (M.modify_run _ _)]
    obtain ⟨r2, w, h2, hv⟩ := bind_ok_inv hv
    rw [M.bind_ok (assume_ok h2)]
    have hi2 := parseInt_inv (unpop_inv h 1) h2
    have h0 := parseInt_nonneg (unpop_inv h 1) h2
    split at hv
    · simp at hv
    · rename_i hw
      obtain ⟨r3, c', h3, hv⟩ := bind_ok_inv hv
      rw [M.bind_ok (assume_ok h3)]
      have := readChar_ok_inv hi2 h3
      rw [toInt32_id w h0 (by omega)]
      simp only [M.pure_run] at hv ⊢
      obtain ⟨rfl, rfl⟩ := ok_inj hv
      exact ⟨rfl, this.2.2⟩
  · rename_i hc
    rw [if_neg hc]
    simp only [M.pure_run] at hv ⊢
    obtain ⟨rfl, rfl⟩ := ok_inj hv
    exact ⟨rfl, h⟩

theorem agree_precision {s : Specs} {c : Char} {r r' : Reader} {p} (h : r.Inv)
    (hv : Validate.precision s c r = .ok r' p) : Parse.precision s c r = .ok r' p ∧ r'.Inv := by
  unfold Validate.precision at hv
  unfold Parse.precision
  split at hv
  · rename_i hc
    rw [if_pos hc]
    obtain ⟨r1, u, h1, hv⟩ := bind_ok_inv hv
    simp only [M.get_run] at h1
    obtain ⟨rfl, rfl⟩ := ok_inj h1
    split at hv
    · simp at hv
    · obtain ⟨r2, w, h2, hv⟩ := bind_ok_inv hv
      rw [M.bind_ok (assume_ok h2)]
      have hi2 := parseInt_inv h h2
      have h0 := parseInt_nonneg h h2
      split at hv
      · simp at hv
      · rename_i hw
        obtain ⟨r3, c', h3, hv⟩ := bind_ok_inv hv
        rw [M.bind_ok (assume_ok h3)]
        have := readChar_ok_inv hi2 h3
        rw [toInt32_id w h0 (by omega)]
        simp only [M.pure_run] at hv ⊢
        obtain ⟨rfl, rfl⟩ := ok_inj hv
        exact ⟨rfl, this.2.2⟩
  · rename_i hc
    rw [if_neg hc]
    simp only [M.pure_run] at hv ⊢
    obtain ⟨rfl, rfl⟩ := ok_inj hv
    exact ⟨rfl, h⟩

theorem agree_type {s : Specs} {c : Char} {r r' : Reader} {s' : Specs} {c' : Char} (h : r.Inv)
    (hv : Validate.type s c r = .ok r' (s', c')) : Parse.type s c r = .ok r' s' ∧ r'.Inv := by
  unfold Validate.type at hv
  unfold Parse.type
  split at hv
  · rename_i hc
    rw [if_pos hc]
    obtain ⟨r1, c', h1, hv⟩ := bind_ok_inv hv
    have := readChar_ok_inv h h1
    rw [M.bind_ok (M.modify_run _ _), this.1.pop1, ← this.2.1]
    simp only [M.pure_run] at hv ⊢
    obtain ⟨rfl, heq⟩ := ok_inj hv
    cases heq
    exact ⟨rfl, this.2.2⟩
  · rename_i hc
    rw [if_neg hc]
    simp only [M.pure_run] at hv ⊢
    obtain ⟨rfl, heq⟩ := ok_inj hv
    cases heq
    exact ⟨rfl, h⟩

theorem specs_agree {s s' : Specs} {r r' : Reader} (h : r.Inv) (hv : validateFormatSpecs s r = .ok r' s') :
    parseFormatSpecs s r = .ok r' s' ∧ r'.Inv := by
  unfold validateFormatSpecs at hv
  unfold parseFormatSpecs
  obtain ⟨r1, c, h1, hv⟩ := bind_ok_inv hv
  have hi := (readChar_ok_inv h h1).2.2
  rw [M.bind_ok (assume_ok h1)]
  split at hv
  · rename_i hc
    rw [if_pos hc]
    simp only [M.pure_run] at hv ⊢
    obtain ⟨rfl, rfl⟩ := ok_inj hv
    exact ⟨rfl, hi⟩
  · rename_i hc
    rw [if_neg hc]
    split at hv
    · simp at hv
    · unfold Validate.steps at hv
      obtain ⟨r2, ⟨s2, c2⟩, h2, hv⟩ := bind_ok_inv hv
      obtain ⟨h2, hi⟩ := agree_align hi h2
      rw [M.bind_ok h2]
      simp only at hv ⊢
      obtain ⟨r3, ⟨s3, c3⟩, h3, hv⟩ := bind_ok_inv hv
      obtain ⟨h3, hi⟩ := agree_sign hi h3
      rw [M.bind_ok h3]
      simp only at hv ⊢
      obtain ⟨r4, ⟨s4, c4⟩, h4, hv⟩ := bind_ok_inv hv
      obtain ⟨h4, hi⟩ := agree_alternate hi h4
      rw [M.bind_ok h4]
      simp only at hv ⊢
      obtain ⟨r5, ⟨s5, c5⟩, h5, hv⟩ := bind_ok_inv hv
      obtain ⟨h5, hi⟩ := agree_zero hi h5
      rw [M.bind_ok h5]
      simp only at hv ⊢
      obtain ⟨r6, ⟨s6, c6⟩, h6, hv⟩ := bind_ok_inv hv
      obtain ⟨h6, hi⟩ := agree_width hi h6
      rw [M.bind_ok h6]
      simp only at hv ⊢
      obtain ⟨r7, ⟨s7, c7⟩, h7, hv⟩ := bind_ok_inv hv
      obtain ⟨h7, hi⟩ := agree_precision hi h7
      rw [M.bind_ok h7]
      simp only at hv ⊢
      obtain ⟨r8, ⟨s8, c8⟩, h8, hv⟩ := bind_ok_inv hv
      obtain ⟨h8, hi⟩ := agree_type hi h8
      simp only at hv ⊢
      split at hv
      · simp only [M.pure_run] at hv
        obtain ⟨rfl, rfl⟩ := ok_inj hv
        exact ⟨h8, hi⟩
      · simp at hv

end Emio
