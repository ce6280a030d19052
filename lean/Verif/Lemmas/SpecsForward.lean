import Verif.Lemmas.SpecsGrammar
/-
A format specification of the grammar is accepted and means what it says.
-/
namespace Emio
open Reader Spec

/-- Characters which end all parts but the type. -/
structure Late (c : Char) : Prop where
  align : isAlignChar c = false
  sign : isSignChar c = false
  alt : c ≠ '#'
  digit : isDigit c = false
  dot : c ≠ '.'
  zero : c ≠ '0'

theorem late_type {c : Char} (h : isAlpha c = true ∨ c = '?') : Late c ∧ c ≠ '{' ∧ c ≠ '}' := by
  rcases h with h | rfl
  · have hne : ∀ d : Char, isAlpha d = false → c ≠ d := fun d hd he => by rw [he, hd] at h; exact absurd h (by decide)
    refine ⟨⟨?_, ?_, hne _ (by decide), ?_, hne _ (by decide), hne _ (by decide)⟩, hne _ (by decide), hne _ (by decide)⟩
    · simp [isAlignChar, hne '<' (by decide), hne '^' (by decide), hne '>' (by decide)]
    · simp [isSignChar, hne '+' (by decide), hne '-' (by decide), hne ' ' (by decide)]
    · unfold isAlpha at h
      unfold isDigit
      simp at *
      omega
  · exact ⟨⟨by decide, by decide, by decide, by decide, by decide, by decide⟩, by decide, by decide⟩

theorem late_brace : Late '}' := ⟨by decide, by decide, by decide, by decide, by decide, by decide⟩

theorem digit_props {c : Char} (h : isDigit c = true) :
    isAlignChar c = false ∧ isSignChar c = false ∧ c ≠ '#' ∧ c ≠ '.' ∧ c ≠ '{' ∧ c ≠ '}' := by
  have hne : ∀ d : Char, isDigit d = false → c ≠ d := fun d hd he => by rw [he, hd] at h; exact absurd h (by decide)
  refine ⟨?_, ?_, hne _ (by decide), hne _ (by decide), hne _ (by decide), hne _ (by decide)⟩
  · simp [isAlignChar, hne '<' (by decide), hne '^' (by decide), hne '>' (by decide)]
  · simp [isSignChar, hne '+' (by decide), hne '-' (by decide), hne ' ' (by decide)]

variable {u : Reader} {s : Specs} {c e : Char} {l l' : Str}

theorem sign_fwd {o : Option Char} (h : u.At (c :: l)) (heq : c :: l = o.toList ++ e :: l')
    (ho : ∀ x ∈ o, isSignChar x = true) (he : isSignChar e = false) :
    Validate.sign s c (u.adv 1) = .ok ((u.adv o.toList.length).adv 1) ({ s with sign := o.getD s.sign }, e) := by
  cases o with
  | none => cases heq; exact sign_none he _
  | some x => cases heq; exact sign_some h (ho c rfl)

theorem alternate_fwd {b : Bool} (h : u.At (c :: l)) (heq : c :: l = (if b then ['#'] else []) ++ e :: l')
    (he : e ≠ '#') :
    Validate.alternate s c (u.adv 1) = .ok ((u.adv (if b then ['#'] else []).length).adv 1)
      ({ s with alternateForm := b || s.alternateForm }, e) := by
  cases b with
  | false => cases heq; simpa using alternate_none he _
  | true => cases heq; exact alternate_some h

theorem zero_fwd {b : Bool} (h : u.At (c :: l)) (heq : c :: l = (if b then ['0'] else []) ++ e :: l')
    (he : b = false → e ≠ '0') :
    Validate.zero s c (u.adv 1) = .ok ((u.adv (if b then ['0'] else []).length).adv 1)
      (if b = true ∧ s.align = .none then { s with fill := '0', align := .right, zeroFlag := true } else s, e) := by
  cases b with
  | false => cases heq; simpa using zero_none (he rfl) _
  | true => cases heq; rw [zero_some h]; simp

theorem width_fwd {ds : Str} (h : u.At (c :: l)) (heq : c :: l = ds ++ e :: l') (hd : ∀ x ∈ ds, isDigit x = true)
    (he : isDigit e = false) (hs : s.width = 0) (hfit : Passes ds) :
    Validate.width s c (u.adv 1) =
      .ok ((u.adv ds.length).adv 1) ({ s with width := ((numeralValue 10 ds % 2 ^ 32 : Nat) : Int) }, e) := by
  cases ds with
  | nil =>
    cases heq
    rw [width_none he]
    rw [show ((numeralValue 10 ([] : Str) % 2 ^ 32 : Nat) : Int) = 0 from rfl, ← hs]
    rfl
  | cons x xs =>
    have hx : x = c := by simp at heq; exact heq.1.symm
    rw [heq] at h
    exact width_some h ⟨by simp, hd⟩ (by simp [hx]) he hfit

/-- The precision as written. -/
def precText : Option Str → Str
  | some p => '.' :: p
  | none => []

theorem precision_fwd {o : Option Str} (h : u.At (c :: l)) (heq : c :: l = precText o ++ e :: l')
    (ho : ∀ p ∈ o, Digits p) (he : isDigit e = false) (hdot : e ≠ '.') (hs : s.precision = -1)
    (hfit : ∀ p ∈ o, Passes p) :
    Validate.precision s c (u.adv 1) = .ok ((u.adv (precText o).length).adv 1)
      ({ s with precision := SpecText.precLeft { prec := o } }, e) := by
  cases o with
  | none =>
    cases heq
    rw [precision_none hdot, show SpecText.precLeft { prec := none } = -1 from rfl, ← hs]
    rfl
  | some p =>
    have hx : c = '.' := by simp [precText] at heq; exact heq.1
    subst hx
    rw [heq] at h
    exact precision_some h (ho p rfl) he (hfit p rfl)

theorem type_fwd {o : Option Char} (h : u.At (c :: l)) (heq : c :: l = o.toList ++ '}' :: l')
    (ho : ∀ x ∈ o, isAlpha x = true ∨ x = '?') :
    Validate.type s c (u.adv 1) = .ok ((u.adv o.toList.length).adv 1) ({ s with type := o.getD s.type }, '}') := by
  cases o with
  | none => cases heq; exact type_none (by decide) (by decide) _
  | some x => cases heq; exact type_some h (ho c rfl)

theorem alignment_eq {x : Char} (h : isAlignChar x = true) : SpecText.alignment (some x) = alignOf x := by
  simp only [isAlignChar, Bool.or_eq_true, beq_iff_eq] at h
  rcases h with (rfl | rfl) | rfl <;> decide

theorem alignOf_ne_none (x : Char) : alignOf x ≠ .none := by
  unfold alignOf; split
  · simp
  · split <;> simp

theorem exists_cons_append (a : Str) (x : Char) (b : Str) : ∃ e l, a ++ x :: b = e :: l := by
  cases a with
  | nil => exact ⟨x, b, rfl⟩
  | cons y ys => exact ⟨y, ys ++ x :: b, rfl⟩

theorem head_cases {a b l : Str} {e : Char} (h : a ++ b = e :: l) : (e ∈ a ∧ a.head? = some e) ∨ (a = [] ∧ b = e :: l) := by
  cases a with
  | nil => right; exact ⟨rfl, h⟩
  | cons y ys => simp at h; left; simp [h.1]

theorem mem_isAlign {c : Char} : c ∈ ['<', '^', '>'] ↔ isAlignChar c = true := by
  simp [isAlignChar]; grind

theorem mem_isSign {c : Char} : c ∈ ['+', '-', ' '] ↔ isSignChar c = true := by
  simp [isSignChar]; grind

theorem sign_props {c : Char} (h : isSignChar c = true) : isAlignChar c = false ∧ c ≠ '{' ∧ c ≠ '}' := by
  simp only [isSignChar, Bool.or_eq_true, beq_iff_eq] at h
  rcases h with (rfl | rfl) | rfl <;> decide

theorem align_props {c : Char} (h : isAlignChar c = true) : c ≠ '{' ∧ c ≠ '}' := by
  simp only [isAlignChar, Bool.or_eq_true, beq_iff_eq] at h
  rcases h with (rfl | rfl) | rfl <;> decide

/-- The part of a specification behind the alignment. -/
def tailText (t : SpecText) : Str :=
  t.sign.toList ++ ((if t.alt then ['#'] else []) ++ ((if t.zero then ['0'] else []) ++ (t.width ++
    (precText t.prec ++ t.type.toList))))

theorem text_eq (t : SpecText) : t.text = t.fill.toList ++ t.align.toList ++ tailText t := by
  unfold SpecText.text tailText precText
  cases t.prec <;> simp

theorem tailText_props {t : SpecText} (wf : t.WellFormed) {x : Char} (hx : x ∈ tailText t) :
    isAlignChar x = false ∧ x ≠ '{' ∧ x ≠ '}' := by
  unfold tailText at hx
  simp only [List.mem_append] at hx
  rcases hx with hx | hx | hx | hx | hx | hx
  · have := wf.sign x (by simpa using hx)
    exact sign_props (mem_isSign.1 this)
  · split at hx
    · simp at hx; subst hx; decide
    · simp at hx
  · split at hx
    · simp at hx; subst hx; decide
    · simp at hx
  · have := wf.width x hx
    rw [← isDigit_eq] at this
    have := digit_props this
    exact ⟨this.1, this.2.2.2.2.1, this.2.2.2.2.2⟩
  · cases hp : t.prec with
    | none => rw [hp] at hx; simp [precText] at hx
    | some p =>
      rw [hp] at hx
      simp only [precText, List.mem_cons] at hx
      rcases hx with rfl | hx
      · decide
      · have := (wf.prec p hp).2 x hx
        rw [← isDigit_eq] at this
        have := digit_props this
        exact ⟨this.1, this.2.2.2.2.1, this.2.2.2.2.2⟩
  · have := wf.type x (by simpa using hx)
    rw [← isAlpha_eq] at this
    have := late_type this
    exact ⟨this.1.align, this.2.1, this.2.2⟩

theorem text_props {t : SpecText} (wf : t.WellFormed) {x : Char} (hx : x ∈ t.text) : x ≠ '{' ∧ x ≠ '}' := by
  rw [text_eq] at hx
  simp only [List.mem_append] at hx
  rcases hx with (hx | hx) | hx
  · exact (wf.fill x (by simpa using hx)).2
  · exact align_props (mem_isAlign.1 (wf.align x (by simpa using hx)))
  · exact (tailText_props wf hx).2

/-- The alignment step. -/
theorem align_fwd {t : SpecText} (wf : t.WellFormed) {c e : Char} {l l1 tail : Str} (h : u.At (c :: l))
    (h0 : c :: l = t.fill.toList ++ t.align.toList ++ e :: l1) (h1 : tailText t ++ '}' :: tail = e :: l1) (hc : c ≠ '}') :
    Validate.align {} c (u.adv 1) = .ok ((u.adv (t.fill.toList ++ t.align.toList).length).adv 1)
      ({ fill := if t.align.isSome then t.fill.getD ' ' else ' ', align := SpecText.alignment t.align }, e) := by
  have hmem : ∀ x ∈ e :: l1, x ∈ tailText t ∨ x ∈ '}' :: tail := fun x hx => by
    rw [← h1, List.mem_append] at hx; exact hx
  have hne : e ∈ tailText t ∨ e = '}' := by
    rcases head_cases h1 with ⟨h, _⟩ | ⟨_, h⟩
    · exact Or.inl h
    · right; simp at h; exact h.1.symm
  have he : isAlignChar e = false := by
    rcases hne with h | rfl
    · exact (tailText_props wf h).1
    · decide
  cases ha : t.align with
  | none =>
    cases hf : t.fill with
    | some x => have := (wf.fill x hf).1; rw [ha] at this; simp at this
    | none =>
      rw [ha, hf] at h0
      cases h0
      simp only [Option.toList_none, List.nil_append, List.length_nil, Reader.adv_zero, Option.isSome_none]
      cases hT : tailText t with
      | nil => rw [hT] at h1; cases h1; exact absurd rfl hc
      | cons y ys =>
        rw [hT] at h1
        cases h1
        obtain ⟨d, l2, hd⟩ := exists_cons_append ys '}' tail
        replace h : u.At (c :: d :: l2) := hd ▸ h
        have hd' : isAlignChar d = false := by
          rcases head_cases hd with ⟨h, _⟩ | ⟨_, h⟩
          · exact (tailText_props wf (by rw [hT]; simp [h])).1
          · simp at h; rw [← h.1]; decide
        rw [align_none h hd' he]
        rfl
  | some a =>
    have haa := mem_isAlign.1 (wf.align a ha)
    rw [alignment_eq haa]
    cases hf : t.fill with
    | none =>
      rw [ha, hf] at h0
      cases h0
      rw [align_only h he haa]
      rfl
    | some f =>
      rw [ha, hf] at h0
      cases h0
      rw [align_fill h rfl haa]
      rfl

theorem bind_err_ex {σ α β : Type} {m : M σ α} {f : α → M σ β} {s : σ} {P : Err → Prop}
    (h : ∃ s' e, m s = .err s' e ∧ P e) : ∃ s' e, (m >>= f) s = .err s' e ∧ P e := by
  obtain ⟨s', e, h, hp⟩ := h
  exact ⟨s', e, M.bind_err h, hp⟩

/-- A prefix of a numeral denotes no greater number. -/
theorem numeralValue_append_le (a b : Str) : numeralValue 10 a ≤ numeralValue 10 (a ++ b) := by
  unfold numeralValue denote
  rw [List.filterMap_append, List.foldl_append]
  generalize List.foldl (fun a d => a * 10 + d) 0 (List.filterMap (symbolValue 10) a) = n
  generalize List.filterMap (symbolValue 10) b = l
  induction l generalizing n with
  | nil => simp
  | cons d l ih => exact Nat.le_trans (by omega) (ih (n * 10 + d))

theorem wraps_small {ds : Str} (h : numeralValue 10 ds < 2 ^ 32) : ¬ WrapsDown (2 ^ 32) 10 ds := by
  rintro ⟨pre, suf, c, rfl, hlt⟩
  have h1 := numeralValue_append_le pre [c]
  have h2 := numeralValue_append_le (pre ++ [c]) suf
  rw [List.append_assoc, List.singleton_append] at h2
  rw [Nat.mod_eq_of_lt (by omega), Nat.mod_eq_of_lt (by omega)] at hlt
  omega

theorem passes_small {ds : Str} (h : numeralValue 10 ds < 2 ^ 31) : Passes ds :=
  ⟨wraps_small (by omega), by rw [Nat.mod_eq_of_lt (by omega)]; exact h⟩

theorem passes_iff {ds : Str} (h : numeralValue 10 ds < 2 ^ 32) : Passes ds ↔ numeralValue 10 ds < 2 ^ 31 := by
  refine ⟨fun hp => ?_, passes_small⟩
  have := hp.2
  rwa [Nat.mod_eq_of_lt h] at this

/-- The numbers pass if they fit. -/
theorem fits_pass {t : SpecText} (h : t.Fits) : t.NumbersPass ∧ t.taken = t.meaning := by
  obtain ⟨h1, h2⟩ := h
  have hp : ∀ p ∈ t.prec, numeralValue 10 p < 2 ^ 31 := by
    intro p hp
    unfold SpecText.precValue at h2
    rw [Option.mem_def.1 hp] at h2
    simp only at h2
    omega
  refine ⟨⟨passes_small h1, fun p h => passes_small (hp p h)⟩, ?_⟩
  have e1 : ((t.widthValue % 2 ^ 32 : Nat) : Int) = t.widthValue := by rw [Nat.mod_eq_of_lt (by omega)]
  have e2 : t.precLeft = t.precValue := by
    unfold SpecText.precLeft SpecText.precValue
    cases hpr : t.prec with
    | none => rfl
    | some p =>
      have := hp p hpr
      simp only
      rw [Nat.mod_eq_of_lt (by omega)]
  unfold SpecText.taken
  rw [e1, e2]
  rfl

theorem width_reject {ds : Str} (h : u.At (c :: l)) (heq : c :: l = ds ++ e :: l') (hd : ∀ x ∈ ds, isDigit x = true)
    (he : isDigit e = false) (hfit : ¬ Passes ds) :
    ∃ r' x, Validate.width s c (u.adv 1) = .err r' x ∧ (x = .invalidFormat ∨ x = .outOfRange ∧ WrapsDown (2 ^ 32) 10 ds) := by
  cases ds with
  | nil => exact absurd (passes_small (by decide)) hfit
  | cons x xs =>
    have hx : x = c := by simp at heq; exact heq.1.symm
    subst hx
    rw [heq] at h
    unfold Validate.width
    rw [if_pos (hd x (by simp)), M.bind_ok (M.modify_run _ _), h.unpop]
    obtain ⟨p1, p2⟩ := parse_wide h ⟨by simp, hd⟩ (noDigit_cons he)
    by_cases hw : WrapsDown (2 ^ 32) 10 (x :: xs)
    · exact ⟨u, _, M.bind_err (p1 hw), Or.inr ⟨rfl, hw⟩⟩
    · refine ⟨u.adv (x :: xs).length, .invalidFormat, ?_, Or.inl rfl⟩
      have : ¬ numeralValue 10 (x :: xs) % 2 ^ 32 < 2 ^ 31 := fun hlt => hfit ⟨hw, hlt⟩
      rw [M.bind_ok (p2 hw), if_pos (by unfold int32Max; omega)]
      rfl

theorem precision_reject {p : Str} (h : u.At (c :: l)) (heq : c :: l = precText (some p) ++ e :: l')
    (ho : Digits p) (he : isDigit e = false) (hfit : ¬ Passes p) :
    ∃ r' x, Validate.precision s c (u.adv 1) = .err r' x ∧
      (x = .invalidFormat ∨ x = .outOfRange ∧ WrapsDown (2 ^ 32) 10 p) := by
  have hx : c = '.' := by simp [precText] at heq; exact heq.1
  subst hx
  rw [heq] at h
  replace h : u.At ('.' :: (p ++ e :: l')) := h
  obtain ⟨p1, p2⟩ := parse_wide h.adv1 ho (noDigit_cons he)
  obtain ⟨a, as, rfl⟩ := List.exists_cons_of_ne_nil ho.1
  have ha : isDigit a = true := ho.2 a (by simp)
  unfold Validate.precision
  rw [if_pos rfl, M.bind_ok (M.get_run _), noDigitNext_eq h.adv1, ha, if_neg (by simp)]
  by_cases hw : WrapsDown (2 ^ 32) 10 (a :: as)
  · exact ⟨u.adv 1, _, M.bind_err (p1 hw), Or.inr ⟨rfl, hw⟩⟩
  · refine ⟨(u.adv 1).adv (a :: as).length, .invalidFormat, ?_, Or.inl rfl⟩
    have : ¬ numeralValue 10 (a :: as) % 2 ^ 32 < 2 ^ 31 := fun hlt => hfit ⟨hw, hlt⟩
    rw [M.bind_ok (p2 hw), if_pos (by unfold int32Max; omega)]
    rfl

theorem specs_forward_wide {t : SpecText} (wf : t.WellFormed) (fits : t.NumbersPass) {tail : Str}
    (h : u.At (t.text ++ '}' :: tail)) :
    validateFormatSpecs {} u = .ok (u.adv (t.text.length + 1)) t.taken := by
  obtain ⟨c, l, h0⟩ := exists_cons_append t.text '}' tail
  rw [h0] at h
  unfold validateFormatSpecs
  rw [M.bind_ok h.readChar]
  by_cases hc : c = '}'
  · rw [if_pos hc]
    subst hc
    have htext : t.text = [] := by
      rcases head_cases h0 with ⟨hh, _⟩ | ⟨hh, _⟩
      · exact absurd rfl (text_props wf hh).2
      · exact hh
    rw [htext]
    simp only [List.length_nil, Nat.zero_add, M.pure_run]
    congr 1
    unfold SpecText.text at htext
    simp only [List.append_eq_nil_iff, Option.toList_eq_nil_iff] at htext
    obtain ⟨⟨⟨⟨⟨⟨⟨h1, h2⟩, h3⟩, h4⟩, h5⟩, h6⟩, h7⟩, h8⟩ := htext
    have h4 : t.alt = false := by cases hx : t.alt <;> simp_all
    have h5 : t.zero = false := by cases hx : t.zero <;> simp_all
    have h7 : t.prec = none := by cases hx : t.prec <;> simp_all
    simp [SpecText.taken, SpecText.precLeft, SpecText.meaning, h1, h2, h3, h4, h5, h6, h7, h8, SpecText.widthValue,
      numeralValue, noChar, noPrecision]
    rfl
  · rw [if_neg hc]
    have hc2 : c ≠ '{' := by
      rcases head_cases h0 with ⟨hh, _⟩ | ⟨_, hh⟩
      · exact (text_props wf hh).1
      · simp at hh; rw [← hh.1]; decide
    rw [if_neg hc2]
    unfold Validate.steps
    -- the texts before the steps
    obtain ⟨e6, l6, h6⟩ := exists_cons_append t.type.toList '}' tail
    have hwidth : ∀ x ∈ t.width, isDigit x = true := fun x hx => by rw [isDigit_eq]; exact wf.width x hx
    have hprec : ∀ p ∈ t.prec, Digits p := fun p hp =>
      ⟨(wf.prec p hp).1, fun x hx => by rw [isDigit_eq]; exact (wf.prec p hp).2 x hx⟩
    have htype : ∀ x ∈ t.type, isAlpha x = true ∨ x = '?' := fun x hx => by rw [isAlpha_eq]; exact wf.type x hx
    have p6 : Late e6 := by
      rcases head_cases h6 with ⟨hh, _⟩ | ⟨_, hh⟩
      · exact (late_type (htype e6 (by simpa using hh))).1
      · simp at hh; rw [← hh.1]; exact late_brace
    obtain ⟨e5, l5, h5⟩ := exists_cons_append (precText t.prec) e6 l6
    have p5 : isAlignChar e5 = false ∧ isSignChar e5 = false ∧ e5 ≠ '#' ∧ isDigit e5 = false ∧ e5 ≠ '0' := by
      rcases head_cases h5 with ⟨_, hh⟩ | ⟨_, hh⟩
      · cases hp : t.prec with
        | none => rw [hp] at hh; simp [precText] at hh
        | some p => rw [hp] at hh; simp [precText] at hh; rw [← hh]; decide
      · simp at hh; rw [← hh.1]; exact ⟨p6.align, p6.sign, p6.alt, p6.digit, p6.zero⟩
    obtain ⟨e4, l4, h4⟩ := exists_cons_append t.width e5 l5
    have p4 : isAlignChar e4 = false ∧ isSignChar e4 = false ∧ e4 ≠ '#' ∧ (t.zero = false → e4 ≠ '0') := by
      rcases head_cases h4 with ⟨hm, hh⟩ | ⟨_, hh⟩
      · have := digit_props (hwidth e4 hm)
        refine ⟨this.1, this.2.1, this.2.2.1, fun hz he => ?_⟩
        subst he
        exact wf.widthHead hz hh
      · simp at hh; rw [← hh.1]; exact ⟨p5.1, p5.2.1, p5.2.2.1, fun _ => p5.2.2.2.2⟩
    obtain ⟨e3, l3, h3⟩ := exists_cons_append (if t.zero then ['0'] else []) e4 l4
    have p3 : isAlignChar e3 = false ∧ isSignChar e3 = false ∧ e3 ≠ '#' := by
      rcases head_cases h3 with ⟨_, hh⟩ | ⟨_, hh⟩
      · split at hh
        · simp at hh; rw [← hh]; decide
        · simp at hh
      · simp at hh; rw [← hh.1]; exact ⟨p4.1, p4.2.1, p4.2.2.1⟩
    obtain ⟨e2, l2, h2⟩ := exists_cons_append (if t.alt then ['#'] else []) e3 l3
    have p2 : isAlignChar e2 = false ∧ isSignChar e2 = false := by
      rcases head_cases h2 with ⟨_, hh⟩ | ⟨_, hh⟩
      · split at hh
        · simp at hh; rw [← hh]; decide
        · simp at hh
      · simp at hh; rw [← hh.1]; exact ⟨p3.1, p3.2.1⟩
    obtain ⟨e1, l1, h1⟩ := exists_cons_append t.sign.toList e2 l2
    have hT : tailText t ++ '}' :: tail = e1 :: l1 := by
      unfold tailText
      simp only [List.append_assoc]
      rw [h6, h5, h4, h3, h2, h1]
    have h0' : c :: l = t.fill.toList ++ t.align.toList ++ e1 :: l1 := by
      rw [← h0, text_eq, List.append_assoc, hT]
    rw [M.bind_ok (align_fwd wf h h0' hT hc)]
    have a1 : (u.adv (t.fill.toList ++ t.align.toList).length).At (e1 :: l1) := by
      rw [h0'] at h; exact h.adv
    simp only
    rw [M.bind_ok (sign_fwd a1 h1.symm (fun x hx => mem_isSign.1 (wf.sign x hx)) p2.2)]
    rw [← h1] at a1
    have a2 := a1.adv
    simp only
    rw [M.bind_ok (alternate_fwd a2 h2.symm p3.2.2)]
    rw [← h2] at a2
    have a3 := a2.adv
    simp only
    rw [M.bind_ok (zero_fwd a3 h3.symm p4.2.2.2)]
    rw [← h3] at a3
    have a4 := a3.adv
    simp only
    rw [M.bind_ok (width_fwd a4 h4.symm hwidth p5.2.2.2.1 (by split <;> rfl) fits.1)]
    rw [← h4] at a4
    have a5 := a4.adv
    simp only
    rw [M.bind_ok (precision_fwd a5 h5.symm hprec p6.digit p6.dot (by split <;> rfl) fits.2)]
    rw [← h5] at a5
    have a6 := a5.adv
    simp only
    rw [M.bind_ok (type_fwd a6 h6.symm htype)]
    simp only [if_true, M.pure_run]
    congr 1
    · simp only [Reader.adv_adv]
      congr 1
      rw [text_eq]
      unfold tailText
      simp only [List.length_append]
      omega
    · rw [show SpecText.precLeft { prec := t.prec } = t.precLeft from rfl]
      unfold SpecText.taken SpecText.meaning
      cases ha : t.align with
      | none =>
        cases hz : t.zero <;>
          simp [SpecText.alignment, noChar, SpecText.widthValue]
      | some a =>
        have haa := mem_isAlign.1 (wf.align a ha)
        have := alignOf_ne_none a
        cases hz : t.zero <;>
          simp [alignment_eq haa, noChar, SpecText.widthValue, this]

theorem specs_forward {t : SpecText} (wf : t.WellFormed) (fits : t.Fits) {tail : Str}
    (h : u.At (t.text ++ '}' :: tail)) :
    validateFormatSpecs {} u = .ok (u.adv (t.text.length + 1)) t.meaning := by
  rw [← (fits_pass fits).2]
  exact specs_forward_wide wf (fits_pass fits).1 h

theorem specs_reject_wide {t : SpecText} (wf : t.WellFormed) (fits : ¬ t.NumbersPass) {tail : Str}
    (h : u.At (t.text ++ '}' :: tail)) :
    ∃ r' e, validateFormatSpecs {} u = .err r' e ∧ (e = .invalidFormat ∨ e = .outOfRange ∧
      (WrapsDown (2 ^ 32) 10 t.width ∨ ∃ p ∈ t.prec, WrapsDown (2 ^ 32) 10 p)) := by
  obtain ⟨c, l, h0⟩ := exists_cons_append t.text '}' tail
  rw [h0] at h
  unfold validateFormatSpecs
  rw [M.bind_ok h.readChar]
  by_cases hc : c = '}'
  · rw [if_pos hc]
    subst hc
    have htext : t.text = [] := by
      rcases head_cases h0 with ⟨hh, _⟩ | ⟨hh, _⟩
      · exact absurd rfl (text_props wf hh).2
      · exact hh
    unfold SpecText.text at htext
    simp only [List.append_eq_nil_iff, Option.toList_eq_nil_iff] at htext
    obtain ⟨⟨⟨⟨⟨⟨⟨h1, h2⟩, h3⟩, h4⟩, h5⟩, h6⟩, h7⟩, h8⟩ := htext
    have h4 : t.alt = false := by cases hx : t.alt <;> simp_all
    have h5 : t.zero = false := by cases hx : t.zero <;> simp_all
    have h7 : t.prec = none := by cases hx : t.prec <;> simp_all
    exact absurd ⟨by rw [h6]; exact passes_small (by decide), by rw [h7]; simp⟩ fits
  · rw [if_neg hc]
    have hc2 : c ≠ '{' := by
      rcases head_cases h0 with ⟨hh, _⟩ | ⟨_, hh⟩
      · exact (text_props wf hh).1
      · simp at hh; rw [← hh.1]; decide
    rw [if_neg hc2]
    unfold Validate.steps
    -- the texts before the steps
    obtain ⟨e6, l6, h6⟩ := exists_cons_append t.type.toList '}' tail
    have hwidth : ∀ x ∈ t.width, isDigit x = true := fun x hx => by rw [isDigit_eq]; exact wf.width x hx
    have hprec : ∀ p ∈ t.prec, Digits p := fun p hp =>
      ⟨(wf.prec p hp).1, fun x hx => by rw [isDigit_eq]; exact (wf.prec p hp).2 x hx⟩
    have htype : ∀ x ∈ t.type, isAlpha x = true ∨ x = '?' := fun x hx => by rw [isAlpha_eq]; exact wf.type x hx
    have p6 : Late e6 := by
      rcases head_cases h6 with ⟨hh, _⟩ | ⟨_, hh⟩
      · exact (late_type (htype e6 (by simpa using hh))).1
      · simp at hh; rw [← hh.1]; exact late_brace
    obtain ⟨e5, l5, h5⟩ := exists_cons_append (precText t.prec) e6 l6
    have p5 : isAlignChar e5 = false ∧ isSignChar e5 = false ∧ e5 ≠ '#' ∧ isDigit e5 = false ∧ e5 ≠ '0' := by
      rcases head_cases h5 with ⟨_, hh⟩ | ⟨_, hh⟩
      · cases hp : t.prec with
        | none => rw [hp] at hh; simp [precText] at hh
        | some p => rw [hp] at hh; simp [precText] at hh; rw [← hh]; decide
      · simp at hh; rw [← hh.1]; exact ⟨p6.align, p6.sign, p6.alt, p6.digit, p6.zero⟩
    obtain ⟨e4, l4, h4⟩ := exists_cons_append t.width e5 l5
    have p4 : isAlignChar e4 = false ∧ isSignChar e4 = false ∧ e4 ≠ '#' ∧ (t.zero = false → e4 ≠ '0') := by
      rcases head_cases h4 with ⟨hm, hh⟩ | ⟨_, hh⟩
      · have := digit_props (hwidth e4 hm)
        refine ⟨this.1, this.2.1, this.2.2.1, fun hz he => ?_⟩
        subst he
        exact wf.widthHead hz hh
      · simp at hh; rw [← hh.1]; exact ⟨p5.1, p5.2.1, p5.2.2.1, fun _ => p5.2.2.2.2⟩
    obtain ⟨e3, l3, h3⟩ := exists_cons_append (if t.zero then ['0'] else []) e4 l4
    have p3 : isAlignChar e3 = false ∧ isSignChar e3 = false ∧ e3 ≠ '#' := by
      rcases head_cases h3 with ⟨_, hh⟩ | ⟨_, hh⟩
      · split at hh
        · simp at hh; rw [← hh]; decide
        · simp at hh
      · simp at hh; rw [← hh.1]; exact ⟨p4.1, p4.2.1, p4.2.2.1⟩
    obtain ⟨e2, l2, h2⟩ := exists_cons_append (if t.alt then ['#'] else []) e3 l3
    have p2 : isAlignChar e2 = false ∧ isSignChar e2 = false := by
      rcases head_cases h2 with ⟨_, hh⟩ | ⟨_, hh⟩
      · split at hh
        · simp at hh; rw [← hh]; decide
        · simp at hh
      · simp at hh; rw [← hh.1]; exact ⟨p3.1, p3.2.1⟩
    obtain ⟨e1, l1, h1⟩ := exists_cons_append t.sign.toList e2 l2
    have hT : tailText t ++ '}' :: tail = e1 :: l1 := by
      unfold tailText
      simp only [List.append_assoc]
      rw [h6, h5, h4, h3, h2, h1]
    have h0' : c :: l = t.fill.toList ++ t.align.toList ++ e1 :: l1 := by
      rw [← h0, text_eq, List.append_assoc, hT]
    rw [M.bind_ok (align_fwd wf h h0' hT hc)]
    have a1 : (u.adv (t.fill.toList ++ t.align.toList).length).At (e1 :: l1) := by
      rw [h0'] at h; exact h.adv
    simp only
    rw [M.bind_ok (sign_fwd a1 h1.symm (fun x hx => mem_isSign.1 (wf.sign x hx)) p2.2)]
    rw [← h1] at a1
    have a2 := a1.adv
    simp only
    rw [M.bind_ok (alternate_fwd a2 h2.symm p3.2.2)]
    rw [← h2] at a2
    have a3 := a2.adv
    simp only
    rw [M.bind_ok (zero_fwd a3 h3.symm p4.2.2.2)]
    rw [← h3] at a3
    have a4 := a3.adv
    simp only
    by_cases hw31 : Passes t.width
    · rw [M.bind_ok (width_fwd a4 h4.symm hwidth p5.2.2.2.1 (by split <;> rfl) hw31)]
      rw [← h4] at a4
      have a5 := a4.adv
      simp only
      cases hpr : t.prec with
      | none => exact absurd ⟨hw31, by rw [hpr]; simp⟩ fits
      | some p =>
        rw [hpr] at h5
        refine bind_err_ex ?_
        obtain ⟨r', x, hx, hx'⟩ := precision_reject a5 h5.symm (hprec p hpr) p6.digit (fun hlt => fits ⟨hw31, by
          rw [hpr]; simpa using hlt⟩)
        exact ⟨r', x, hx, hx'.imp id fun h => ⟨h.1, Or.inr ⟨p, by simp, h.2⟩⟩⟩
    · refine bind_err_ex ?_
      obtain ⟨r', x, hx, hx'⟩ := width_reject a4 h4.symm hwidth p5.2.2.2.1 hw31
      exact ⟨r', x, hx, hx'.imp id fun h => ⟨h.1, Or.inl h.2⟩⟩

theorem specs_reject {t : SpecText} (wf : t.WellFormed) (hw : t.widthValue < 2 ^ 32) (hp : t.precValue < 2 ^ 32)
    (fits : ¬ t.Fits) {tail : Str}
    (h : u.At (t.text ++ '}' :: tail)) :
    ∃ r', validateFormatSpecs {} u = .err r' .invalidFormat := by
  have hp' : ∀ p ∈ t.prec, numeralValue 10 p < 2 ^ 32 := by
    intro p h
    unfold SpecText.precValue at hp
    rw [Option.mem_def.1 h] at hp
    simp only at hp
    omega
  obtain ⟨r', e, he, rfl | ⟨_, hx⟩⟩ := specs_reject_wide wf (fun hn => fits ⟨(passes_iff hw).1 hn.1, by
    unfold SpecText.precValue
    cases hpr : t.prec with
    | none => simp
    | some p =>
      have := (passes_iff (hp' p hpr)).1 (hn.2 p hpr)
      simp only
      omega⟩) h
  · exact ⟨r', he⟩
  · rcases hx with hx | ⟨p, h1, hx⟩
    · exact absurd hx (wraps_small hw)
    · exact absurd hx (wraps_small (hp' p h1))

/-! ### Backwards -/

/-- The text behind a step. -/
theorem StepTo.at {r' : Reader} {c' : Char} {seg : Str} (h : u.At (c :: l)) (hs : StepTo u c l r' c' seg) :
    ∃ l' u', u' = u.adv seg.length ∧ c :: l = seg ++ c' :: l' ∧ r' = u'.adv 1 ∧ u'.At (c' :: l') := by
  obtain ⟨l', h1, h2⟩ := hs
  refine ⟨l', _, rfl, h1, h2, ?_⟩
  rw [h1] at h
  exact h.adv

theorem specs_backward_wide {r' : Reader} {s' : Specs} (hu : u.Inv) (hv : validateFormatSpecs {} u = .ok r' s') :
    ∃ (t : SpecText) (tail : Str), t.WellFormed ∧ u.rest = t.text ++ '}' :: tail ∧ r' = u.adv (t.text.length + 1) ∧
      t.NumbersPass ∧ s' = t.taken := by
  suffices H : ∃ (t : SpecText) (tail : Str), t.WellFormed ∧ u.rest = t.text ++ '}' :: tail ∧
      r' = u.adv (t.text.length + 1) by
    obtain ⟨t, tail, wf, hr, he⟩ := H
    refine ⟨t, tail, wf, hr, he, ?_⟩
    by_cases fits : t.NumbersPass
    · rw [specs_forward_wide wf fits ⟨hu, hr⟩] at hv
      exact ⟨fits, (ok_inj hv).2.symm⟩
    · obtain ⟨_, _, h, _⟩ := specs_reject_wide wf fits ⟨hu, hr⟩
      rw [h] at hv
      cases hv
  unfold validateFormatSpecs at hv
  obtain ⟨r1, c, h1, hv⟩ := bind_ok_inv hv
  obtain ⟨l, hl, rfl⟩ := readChar_at ⟨hu, rfl⟩ h1
  have h : u.At (c :: l) := ⟨hu, hl⟩
  split at hv
  · rename_i hc
    subst hc
    rw [M.pure_run] at hv
    obtain ⟨rfl, rfl⟩ := ok_inj hv
    exact ⟨{}, l, ⟨by simp, by simp, by simp, by simp, by simp, by simp, by simp⟩, by simpa [SpecText.text] using hl, rfl⟩
  · rename_i hc
    split at hv
    · simp at hv
    · rename_i hc2
      unfold Validate.steps at hv
      obtain ⟨r2, ⟨s2, c2⟩, h2, hv⟩ := bind_ok_inv hv
      have A : ∃ (f a : Option Char), (∀ x ∈ f, a.isSome ∧ x ≠ '{' ∧ x ≠ '}') ∧ (∀ x ∈ a, isAlignChar x = true) ∧
          StepTo u c l r2 c2 (f.toList ++ a.toList) := by
        rcases align_inv h h2 with ⟨d, hd, _, hs⟩ | ⟨ha, _, hs⟩ | ⟨_, _, hs⟩
        · exact ⟨some c, some d, by simp [hc, hc2], by simpa using hd, hs⟩
        · exact ⟨none, some c, by simp, by simpa using ha, hs⟩
        · exact ⟨none, none, by simp, by simp, hs⟩
      obtain ⟨f, a, hf, ha, hs⟩ := A
      obtain ⟨l2, u2, hu2, e2, rfl, a2⟩ := hs.at h
      obtain ⟨r3, ⟨s3, c3⟩, h3, hv⟩ := bind_ok_inv hv
      have A : ∃ sg : Option Char, (∀ x ∈ sg, isSignChar x = true) ∧ StepTo u2 c2 l2 r3 c3 sg.toList := by
        rcases sign_inv a2 h3 with ⟨ha, _, hs⟩ | ⟨_, _, hs⟩
        · exact ⟨some c2, by simpa using ha, hs⟩
        · exact ⟨none, by simp, hs⟩
      obtain ⟨sg, hsg, hs⟩ := A
      obtain ⟨l3, u3, hu3, e3, rfl, a3⟩ := hs.at a2
      obtain ⟨r4, ⟨s4, c4⟩, h4, hv⟩ := bind_ok_inv hv
      have A : ∃ b : Bool, StepTo u3 c3 l3 r4 c4 (if b then ['#'] else []) := by
        rcases alternate_inv a3 h4 with ⟨ha, _, hs⟩ | ⟨_, _, hs⟩
        · subst ha; exact ⟨true, hs⟩
        · exact ⟨false, hs⟩
      obtain ⟨alt, hs⟩ := A
      obtain ⟨l4, u4, hu4, e4, rfl, a4⟩ := hs.at a3
      obtain ⟨r5, ⟨s5, c5⟩, h5, hv⟩ := bind_ok_inv hv
      have A : ∃ b : Bool, StepTo u4 c4 l4 r5 c5 (if b then ['0'] else []) ∧ (b = false → c5 ≠ '0') := by
        rcases zero_inv a4 h5 with ⟨ha, _, hs⟩ | ⟨ha, _, hs⟩
        · subst ha; exact ⟨true, hs, by simp⟩
        · refine ⟨false, hs, fun _ => ?_⟩
          obtain ⟨l', hl', _⟩ := hs
          simp at hl'
          rw [← hl'.1]
          exact ha
      obtain ⟨zero, hs, hz⟩ := A
      obtain ⟨l5, u5, hu5, e5, rfl, a5⟩ := hs.at a4
      obtain ⟨r6, ⟨s6, c6⟩, h6, hv⟩ := bind_ok_inv hv
      have A : ∃ ds : Str, StepTo u5 c5 l5 r6 c6 ds ∧ (∀ x ∈ ds, isDigit x = true) ∧
          (zero = false → ds.head? ≠ some '0') := by
        rcases width_inv a5 h6 with ⟨ds, w, hds, hh, hs, _⟩ | ⟨ha, _, hs⟩
        · refine ⟨ds, hs, hds.2, fun hb => ?_⟩
          rw [hh]
          simpa using hz hb
        · exact ⟨[], hs, by simp, by simp⟩
      obtain ⟨wd, hs, hwd, hwz⟩ := A
      obtain ⟨l6, u6, hu6, e6, rfl, a6⟩ := hs.at a5
      obtain ⟨r7, ⟨s7, c7⟩, h7, hv⟩ := bind_ok_inv hv
      have A : ∃ o : Option Str, StepTo u6 c6 l6 r7 c7 (precText o) ∧ (∀ p ∈ o, Digits p) := by
        rcases precision_inv a6 h7 with ⟨ds, w, _, hds, hs, _⟩ | ⟨ha, _, hs⟩
        · exact ⟨some ds, hs, by simpa using hds⟩
        · exact ⟨none, hs, by simp⟩
      obtain ⟨pr, hs, hpr⟩ := A
      obtain ⟨l7, u7, hu7, e7, rfl, a7⟩ := hs.at a6
      obtain ⟨r8, ⟨s8, c8⟩, h8, hv⟩ := bind_ok_inv hv
      have A : ∃ o : Option Char, StepTo u7 c7 l7 r8 c8 o.toList ∧ (∀ x ∈ o, isAlpha x = true ∨ x = '?') := by
        rcases type_inv a7 h8 with ⟨ha, _, hs⟩ | ⟨_, hs⟩
        · exact ⟨some c7, hs, by simpa using ha⟩
        · exact ⟨none, hs, by simp⟩
      obtain ⟨ty, hs, hty⟩ := A
      obtain ⟨l8, u8, hu8, e8, rfl, a8⟩ := hs.at a7
      simp only at hv
      split at hv
      · rename_i hc8
        subst hc8
        rw [M.pure_run] at hv
        obtain ⟨rfl, rfl⟩ := ok_inj hv
        refine ⟨{ fill := f, align := a, sign := sg, alt := alt, zero := zero, width := wd, prec := pr, type := ty }, l8,
          ⟨hf, fun x hx => mem_isAlign.2 (ha x hx), fun x hx => mem_isSign.2 (hsg x hx),
            fun x hx => by rw [← isDigit_eq]; exact hwd x hx, hwz,
            fun p hp => ⟨(hpr p hp).1, fun x hx => by rw [← isDigit_eq]; exact (hpr p hp).2 x hx⟩,
            fun x hx => by rw [← isAlpha_eq]; exact hty x hx⟩, ?_, ?_⟩
        · rw [text_eq]
          unfold tailText
          rw [hl, e2, e3, e4, e5, e6, e7, e8]
          simp only [List.append_assoc]
        · rw [text_eq]
          unfold tailText
          rw [hu8, hu7, hu6, hu5, hu4, hu3, hu2]
          simp only [Reader.adv_adv, List.length_append]
          congr 1
          omega
      · simp at hv

theorem specs_backward {r' : Reader} {s' : Specs} (hu : u.Inv) (hv : validateFormatSpecs {} u = .ok r' s') :
    ∃ (t : SpecText) (tail : Str), t.WellFormed ∧ u.rest = t.text ++ '}' :: tail ∧ r' = u.adv (t.text.length + 1) ∧
      (t.Fits → s' = t.meaning) := by
  obtain ⟨t, tail, wf, hr, he, _, hs⟩ := specs_backward_wide hu hv
  exact ⟨t, tail, wf, hr, he, fun fits => by rw [hs, (fits_pass fits).2]⟩

end Emio
