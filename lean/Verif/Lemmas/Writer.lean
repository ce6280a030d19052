import Verif.Model.Writer
import Verif.Lemmas.Buffer
import Verif.Lemmas.Conversion
import Verif.Spec.Escape
/-
Helper lemmas about the writer: what each call appends to a buffer that keeps the contract.
-/
namespace Emio
open BufferImpl Spec

section
variable {σ : Type} [BufferImpl σ]

/-- A call appended `out`, or failed with end-of-file after a (proper) prefix of it. -/
def Wrote (L : Lawful σ) (t out : Str) : Run σ Unit → Prop
  | .ok s' _ => L.Rep s' (t ++ out)
  | .err s' e => e = .eof ∧ ∃ p, p <+: out ∧ (out ≠ [] → p ≠ out) ∧ L.Fail s' (t ++ p)
  | .bad _ => False

theorem Wrote.ok {L : Lawful σ} {t out : Str} {s : σ} {u : Unit} (h : Wrote L t out (.ok s u)) : L.Rep s (t ++ out) := h

/-- What a write area promises. -/
def AreaOk (L : Lawful σ) (t : Str) (s : σ) (a : Area) : Prop :=
  ∀ d : Str, d.length = a.len → ∃ s'', store s a.off d = some s'' ∧ L.Rep s'' (t ++ d)

theorem putArea_ok {L : Lawful σ} {t : Str} {s : σ} {a : Area} (h : AreaOk L t s a) {d : Str} (hd : d.length = a.len) :
    ∃ s', putArea a d s = .ok s' () ∧ L.Rep s' (t ++ d) := by
  obtain ⟨s'', hs, hr⟩ := h d hd
  exact ⟨s'', by rw [putArea, hs], hr⟩

theorem writeArea_wrote (L : Lawful σ) {s : σ} {t : Str} (h : L.Rep s t) (n : Nat) (text : Str)
    (hn : text.length = n) : Wrote L t text (writeArea n text s) := by
  unfold writeArea
  cases hm : getWriteAreaOf n s with
  | ok s' a =>
    obtain ⟨hl, hst⟩ := L.of_ok h hm
    rw [M.bind_ok hm, if_pos hn]
    obtain ⟨s2, h2, hr⟩ := putArea_ok (a := a) (fun d hd => hst d (by omega)) (d := text) (by omega)
    rw [h2]; exact hr
  | err s' e =>
    rw [M.bind_err hm]
    obtain ⟨he, hf⟩ := L.of_err h hm
    exact ⟨he, [], List.nil_prefix, fun h => (Ne.symm h), by simpa using hf⟩
  | bad b => exact (L.of_bad h hm).elim

theorem writeChar_eq (c : Char) : (writeChar c : M σ Unit) = writeArea 1 [c] := rfl

/-- `write_str` with the state in which the failing request was made. -/
theorem writeStr_wrote' (L : Lawful σ) : ∀ (n : Nat) (sv : Str), sv.length = n → ∀ (s : σ) (t : Str), L.Rep s t →
    match writeStr sv s with
    | .ok s' _ => L.Rep s' (t ++ sv)
    | .err s' e => e = .eof ∧ ∃ p q s1, sv = p ++ q ∧ q ≠ [] ∧ L.Rep s1 (t ++ p) ∧
        getWriteAreaOfMax q.length s1 = .err s' e ∧ L.Fail s' (t ++ p)
    | .bad _ => False := by
  intro n
  induction n using Nat.strongRecOn with
  | ind n ih =>
    intro sv hn s t h
    by_cases h0 : sv.length = 0
    · have : sv = [] := List.length_eq_zero_iff.1 h0
      subst this
      rw [writeStr]
      simpa using h
    · rw [writeStr]
      simp only [if_neg h0]
      cases hm : getWriteAreaOfMax sv.length s with
      | ok s' a =>
        obtain ⟨h1, h2, h3, _⟩ := L.max_ok h hm
        have h2 := h2 (by omega)
        simp only [if_neg (show ¬ a.len = 0 by omega), if_neg (show ¬ a.len > sv.length by omega)]
        obtain ⟨s2, hs2, hr2⟩ := h3 (sv.take a.len) (by simp; omega)
        rw [hs2]
        simp only
        have := ih (sv.drop a.len).length (by simp; omega) (sv.drop a.len) rfl s2 _ hr2
        revert this
        cases writeStr (sv.drop a.len) s2 with
        | ok s3 u =>
          simp only [List.append_assoc, List.take_append_drop]
          exact id
        | err s3 e =>
          rintro ⟨he, p, q, s1, hpq, hq, hrep, hreq, hf⟩
          refine ⟨he, sv.take a.len ++ p, q, s1, ?_, hq, ?_, hreq, ?_⟩
          · rw [List.append_assoc, ← hpq, List.take_append_drop]
          · rw [← List.append_assoc]; exact hrep
          · rw [← List.append_assoc]; exact hf
        | bad b => exact id
      | err s' e =>
        obtain ⟨he, hf⟩ := L.max_err h hm
        refine ⟨he, [], sv, s, rfl, ?_, by simpa using h, hm, by simpa using hf⟩
        intro hsv; simp [hsv] at h0
      | bad b => exact (L.max_bad h hm).elim

theorem writeStr_wrote (L : Lawful σ) (sv : Str) {s : σ} {t : Str} (h : L.Rep s t) :
    Wrote L t sv (writeStr sv s) := by
  have := writeStr_wrote' L _ sv rfl s t h
  revert this
  cases writeStr sv s with
  | ok s' u => exact id
  | err s' e =>
    rintro ⟨he, p, q, s1, hpq, hq, _, _, hf⟩
    exact ⟨he, p, ⟨q, hpq.symm⟩, fun _ hp => hq (by rw [hp] at hpq; simpa using hpq), hf⟩
  | bad b => exact id

/-- `write_char_n` is `write_str` of the repeated character. -/
theorem writeCharN_eq (L : Lawful σ) (c : Char) : ∀ (n : Nat) (s : σ) (t : Str), L.Rep s t →
    writeCharN c n s = writeStr (List.replicate n c) s := by
  intro n
  induction n using Nat.strongRecOn with
  | ind n ih =>
    intro s t h
    rw [writeCharN, writeStr]
    simp only [List.length_replicate]
    by_cases h0 : n = 0
    · simp only [if_pos h0]
    · simp only [if_neg h0]
      cases hm : getWriteAreaOfMax n s with
      | ok s' a =>
        obtain ⟨h1, h2, h3, _⟩ := L.max_ok h hm
        have h2 := h2 (by omega)
        simp only [if_neg (show ¬ a.len = 0 by omega), if_neg (show ¬ a.len > n by omega), List.take_replicate,
          List.drop_replicate]
        rw [show min a.len n = a.len by omega]
        obtain ⟨s2, hs2, hr2⟩ := h3 (List.replicate a.len c) (by simp)
        rw [hs2]
        exact ih (n - a.len) (by omega) s2 _ hr2
      | err s' e => rfl
      | bad b => rfl

theorem writeCharN_wrote (L : Lawful σ) (c : Char) (n : Nat) {s : σ} {t : Str} (h : L.Rep s t) :
    Wrote L t (List.replicate n c) (writeCharN c n s) := by
  rw [writeCharN_eq L c n s t h]
  exact writeStr_wrote L _ h

/-- The text `write_int` appends. -/
theorem writeInt_eq (t : IntTy) (n : Int) (base : Nat) (upper : Bool) (ht : t.Std) (hn : t.Holds n) (hb : 2 ≤ base)
    (hb' : base ≤ 36) :
    (writeInt t n base upper : M σ Unit) =
      writeArea (intNumeral upper base n).length (intNumeral upper base n) := by
  unfold writeInt
  have hv : isValidNumberBase (base : Int) = true := by
    simp [isValidNumberBase]; omega
  rw [hv]
  simp only [Bool.not_true, Bool.false_eq_true, if_false, Int.toNat_natCast]
  have hup : t.upcast.Std := by
    obtain ⟨sg, bits⟩ := t
    unfold IntTy.Std IntTy.upcast
    by_cases h : bits ≤ 32 <;> simp [h]
  have huh : t.upcast.Holds n := by
    revert hn
    obtain ⟨sg, bits⟩ := t
    unfold IntTy.Std at ht
    simp only at ht
    rcases ht with rfl | rfl | rfl | rfl <;> cases sg <;>
      simp [IntTy.Holds, IntTy.min, IntTy.max, IntTy.upcast] <;> omega
  rw [toAbsolute_eq _ _ hup huh, writeNumber_eq _ _ _ _ hb hb', getNumberOfDigits_eq _ _ upper hb]
  have hneg : (t.signed && decide (n < 0)) = decide (n < 0) := by
    cases hs : t.signed
    · have : ¬ n < 0 := by
        simp only [IntTy.Holds, IntTy.min, hs] at hn
        simp at hn; omega
      simp [this]
    · simp
  rw [hneg]
  unfold intNumeral
  by_cases h : n < 0 <;> simp [h, Nat.add_comm]

theorem writeInt_invalid (t : IntTy) (n : Int) (base : Int) (upper : Bool) (hb : base < 2 ∨ 36 < base) (s : σ) :
    writeInt t n base upper s = .err s .invalidArgument := by
  unfold writeInt
  have : isValidNumberBase base = false := by
    simp [isValidNumberBase]; omega
  rw [this]; rfl

/-! ### Escaping -/

/-- An escaped character as the model writes it. -/
def escModel (c : Char) : Str := if needsEscape c then '\\' :: escapeTail c else [c]

theorem escapeTail_length (c : Char) : 1 ≤ (escapeTail c).length ∧ (escapeTail c).length ≤ 3 := by
  unfold escapeTail
  repeat' split
  all_goals try (simp; done)
  have hlt : c.toNat % 256 < 256 := Nat.mod_lt _ (by omega)
  have hall : ∀ n, n < 256 →
      (('x' :: (List.replicate (2 - countDigits16 n) '0' ++ writeNumber n 16 false [])).length = 3) := by decide +kernel
  rw [hall _ hlt]; omega

theorem char_ne_of_toNat {c d : Char} (h : c.toNat ≠ d.toNat) : c ≠ d := fun e => h (by rw [e])

theorem toNat_ne {c d : Char} (h : c ≠ d) : c.toNat ≠ d.toNat := by
  intro e
  apply h
  have := congrArg Char.ofNat e
  simpa using this

/-- For bytes the model's escape is the specified one. -/
theorem escModel_eq (c : Char) (hc : c.toNat < 256) : escModel c = escapeChar c := by
  have key : ∀ n, n < 256 → escModel (Char.ofNat n) = escapeChar (Char.ofNat n) := by decide +kernel
  have := key c.toNat hc
  simpa using this

def escAll (s : Str) : Str := s.flatMap escModel

theorem escAll_cons (c : Char) (cs : Str) : escAll (c :: cs) = escModel c ++ escAll cs := by simp [escAll]

theorem escAll_eq (s : Str) (h : ∀ c ∈ s, c.toNat < 256) : escAll s = escape s := by
  unfold escAll escape
  induction s with
  | nil => rfl
  | cons c cs ih =>
    simp only [List.flatMap_cons]
    rw [escModel_eq c (h c (by simp)), ih (fun d hd => h d (by simp [hd]))]

theorem escModel_length (c : Char) : (escModel c).length =
    if !needsEscape c then 1
     else if c == '\n' || c == '\r' || c == '\t' || c == '\\' || c == '\'' || c == '"' then 2
     else 4 := by
  unfold escModel
  cases hne : needsEscape c with
  | false => simp
  | true =>
    simp only [Bool.not_true, Bool.false_eq_true, if_true, if_false, List.length_cons]
    have hlt : c.toNat % 256 < 256 := Nat.mod_lt _ (by omega)
    have hall : ∀ n, n < 256 →
      (('x' :: (List.replicate (2 - countDigits16 n) '0' ++ writeNumber n 16 false [])).length = 3) := by decide +kernel
    unfold escapeTail
    by_cases h1 : c = '\n'
    · subst h1; rfl
    by_cases h2 : c = '\r'
    · subst h2; rfl
    by_cases h3 : c = '\t'
    · subst h3; rfl
    by_cases h4 : c = '\\'
    · subst h4; rfl
    by_cases h5 : c = '\''
    · subst h5; rfl
    by_cases h6 : c = '"'
    · subst h6; rfl
    simp only [beq_iff_eq, h1, h2, h3, h4, h5, h6, if_false, Bool.or_self, Bool.false_eq_true]
    have hb : ∀ x : Char, c ≠ x → (c == x) = false := fun x hx => by simpa using hx
    simp only [hb _ h1, hb _ h2, hb _ h3, hb _ h4, hb _ h5, hb _ h6, Bool.or_self, Bool.false_eq_true, if_false]
    rw [hall _ hlt]

theorem countSize_eq (s : Str) : countSizeWhenEscaped s = (escAll s).length := by
  induction s with
  | nil => rfl
  | cons c cs ih =>
    rw [escAll_cons, List.length_append, escModel_length, countSizeWhenEscaped, ih]

theorem escapeLoop_spec : ∀ (src rem : Str) (space : Nat), (rem = [] ∨ space = 0) →
    let r := escapeLoop src rem space
    r.1 ++ r.2.2 ++ escAll r.2.1 = rem ++ escAll src ∧ r.1.length = min space (escAll src).length := by
  intro src
  induction src with
  | nil => intro rem space _; cases space <;> simp [escapeLoop, escAll]
  | cons c cs ih =>
    intro rem space hrs
    cases space with
    | zero => simp [escapeLoop]
    | succ space =>
      have hrem : rem = [] := by rcases hrs with h | h; exact h; omega
      subst hrem
      rw [escapeLoop]
      cases hne : needsEscape c with
      | false =>
        have hm : escModel c = [c] := by simp [escModel, hne]
        obtain ⟨h1, h2⟩ := ih [] space (Or.inl rfl)
        simp only [Bool.not_false, if_true, escAll_cons, hm, List.length_cons, List.length_append, List.length_nil]
        refine ⟨?_, by omega⟩
        rw [List.append_assoc] at h1
        simp only [List.cons_append, List.nil_append, List.append_assoc] at h1 ⊢
        rw [h1]
      | true =>
        have hm : escModel c = '\\' :: escapeTail c := by simp [escModel, hne]
        have hlen := escapeTail_length c
        simp only [Bool.not_true, Bool.false_eq_true, if_false]
        by_cases h3 : space ≥ 3
        · rw [if_pos h3]
          obtain ⟨h1, h2⟩ := ih [] (space - (escapeTail c).length) (Or.inl rfl)
          simp only [escAll_cons, hm, List.length_cons, List.length_append]
          refine ⟨?_, by omega⟩
          simp only [List.cons_append, List.nil_append, List.append_assoc] at h1 ⊢
          rw [h1]
        · rw [if_neg h3]
          obtain ⟨h1, h2⟩ := ih ((escapeTail c).drop (min space (escapeTail c).length))
            (space - min space (escapeTail c).length) (by
              by_cases hle : space ≤ (escapeTail c).length
              · right; omega
              · left; rw [List.drop_eq_nil_iff]; omega)
          simp only [escAll_cons, hm, List.length_cons, List.length_append, List.length_take]
          refine ⟨?_, by omega⟩
          simp only [List.cons_append, List.nil_append, List.append_assoc] at h1 ⊢
          rw [h1, ← List.append_assoc (List.take _ _), List.take_append_drop]

theorem escapeHelper_spec (src rem : Str) (space : Nat) :
    let r := escapeHelper src rem space
    r.1 ++ r.2.2 ++ escAll r.2.1 = rem ++ escAll src ∧
      r.1.length = min space (rem ++ escAll src).length := by
  obtain ⟨h1, h2⟩ := escapeLoop_spec src (rem.drop (min space rem.length)) (space - min space rem.length) (by
      by_cases hle : space ≤ rem.length
      · right; omega
      · left; rw [List.drop_eq_nil_iff]; omega)
  unfold escapeHelper
  simp only [List.length_append, List.length_take]
  refine ⟨?_, by omega⟩
  simp only [List.append_assoc] at h1 ⊢
  rw [h1, ← List.append_assoc, List.take_append_drop]

theorem escapeRounds_wrote (L : Lawful σ) (quote : Char) : ∀ (n : Nat) (pre : Str) (size : Nat) (src rem : Str)
    (area : Area) (s : σ) (t : Str), size + pre.length = n → size = (rem ++ escAll src).length →
    pre.length ≤ area.len → 0 < area.len → area.len ≤ pre.length + size + 1 → AreaOk L t s area →
    Wrote L t (pre ++ (rem ++ escAll src) ++ [quote]) (escapeRounds quote pre size src rem area s) := by
  intro n
  induction n using Nat.strongRecOn with
  | ind n ih =>
    intro pre size src rem area s t hn hsize hpre hpos hmax harea
    obtain ⟨h1, h2⟩ := escapeHelper_spec src rem (area.len - pre.length)
    rw [escapeRounds]
    generalize hr : escapeHelper src rem (area.len - pre.length) = r at h1 h2
    obtain ⟨out, src', rem'⟩ := r
    simp only at h1 h2
    rw [← hsize] at h2
    have hlen : out.length ≤ size := by omega
    simp only [if_neg (show ¬ out.length > size by omega)]
    have hrest : out.length + (rem' ++ escAll src').length = size := by
      have := congrArg List.length h1
      simp only [List.length_append] at this hsize ⊢
      omega
    by_cases hdone : size - out.length = 0
    · have hnil : rem' ++ escAll src' = [] := by
        apply List.length_eq_zero_iff.1; omega
      have hout : out = rem ++ escAll src := by
        rw [List.append_assoc, hnil, List.append_nil] at h1; exact h1
      simp only [if_pos hdone]
      by_cases hfull : area.len - pre.length - out.length = 0
      · simp only [if_pos hfull]
        obtain ⟨s', hs', hrep⟩ := putArea_ok harea (d := pre ++ out) (by simp; omega)
        rw [hs']
        simp only
        cases hm : getWriteAreaOfMax 1 s' with
        | ok s'' a =>
          obtain ⟨h1', h2', h3', _⟩ := L.max_ok hrep hm
          have h2' := h2' (by omega)
          simp only [if_neg (show ¬ a.len = 0 by omega)]
          obtain ⟨s3, hs3, hrep3⟩ := putArea_ok (a := a) h3' (d := [quote]) (by simp; omega)
          rw [hs3, ← hout]
          show L.Rep s3 _
          rw [← List.append_assoc]; exact hrep3
        | err s'' e =>
          obtain ⟨he, hf⟩ := L.max_err hrep hm
          refine ⟨he, pre ++ out, ?_, ?_, hf⟩
          · rw [← hout]; exact List.prefix_append _ _
          · rw [← hout]; intro _ h; have := congrArg List.length h; simp at this
        | bad b => exact (L.max_bad hrep hm).elim
      · simp only [if_neg hfull]
        obtain ⟨s', hs', hrep⟩ := putArea_ok harea (d := pre ++ out ++ [quote]) (by simp; omega)
        rw [hs', ← hout]
        exact hrep
    · simp only [if_neg hdone]
      have hcap : out.length = area.len - pre.length := by omega
      simp only [if_neg (show ¬ (out.length = 0 ∧ pre.length = 0) by omega)]
      obtain ⟨s', hs', hrep⟩ := putArea_ok harea (d := pre ++ out) (by simp; omega)
      rw [hs']
      simp only
      have hwhole : pre ++ (rem ++ escAll src) ++ [quote] = (pre ++ out) ++ ([] ++ (rem' ++ escAll src') ++ [quote]) := by
        rw [← h1]; simp
      cases hm : getWriteAreaOfMax (size - out.length + 1) s' with
      | ok s'' a =>
        obtain ⟨h1', h2', h3', _⟩ := L.max_ok hrep hm
        have h2' := h2' (by omega)
        have := ih (size - out.length + 0) (by omega) [] (size - out.length) src' rem' a s'' _ rfl (by omega)
          (by simp) h2' (by simp; omega) h3'
        simp only
        rw [hwhole]
        revert this
        cases escapeRounds quote [] (size - out.length) src' rem' a s'' with
        | ok s3 u =>
          intro h
          show L.Rep s3 _
          rw [← List.append_assoc t]; exact h
        | err s3 e =>
          rintro ⟨he, p, hp, hne, hf⟩
          refine ⟨he, pre ++ out ++ p, ?_, ?_, ?_⟩
          · exact (List.prefix_append_right_inj _).2 hp
          · intro _ h; exact hne (by simp) (List.append_cancel_left h)
          · rw [← List.append_assoc]; exact hf
        | bad b => exact id
      | err s'' e =>
        obtain ⟨he, hf⟩ := L.max_err hrep hm
        refine ⟨he, pre ++ out, ?_, ?_, hf⟩
        · rw [hwhole]; exact List.prefix_append _ _
        · rw [hwhole]; intro _ h; have := congrArg List.length h; simp at this
      | bad b => exact (L.max_bad hrep hm).elim

theorem writeEscaped_wrote (L : Lawful σ) (quote : Char) (sv : Str) {s : σ} {t : Str} (h : L.Rep s t) :
    Wrote L t ([quote] ++ escAll sv ++ [quote]) (writeEscaped quote sv (countSizeWhenEscaped sv) s) := by
  unfold writeEscaped
  cases hm : getWriteAreaOfMax (countSizeWhenEscaped sv + 2) s with
  | ok s' a =>
    obtain ⟨h1, h2, h3, _⟩ := L.max_ok h hm
    have h2 := h2 (by omega)
    simp only [if_neg (show ¬ a.len = 0 by omega)]
    have := escapeRounds_wrote L quote _ [quote] (countSizeWhenEscaped sv) sv [] a s' t rfl
      (by simp [countSize_eq]) (by simp; omega) h2 (by simp; omega) h3
    simpa using this
  | err s' e =>
    obtain ⟨he, hf⟩ := L.max_err h hm
    exact ⟨he, [], List.nil_prefix, fun _ h => by simp at h, by simpa using hf⟩
  | bad b => exact (L.max_bad h hm).elim

/-! ### Traces -/

/-- Text of a call. -/
def WOp.text : WOp → Str
  | .char c => [c]
  | .charN c n => List.replicate n c
  | .str s => s
  | .area _ text => text
  | .int _ n base upper => intNumeral upper base.toNat n
  | .strEscaped s => ['"'] ++ escAll s ++ ['"']
  | .charEscaped c => ['\''] ++ escAll [c] ++ ['\'']

/-- The arguments of a call are in order. -/
def WOp.Fine : WOp → Prop
  | .area n text => text.length = n
  | .int t n base _ => t.Std ∧ t.Holds n ∧ 2 ≤ base ∧ base ≤ 36
  | _ => True

/-- Text of a trace. -/
def render (ops : List WOp) : Str := ops.flatMap WOp.text

@[simp] theorem render_nil : render [] = [] := rfl
@[simp] theorem render_cons (op : WOp) (ops : List WOp) : render (op :: ops) = op.text ++ render ops := by
  simp [render]
@[simp] theorem render_append (a b : List WOp) : render (a ++ b) = render a ++ render b := by simp [render]

theorem WOp.exec_wrote (L : Lawful σ) (op : WOp) (hop : op.Fine) {s : σ} {t : Str} (h : L.Rep s t) :
    Wrote L t op.text (op.exec s) := by
  cases op with
  | char c => exact writeArea_wrote L h 1 [c] rfl
  | charN c n => exact writeCharN_wrote L c n h
  | str sv => exact writeStr_wrote L sv h
  | area n text => exact writeArea_wrote L h n text hop
  | int ty n base up =>
    obtain ⟨h1, h2, h3, h4⟩ := hop
    obtain ⟨b, rfl⟩ := Int.eq_ofNat_of_zero_le (show 0 ≤ base by omega)
    show Wrote L t (intNumeral up b n) (writeInt ty n b up s)
    rw [writeInt_eq ty n b up h1 h2 (by omega) (by omega)]
    exact writeArea_wrote L h _ _ rfl
  | strEscaped sv => exact writeEscaped_wrote L '"' sv h
  | charEscaped c => exact writeEscaped_wrote L '\'' [c] h

theorem execAll_wrote (L : Lawful σ) : ∀ (ops : List WOp), (∀ op ∈ ops, op.Fine) → ∀ (s : σ) (t : Str), L.Rep s t →
    match execAll ops s with
    | .ok s' _ => L.Rep s' (t ++ render ops)
    | .err s' e => e = .eof ∧ ∃ p, p <+: render ops ∧ L.Fail s' (t ++ p)
    | .bad _ => False := by
  intro ops
  induction ops with
  | nil => intro _ s t h; simpa [execAll] using h
  | cons op ops ih =>
    intro hf s t h
    have hop := WOp.exec_wrote L op (hf op (by simp)) h
    unfold execAll
    cases hm : op.exec s with
    | ok s' u =>
      rw [hm] at hop
      rw [M.bind_ok hm]
      have := ih (fun o ho => hf o (by simp [ho])) s' _ hop
      revert this
      cases execAll ops s' with
      | ok s2 u2 => rw [render_cons, ← List.append_assoc]; exact id
      | err s2 e =>
        rintro ⟨he, p, hp, hfl⟩
        refine ⟨he, op.text ++ p, ?_, ?_⟩
        · rw [render_cons]; exact (List.prefix_append_right_inj _).2 hp
        · rw [← List.append_assoc]; exact hfl
      | bad b => exact id
    | err s' e =>
      rw [hm] at hop
      rw [M.bind_err hm]
      obtain ⟨he, p, hp, _, hfl⟩ := hop
      refine ⟨he, p, ?_, hfl⟩
      rw [render_cons]
      exact hp.trans (List.prefix_append _ _)
    | bad b => rw [hm] at hop; exact hop.elim

/-! ### Accepting buffers -/

/-- The largest contiguous area a call needs. -/
def WOp.need : WOp → Nat
  | .char _ => 1
  | .area n _ => n
  | .int _ n base upper => (intNumeral upper base.toNat n).length
  | _ => 0

theorem writeStr_accepts {L : Lawful σ} {chunk room : Option Nat} (hA : Accepts L chunk room) {s : σ} {t : Str}
    (h : L.Rep s t) (sv : Str) (hroom : leLimit (t.length + sv.length) room) :
    ∃ s', writeStr sv s = .ok s' () := by
  have := writeStr_wrote' L _ sv rfl s t h
  revert this
  cases writeStr sv s with
  | ok s' u => intro _; exact ⟨s', rfl⟩
  | err s' e =>
    rintro ⟨_, p, q, s1, hpq, hq, hrep, hreq, _⟩
    obtain ⟨s2, a, hok, _⟩ := hA s1 (t ++ p) q.length hrep (by
      refine leLimit_mono ?_ hroom
      rw [hpq]; simp; omega)
    rw [hok] at hreq; cases hreq
  | bad b => exact False.elim

theorem writeArea_accepts {L : Lawful σ} {chunk room : Option Nat} (hA : Accepts L chunk room) {s : σ} {t : Str}
    (h : L.Rep s t) (text : Str) (hc : leLimit text.length chunk) (hroom : leLimit (t.length + text.length) room) :
    ∃ s', writeArea text.length text s = .ok s' () := by
  obtain ⟨s1, a, hm⟩ := hA.of_ok h hc hroom
  obtain ⟨hl, hst⟩ := L.of_ok h hm
  obtain ⟨s2, h2, hr⟩ := putArea_ok (a := a) (fun d hd => hst d (by omega)) (d := text) (by omega)
  exact ⟨s2, by unfold writeArea; rw [M.bind_ok hm, if_pos rfl, h2]⟩

theorem escapeRounds_accepts {L : Lawful σ} {chunk room : Option Nat} (hA : Accepts L chunk room) (quote : Char) :
    ∀ (n : Nat) (pre : Str) (size : Nat) (src rem : Str)
    (area : Area) (s : σ) (t : Str), size + pre.length = n → size = (rem ++ escAll src).length →
    pre.length ≤ area.len → 0 < area.len → area.len ≤ pre.length + size + 1 → AreaOk L t s area →
    leLimit (t.length + (pre.length + size + 1)) room →
    ∃ s', escapeRounds quote pre size src rem area s = .ok s' () := by
  intro n
  induction n using Nat.strongRecOn with
  | ind n ih =>
    intro pre size src rem area s t hn hsize hpre hpos hmax harea hroom
    obtain ⟨h1, h2⟩ := escapeHelper_spec src rem (area.len - pre.length)
    rw [escapeRounds]
    generalize hr : escapeHelper src rem (area.len - pre.length) = r at h1 h2
    obtain ⟨out, src', rem'⟩ := r
    simp only at h1 h2
    rw [← hsize] at h2
    have hlen : out.length ≤ size := by omega
    simp only [if_neg (show ¬ out.length > size by omega)]
    have hrest : out.length + (rem' ++ escAll src').length = size := by
      have := congrArg List.length h1
      simp only [List.length_append] at this hsize ⊢
      omega
    by_cases hdone : size - out.length = 0
    · simp only [if_pos hdone]
      by_cases hfull : area.len - pre.length - out.length = 0
      · simp only [if_pos hfull]
        obtain ⟨s', hs', hrep⟩ := putArea_ok harea (d := pre ++ out) (by simp; omega)
        rw [hs']
        simp only
        obtain ⟨s2, a, hm, _⟩ := hA s' _ 1 hrep (leLimit_mono (by simp; omega) hroom)
        obtain ⟨h1', h2', h3', _⟩ := L.max_ok hrep hm
        have h2' := h2' (by omega)
        rw [hm]
        simp only [if_neg (show ¬ a.len = 0 by omega)]
        obtain ⟨s3, hs3, hrep3⟩ := putArea_ok (a := a) h3' (d := [quote]) (by simp; omega)
        exact ⟨s3, hs3⟩
      · simp only [if_neg hfull]
        obtain ⟨s', hs', hrep⟩ := putArea_ok harea (d := pre ++ out ++ [quote]) (by simp; omega)
        exact ⟨s', hs'⟩
    · simp only [if_neg hdone]
      simp only [if_neg (show ¬ (out.length = 0 ∧ pre.length = 0) by omega)]
      obtain ⟨s', hs', hrep⟩ := putArea_ok harea (d := pre ++ out) (by simp; omega)
      rw [hs']
      simp only
      obtain ⟨s2, a, hm, _⟩ := hA s' _ (size - out.length + 1) hrep (leLimit_mono (by simp; omega) hroom)
      obtain ⟨h1', h2', h3', _⟩ := L.max_ok hrep hm
      have h2' := h2' (by omega)
      rw [hm]
      exact ih (size - out.length + 0) (by omega) [] (size - out.length) src' rem' a s2 _ rfl (by omega)
          (by simp) h2' (by simp; omega) h3' (leLimit_mono (by simp; omega) hroom)

theorem writeEscaped_accepts {L : Lawful σ} {chunk room : Option Nat} (hA : Accepts L chunk room) (quote : Char)
    (sv : Str) {s : σ} {t : Str} (h : L.Rep s t) (hroom : leLimit (t.length + ((escAll sv).length + 2)) room) :
    ∃ s', writeEscaped quote sv (countSizeWhenEscaped sv) s = .ok s' () := by
  unfold writeEscaped
  rw [countSize_eq]
  obtain ⟨s2, a, hm, _⟩ := hA s t _ h hroom
  obtain ⟨h1, h2, h3, _⟩ := L.max_ok h hm
  have h2 := h2 (by omega)
  rw [hm]
  simp only [if_neg (show ¬ a.len = 0 by omega)]
  exact escapeRounds_accepts hA quote _ [quote] (escAll sv).length sv [] a s2 t rfl
      (by simp) (by simp; omega) h2 (by simp; omega) h3 (leLimit_mono (by simp; omega) hroom)

theorem WOp.exec_accepts {L : Lawful σ} {chunk room : Option Nat} (hA : Accepts L chunk room) (op : WOp)
    (hop : op.Fine) {s : σ} {t : Str} (h : L.Rep s t) (hc : leLimit op.need chunk)
    (hroom : leLimit (t.length + op.text.length) room) : ∃ s', op.exec s = .ok s' () := by
  cases op with
  | char c => exact writeArea_accepts hA h [c] hc hroom
  | charN c n =>
    show ∃ s', writeCharN c n s = _
    rw [writeCharN_eq L c n s t h]
    exact writeStr_accepts hA h _ hroom
  | str sv => exact writeStr_accepts hA h sv hroom
  | area n text =>
    have : text.length = n := hop
    subst this
    exact writeArea_accepts hA h text hc hroom
  | int ty n base up =>
    obtain ⟨h1, h2, h3, h4⟩ := hop
    obtain ⟨b, rfl⟩ := Int.eq_ofNat_of_zero_le (show 0 ≤ base by omega)
    show ∃ s', writeInt ty n b up s = _
    rw [writeInt_eq ty n b up h1 h2 (by omega) (by omega)]
    exact writeArea_accepts hA h _ hc hroom
  | strEscaped sv =>
    exact writeEscaped_accepts hA '"' sv h (leLimit_mono (by simp [WOp.text]) hroom)
  | charEscaped c =>
    exact writeEscaped_accepts hA '\'' [c] h (leLimit_mono (by simp [WOp.text]) hroom)

theorem execAll_accepts {L : Lawful σ} {chunk room : Option Nat} (hA : Accepts L chunk room) :
    ∀ (ops : List WOp), (∀ op ∈ ops, op.Fine) → (∀ op ∈ ops, leLimit op.need chunk) → ∀ (s : σ) (t : Str), L.Rep s t →
    leLimit (t.length + (render ops).length) room → ∃ s', execAll ops s = .ok s' () ∧ L.Rep s' (t ++ render ops) := by
  intro ops
  induction ops with
  | nil => intro _ _ s t h _; exact ⟨s, rfl, by simpa using h⟩
  | cons op ops ih =>
    intro hf hc s t h hroom
    obtain ⟨s', hs'⟩ := WOp.exec_accepts hA op (hf op (by simp)) h (hc op (by simp))
      (leLimit_mono (by simp only [render_cons, List.length_append]; omega) hroom)
    have hw := WOp.exec_wrote L op (hf op (by simp)) h
    rw [hs'] at hw
    obtain ⟨s2, hs2, hr2⟩ := ih (fun o ho => hf o (by simp [ho])) (fun o ho => hc o (by simp [ho])) s' _ hw
      (leLimit_mono (by simp only [render_cons, List.length_append]; omega) hroom)
    refine ⟨s2, ?_, ?_⟩
    · unfold execAll; rw [M.bind_ok hs', hs2]
    · rw [render_cons, ← List.append_assoc]; exact hr2

end
end Emio
