import Verif.Spec.LongTexts
import Verif.Props.Format
import Verif.Lemmas.Dynamic
/-
Property C104: strings of any length.
-/
namespace Emio
open Spec

theorem toInt32_as32 (n : Nat) : toInt32 n = as32 n := by
  unfold toInt32 as32
  split <;> omega

theorem writePadded_emits_any (dflt : Align) (hd : dflt = .left ∨ dflt = .right) (s : Specs) (h : s.Ok) (n : Nat)
    (hub : s.width = 0 ∨ s.width < as32 n ∨ s.width - as32 n < 2 ^ 31) {func : Fmt Unit} {text : Str} {k : Nat}
    (hf : Emits func text k) :
    Emits (writePadded dflt s n func) (if s.width = 0 ∨ s.width < as32 n then text
      else surround (if s.align = .none then dflt else s.align) s.fill (s.width - as32 n).toNat text) k := by
  have hw := h.width
  unfold writePadded
  generalize hal : (if s.align = .none then dflt else s.align) = al
  have hal' : al ≠ .none := by
    rw [← hal]; split
    · rcases hd with rfl | rfl <;> simp
    · assumption
  generalize hs : (if s.align = .none then { s with align := dflt } else s) = s'
  have e1 : s'.width = s.width := by rw [← hs]; split <;> rfl
  have e2 : s'.align = al := by rw [← hs, ← hal]; split <;> rfl
  have e3 : s'.fill = s.fill := by rw [← hs]; split <;> rfl
  have hto := toInt32_as32 n
  generalize as32 n = w at *
  simp only
  rw [← e1] at hub hw ⊢
  by_cases hc : s'.width = 0 ∨ s'.width < w
  · rw [if_pos hc]
    have : text = [] ++ (text ++ []) := by simp
    rw [this]
    refine Emits.bind (a := 0) ?_ (Emits.seq hf ?_)
    · intro ops
      refine ⟨[], ?_, rfl, by simp, by simp⟩
      unfold writePaddingLeft
      simp only [hto]
      rw [if_pos hc]
      simp
    · unfold writePaddingRight
      rw [if_pos (Or.inl rfl)]
      exact pure_emits k
  · rw [if_neg hc]
    have hub' : ¬ (s'.width - w > int32Max) := by unfold int32Max at *; omega
    have hge : w ≤ s'.width := by omega
    have hleft : ∀ ops, writePaddingLeft s' n ops =
        (if s'.align = .left then pure (s'.width - w)
         else do
          emit (.charN s'.fill (if s'.align = .center then (s'.width - w) / 2 else s'.width - w).toNat)
          return s'.width - ((if s'.align = .center then (s'.width - w) / 2 else s'.width - w) + w) : Fmt Int) ops := by
      intro ops
      unfold writePaddingLeft
      simp only [hto]
      rw [if_neg hc, if_neg hub']
    have hchar : ∀ j : Nat, Emits (emit (.charN s.fill j)) (List.replicate j s.fill) k := fun j =>
      (emit_emits (.charN s.fill j) trivial).mono (Nat.zero_le _)
    have hright : ∀ w : Int, 0 ≤ w → al ≠ .right → Emits (writePaddingRight { s' with width := w })
        (List.replicate w.toNat s.fill) k := by
      intro w hw0 hr
      unfold writePaddingRight
      simp only [e2, e3]
      by_cases h0 : w = 0
      · rw [if_pos (Or.inl h0), h0]; exact pure_emits k
      · rw [if_neg (by
          rintro (h | ⟨h1, h2⟩)
          · exact h0 h
          · cases al <;> simp_all)]
        exact hchar _
    cases al with
    | none => exact absurd rfl hal'
    | left =>
      have : surround .left s.fill (s'.width - w).toNat text = [] ++ (text ++ List.replicate (s'.width - w).toNat s.fill) := by
        simp [surround]
      rw [this]
      refine Emits.bind (a := s'.width - w) ?_ (Emits.seq hf (hright _ (by omega) (by simp)))
      intro ops
      exact ⟨[], by rw [hleft, if_pos e2]; simp, rfl, by simp, by simp⟩
    | right =>
      have : surround .right s.fill (s'.width - w).toNat text =
          List.replicate (s'.width - w).toNat s.fill ++ (text ++ []) := by
        simp [surround]
      rw [this]
      refine Emits.bind (a := s'.width - ((s'.width - w) + w)) ?_ (Emits.seq hf ?_)
      · intro ops
        obtain ⟨new, g1, g2⟩ := hchar (s'.width - w).toNat ops
        refine ⟨new, ?_, g2⟩
        rw [hleft, if_neg (by rw [e2]; simp), e3, e2]
        simp only [reduceCtorEq, if_false]
        rw [M.bind_ok g1]
        rfl
      · have : s'.width - ((s'.width - w) + w) = 0 := by omega
        rw [this]
        unfold writePaddingRight
        rw [if_pos (Or.inl rfl)]
        exact pure_emits k
    | center =>
      have : surround .center s.fill (s'.width - w).toNat text =
          List.replicate ((s'.width - w) / 2).toNat s.fill ++
            (text ++ List.replicate (s'.width - ((s'.width - w) / 2 + w)).toNat s.fill) := by
        have : ((s'.width - w) / 2).toNat = (s'.width - w).toNat / 2 := by omega
        have e : (s'.width - ((s'.width - w) / 2 + w)).toNat = (s'.width - w).toNat - (s'.width - w).toNat / 2 := by
          omega
        rw [e]; simp [surround, this]
      rw [this]
      refine Emits.bind (a := s'.width - ((s'.width - w) / 2 + w)) ?_ (Emits.seq hf (hright _ (by omega) (by simp)))
      intro ops
      obtain ⟨new, g1, g2⟩ := hchar ((s'.width - w) / 2).toNat ops
      refine ⟨new, ?_, g2⟩
      rw [hleft, if_neg (by rw [e2]; simp), e3, e2]
      simp only [if_true]
      rw [M.bind_ok g1]
      rfl

theorem writePadded_ub (dflt : Align) (s : Specs) (n : Nat) (h0 : s.width ≠ 0)
    (h2 : s.width - as32 n ≥ 2 ^ 31) (func : Fmt Unit) (ops : List WOp) : writePadded dflt s n func ops = .bad .ub := by
  unfold writePadded
  refine M.bind_bad ?_
  unfold writePaddingLeft
  simp only [toInt32_as32]
  have e1 : (if s.align = .none then { s with align := dflt } else s).width = s.width := by split <;> rfl
  rw [e1, if_neg (by omega), if_pos (by unfold int32Max; omega)]
  rfl

theorem writeArgStr_body (s : Specs) (str : Str) (hb : ∀ c ∈ str, c.toNat < 256) :
    ∃ func, writeArgStr s str = writePadded .left s (strBody s str).length func ∧ Emits func (strBody s str) 0 := by
  unfold writeArgStr strBody
  by_cases hq : s.type = '?'
  · rw [if_neg (by simp [hq]), if_pos hq]
    have e : (WOp.strEscaped str).text = quoted '"' str := by
      simp [WOp.text, quoted, escAll_eq str hb]
    refine ⟨_, ?_, by rw [← e]; exact emit_emits _ trivial⟩
    rw [countSize_eq, escAll_eq str hb]
    congr 1
    simp [quoted]
  · rw [if_pos hq, if_neg hq]
    exact ⟨_, rfl, emit_emits (.str _) trivial⟩

/-- C104: what `{:spec}` makes of a string, whatever its length. -/
theorem C104_exactly (str : Str) (hs : ∀ c ∈ str, c.toNat < 256) (t : SpecText) (wf : t.WellFormed) (fits : t.Fits)
    (hal : CoreTy.Allows .string t) :
    formatStr ("{:".toList ++ t.text ++ "}".toList) [(CoreArg.string str).farg] =
      match longText t.meaning str with
      | some text => .ok () text
      | none => .bad .ub := by
  obtain ⟨func, h1, h2⟩ := writeArgStr_body t.meaning str hs
  have hok := meaning_ok fits
  have hc := (allows_iff .string wf).2 hal
  unfold longText
  simp only
  by_cases hw : t.meaning.width = 0 ∨ t.meaning.width < as32 (strBody t.meaning str).length ∨
      t.meaning.width - as32 (strBody t.meaning str).length < 2 ^ 31
  · have he := writePadded_emits_any .left (Or.inl rfl) t.meaning hok _ hw h2
    rw [← h1] at he
    have hr := (formats_single (spec := some t) (core_reads (.string str) _ wf fits hc he)).str
    rw [single_text] at hr
    rw [hr]
    by_cases hn : t.meaning.width = 0 ∨ t.meaning.width < as32 (strBody t.meaning str).length
    · rw [if_pos hn, if_pos hn]
    · have hn' : ¬ t.meaning.width - as32 (strBody t.meaning str).length ≥ 2 ^ 31 := by omega
      rw [if_neg hn, if_neg hn, if_neg hn']
  · rw [if_neg (by omega), if_pos (by omega)]
    have hbad : ∀ ops, writeArgStr t.meaning str ops = .bad .ub := by
      intro ops
      rw [h1]
      exact writePadded_ub _ _ _ (by omega) (by omega) _ _
    have hf : ∀ b : MemBuf, formatTo ('{' :: ((if true then [':'] else []) ++ (t.text ++ ['}'])))
        [(CoreArg.string str).farg] b = runAct (writeArgStr t.meaning str) b := by
      intro b
      refine field_exact (colon := true) (by simp) (fun r hat => ?_) (fun r hat => ?_) b
      · have h1 := C28_type_check .string t wf fits r hat.1 [] hat.2
        rw [if_pos hc] at h1
        exact h1
      · have h2 := (C28_grammar_is_accepted t wf fits r hat.1 [] hat.2).2
        show (do let s ← parseFormatSpecs {}; return (CoreArg.string str).write s : M Reader (Fmt Unit)) r = _
        rw [M.bind_ok h2]
        rfl
    have hf' := fun b => (hf b).trans (show runAct (writeArgStr t.meaning str) b = .bad .ub by unfold runAct; rw [hbad])
    have e : "{:".toList ++ t.text ++ "}".toList = '{' :: ((if true then [':'] else []) ++ (t.text ++ ['}'])) := by simp
    unfold formatStr
    rw [e]
    obtain ⟨b, a, hb, _⟩ := MemBuf.rep_new defaultCacheSize 0
    rw [hb]
    exact (by rw [hf' b] : (match formatTo ('{' :: ((if true then [':'] else []) ++ (t.text ++ ['}'])))
      [(CoreArg.string str).farg] b with
      | .ok s' _ => (Run.ok () s'.view : Run Unit Str)
      | .err _ e => .err () e
      | .bad b => .bad b) = .bad .ub)

theorem longText_short (s : Specs) (str : Str) (hw : 0 ≤ s.width ∧ s.width < 2 ^ 31)
    (h : (strBody s str).length < 2 ^ 31) : longText s str = some (strText s str) := by
  have e : as32 (strBody s str).length = (strBody s str).length := by unfold as32; split <;> omega
  have ht : strText s str = padded .left s (strBody s str) := by unfold strText strBody; split <;> rfl
  unfold longText
  simp only [ht, e, padded, fillCount]
  by_cases hn : s.width = 0 ∨ s.width < ((strBody s str).length : Int)
  · rw [if_pos hn]
    have : s.width.toNat - (strBody s str).length = 0 := by omega
    rw [this]
    cases (if s.align = .none then Align.left else s.align) <;> simp [surround]
  · have hn' : ¬ s.width - ((strBody s str).length : Int) ≥ 2 ^ 31 := by omega
    rw [if_neg hn, if_neg hn']
    congr 2
    omega

/-- C104 as a user would have it: a string is padded to the width, whatever its length. -/
def AnyLengthIsPadded : Prop :=
  ∀ (str : Str) (t : SpecText), (∀ c ∈ str, c.toNat < 256) → t.WellFormed → t.Fits → CoreTy.Allows .string t →
    formatStr ("{:".toList ++ t.text ++ "}".toList) [(CoreArg.string str).farg] = .ok () (strText t.meaning str)

/-- C104, what holds: a string that is shown with less than 2^31 characters is padded to the width. -/
theorem C104_padding_partial (str : Str) (hs : ∀ c ∈ str, c.toNat < 256) (t : SpecText) (wf : t.WellFormed) (fits : t.Fits)
    (hal : CoreTy.Allows .string t) (hlen : (strBody t.meaning str).length < 2 ^ 31) :
    formatStr ("{:".toList ++ t.text ++ "}".toList) [(CoreArg.string str).farg] = .ok () (strText t.meaning str) := by
  have hok := meaning_ok fits
  rw [C104_exactly str hs t wf fits hal, longText_short _ _ ⟨hok.width.1, by have := hok.width.2; unfold int32Max at this; omega⟩ hlen]

/-- C104, what holds: without a width the string may be of any length. -/
theorem C104_without_width (str : Str) (hs : ∀ c ∈ str, c.toNat < 256) (t : SpecText) (wf : t.WellFormed) (fits : t.Fits)
    (hal : CoreTy.Allows .string t) (hw : t.width = []) :
    formatStr ("{:".toList ++ t.text ++ "}".toList) [(CoreArg.string str).farg] = .ok () (strText t.meaning str) ∧
      strText t.meaning str = strBody t.meaning str := by
  have h0 : t.meaning.width = 0 := by simp [SpecText.meaning, SpecText.widthValue, hw]; rfl
  have ht : strText t.meaning str = strBody t.meaning str := by
    have ht : strText t.meaning str = padded .left t.meaning (strBody t.meaning str) := by
      unfold strText strBody; split <;> rfl
    rw [ht]
    simp only [padded, fillCount, h0]
    cases (if t.meaning.align = .none then Align.left else t.meaning.align) <;> simp [surround]
  refine ⟨?_, ht⟩
  rw [C104_exactly str hs t wf fits hal, ht]
  unfold longText
  rw [if_pos (Or.inl h0)]

def width1 : SpecText := { width := ['1'] }

theorem width1_ok : width1.WellFormed ∧ width1.Fits ∧ CoreTy.Allows .string width1 := by
  refine ⟨by constructor <;> simp [width1], by constructor <;> decide +kernel,
    by simp [width1, CoreTy.Allows, SpecText.TextOnly]⟩

theorem width1_meaning : width1.meaning.width = 1 ∧ width1.meaning.align = .none ∧ width1.meaning.fill = ' ' ∧
    ∀ str, strBody width1.meaning str = str := by
  refine ⟨by decide +kernel, by decide +kernel, by decide +kernel, fun str => ?_⟩
  unfold strBody
  rw [if_neg (by decide +kernel), if_neg (by decide +kernel)]

/-- C104: formatting a string of 2^31 characters with a width is undefined. -/
theorem C104_overflow_violated (str : Str) (hs : ∀ c ∈ str, c.toNat < 256) (hlen : str.length = 2 ^ 31) :
    formatStr "{:1}".toList [(CoreArg.string str).farg] = .bad .ub := by
  obtain ⟨h1, h2, h3⟩ := width1_ok
  have e := C104_exactly _ hs _ h1 h2 h3
  have et : "{:".toList ++ width1.text ++ "}".toList = "{:1}".toList := by decide +kernel
  rw [et] at e
  obtain ⟨hw, ha, hf, hbd⟩ := width1_meaning
  have : as32 (2 ^ 31) = - 2147483648 := by decide +kernel
  have hl : longText width1.meaning str = none := by
    unfold longText
    simp only [hbd, hlen, hw, this]
    rw [if_neg (by decide), if_pos (by decide)]
  rw [e, hl]

/-- C104: a string of 2^32 - 1 characters with the width 1 is followed by two blanks. -/
theorem C104_fill_violated (str : Str) (hs : ∀ c ∈ str, c.toNat < 256) (hlen : str.length = 2 ^ 32 - 1) :
    formatStr "{:1}".toList [(CoreArg.string str).farg] = .ok () (str ++ [' ', ' ']) := by
  obtain ⟨h1, h2, h3⟩ := width1_ok
  have e := C104_exactly _ hs _ h1 h2 h3
  have et : "{:".toList ++ width1.text ++ "}".toList = "{:1}".toList := by decide +kernel
  rw [et] at e
  obtain ⟨hw, ha, hf, hbd⟩ := width1_meaning
  have : as32 (2 ^ 32 - 1) = - 1 := by decide +kernel
  have hl : longText width1.meaning str = some (str ++ [' ', ' ']) := by
    unfold longText
    simp only [hbd, hlen, hw, ha, hf, this]
    rw [if_neg (by decide), if_neg (by decide)]
    rfl
  rw [e, hl]

/-- There are such strings. -/
theorem exists_long (n : Nat) : ∃ str : Str, (∀ c ∈ str, c.toNat < 256) ∧ str.length = n :=
  ⟨List.replicate n 'a', fun c hc => by rw [(List.mem_replicate.1 hc).2]; decide, List.length_replicate⟩

theorem C104_padding_violated : ¬ AnyLengthIsPadded := by
  intro h
  obtain ⟨h1, h2, h3⟩ := width1_ok
  obtain ⟨str, hs, hlen⟩ := exists_long (2 ^ 31)
  have e := h str width1 hs h1 h2 h3
  have et : "{:".toList ++ width1.text ++ "}".toList = "{:1}".toList := by decide +kernel
  rw [et, C104_overflow_violated str hs hlen] at e
  exact absurd e (by simp)

/-- A string of 2^40 characters with a width and the precision 3, and without a width. -/
example : ∃ str : Str, str.length = 2 ^ 40 ∧
    formatStr "{:*>5.3}".toList [(CoreArg.string str).farg] = .ok () ("**".toList ++ str.take 3) ∧
    formatStr "{:s}".toList [(CoreArg.string str).farg] = .ok () str := by
  obtain ⟨str, hs, hlen⟩ := exists_long (2 ^ 40)
  refine ⟨str, hlen, ?_, ?_⟩
  · have h := C104_padding_partial str hs { fill := some '*', align := some '>', width := ['5'], prec := some ['3'] }
      (by constructor <;> simp) (by constructor <;> decide +kernel) (by simp [CoreTy.Allows, SpecText.TextOnly])
      (by
        have e : strBody ({ fill := some '*', align := some '>', width := ['5'], prec := some ['3'] } : SpecText).meaning str =
            str.take 3 := by
          unfold strBody
          rw [if_neg (by decide +kernel), if_pos (by decide +kernel)]
          congr 1
        rw [e]
        simp)
    have e : strText ({ fill := some '*', align := some '>', width := ['5'], prec := some ['3'] } : SpecText).meaning str =
        "**".toList ++ str.take 3 := by
      unfold strText
      rw [if_neg (by decide +kernel), if_pos (by decide +kernel)]
      have ep : ({ fill := some '*', align := some '>', width := ['5'], prec := some ['3'] } : SpecText).meaning.precision.toNat
          = 3 := by decide +kernel
      rw [ep]
      have el : (str.take 3).length = 3 := by simp; omega
      unfold padded fillCount
      rw [el]
      rfl
    rw [e] at h
    exact h
  · have h := C104_without_width str hs { type := some 's' } (by constructor <;> simp) (by constructor <;> decide +kernel)
      (by simp [CoreTy.Allows, SpecText.TextOnly]) rfl
    have e : strBody ({ type := some 's' } : SpecText).meaning str = str := by
      unfold strBody
      rw [if_neg (by decide +kernel), if_neg (by decide +kernel)]
    rw [h.2, e] at h
    exact h.1

end Emio
