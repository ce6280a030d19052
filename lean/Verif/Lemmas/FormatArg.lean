import Verif.Model.FormatArg
import Verif.Spec.Render
import Verif.Lemmas.Writer
import Verif.Lemmas.Conversion
/-
Helper lemmas: what formatting an argument writes.
-/
namespace Emio
open Spec

/-- The calls a function makes write a certain text, each call being in order and asking for at most `k` contiguous
characters. -/
def Emits (m : Fmt Unit) (text : Str) (k : Nat) : Prop :=
  ∀ ops, ∃ new, m ops = .ok (ops ++ new) () ∧ render new = text ∧ (∀ op ∈ new, op.Fine) ∧ ∀ op ∈ new, op.need ≤ k

theorem emit_emits (op : WOp) (h : op.Fine) : Emits (emit op) op.text op.need := by
  intro ops
  exact ⟨[op], rfl, by simp, by simpa using h, by simp⟩

theorem Emits.mono {m : Fmt Unit} {text : Str} {k k' : Nat} (h : Emits m text k) (hk : k ≤ k') : Emits m text k' := by
  intro ops
  obtain ⟨new, h1, h2, h3, h4⟩ := h ops
  exact ⟨new, h1, h2, h3, fun op ho => Nat.le_trans (h4 op ho) hk⟩

theorem pure_emits (k : Nat) : Emits (pure ()) [] k := fun ops => ⟨[], by simp, rfl, by simp, by simp⟩

theorem Emits.bind {α : Type} {m : Fmt α} {f : α → Fmt Unit} {a : α} {x y : Str} {k : Nat}
    (hm : ∀ ops, ∃ new, m ops = .ok (ops ++ new) a ∧ render new = x ∧ (∀ op ∈ new, op.Fine) ∧ ∀ op ∈ new, op.need ≤ k)
    (hf : Emits (f a) y k) : Emits (m >>= f) (x ++ y) k := by
  intro ops
  obtain ⟨n1, h1, h2, h3, h4⟩ := hm ops
  obtain ⟨n2, g1, g2, g3, g4⟩ := hf (ops ++ n1)
  refine ⟨n1 ++ n2, ?_, by simp [h2, g2], ?_, ?_⟩
  · rw [M.bind_ok h1, g1, List.append_assoc]
  · intro op ho
    rcases List.mem_append.1 ho with ho | ho
    · exact h3 op ho
    · exact g3 op ho
  · intro op ho
    rcases List.mem_append.1 ho with ho | ho
    · exact h4 op ho
    · exact g4 op ho

theorem Emits.seq {m m' : Fmt Unit} {x y : Str} {k : Nat} (hm : Emits m x k) (hm' : Emits m' y k) :
    Emits (m >>= fun _ => m') (x ++ y) k :=
  Emits.bind (a := ()) hm hm'

/-- Width, precision and zero flag of a specification as they come out of a format string. -/
structure Specs.Ok (s : Specs) : Prop where
  width : 0 ≤ s.width ∧ s.width ≤ int32Max
  precision : -1 ≤ s.precision ∧ s.precision ≤ int32Max
  zero : s.zeroFlag = true → s.fill = '0' ∧ s.align = .right

/-- The padding around a text taken to have `n` characters. -/
theorem writePadded_emits_raw (dflt : Align) (hd : dflt = .left ∨ dflt = .right) (s : Specs) (h : s.Ok) (n : Nat)
    (hn : n < 2 ^ 31) {func : Fmt Unit} {text : Str} {k : Nat} (hf : Emits func text k) :
    Emits (writePadded dflt s n func) (surround (if s.align = .none then dflt else s.align) s.fill (fillCount s n) text) k := by
  have hw := h.width
  unfold writePadded
  generalize hal : (if s.align = .none then dflt else s.align) = al
  have hal' : al ≠ .none := by
    rw [← hal]; split
    · rcases hd with rfl | rfl <;> simp
    · assumption
  generalize hs : (if s.align = .none then { s with align := dflt } else s) = s'
  have e1 : s'.width = s.width := by rw [← hs]; split <;> rfl
  have e2 : s'.align = al := by rw [← hs, ← hal]; split <;> rfl
  have e3 : s'.fill = s.fill := by rw [← hs]; split <;> rfl
  have hto : toInt32 (n : Int) = n := by unfold toInt32; omega
  simp only
  by_cases hc : s'.width = 0 ∨ s'.width < n
  · have hk : fillCount s n = 0 := by unfold fillCount; omega
    rw [hk]
    have : surround al s.fill 0 text = [] ++ (text ++ []) := by
      cases al <;> simp [surround]
    rw [this]
    refine Emits.bind (a := 0) ?_ (Emits.seq hf ?_)
    · intro ops
      refine ⟨[], ?_, rfl, by simp, by simp⟩
      unfold writePaddingLeft
      simp only [hto]
      rw [if_pos hc]
      simp
    · unfold writePaddingRight
      rw [if_pos (Or.inl rfl)]
      exact pure_emits k
  · have hge : (n : Int) ≤ s'.width := by omega
    have hub : ¬ (s'.width - (n : Int) > int32Max) := by unfold int32Max at *; omega
    have hleft : ∀ ops, writePaddingLeft s' n ops =
        (if s'.align = .left then pure (s'.width - n)
         else do
          emit (.charN s'.fill (if s'.align = .center then (s'.width - n) / 2 else s'.width - n).toNat)
          return s'.width - ((if s'.align = .center then (s'.width - n) / 2 else s'.width - n) + n) : Fmt Int) ops := by
      intro ops
      unfold writePaddingLeft
      simp only [hto]
      rw [if_neg hc, if_neg hub]
    have hchar : ∀ j : Nat, Emits (emit (.charN s.fill j)) (List.replicate j s.fill) k := fun j =>
      (emit_emits (.charN s.fill j) trivial).mono (Nat.zero_le _)
    have hright : ∀ w : Int, 0 ≤ w → al ≠ .right → Emits (writePaddingRight { s' with width := w })
        (List.replicate w.toNat s.fill) k := by
      intro w hw0 hr
      unfold writePaddingRight
      simp only [e2, e3]
      by_cases h0 : w = 0
      · rw [if_pos (Or.inl h0), h0]; exact pure_emits k
      · rw [if_neg (by
          rintro (h | ⟨h1, h2⟩)
          · exact h0 h
          · cases al <;> simp_all)]
        exact hchar _
    cases al with
    | none => exact absurd rfl hal'
    | left =>
      have : surround .left s.fill (fillCount s n) text = [] ++ (text ++ List.replicate (s'.width - n).toNat s.fill) := by
        have e : fillCount s n = (s'.width - n).toNat := by unfold fillCount; omega
        rw [e]; simp [surround]
      rw [this]
      refine Emits.bind (a := s'.width - n) ?_ (Emits.seq hf (hright _ (by omega) (by simp)))
      intro ops
      exact ⟨[], by rw [hleft, if_pos e2]; simp, rfl, by simp, by simp⟩
    | right =>
      have : surround .right s.fill (fillCount s n) text =
          List.replicate (s'.width - n).toNat s.fill ++ (text ++ []) := by
        have e : fillCount s n = (s'.width - n).toNat := by unfold fillCount; omega
        rw [e]; simp [surround]
      rw [this]
      refine Emits.bind (a := s'.width - ((s'.width - n) + n)) ?_ (Emits.seq hf ?_)
      · intro ops
        obtain ⟨new, g1, g2⟩ := hchar (s'.width - n).toNat ops
        refine ⟨new, ?_, g2⟩
        rw [hleft, if_neg (by rw [e2]; simp), e3, e2]
        simp only [reduceCtorEq, if_false]
        rw [M.bind_ok g1]
        rfl
      · have : s'.width - ((s'.width - (n : Int)) + n) = 0 := by omega
        rw [this]
        unfold writePaddingRight
        rw [if_pos (Or.inl rfl)]
        exact pure_emits k
    | center =>
      have : surround .center s.fill (fillCount s n) text =
          List.replicate ((s'.width - n) / 2).toNat s.fill ++
            (text ++ List.replicate (s'.width - ((s'.width - n) / 2 + n)).toNat s.fill) := by
        have : ((s'.width - (n : Int)) / 2).toNat = fillCount s n / 2 := by unfold fillCount; omega
        have e : (s'.width - ((s'.width - (n : Int)) / 2 + n)).toNat = fillCount s n - fillCount s n / 2 := by
          unfold fillCount; omega
        rw [e]; simp [surround, this]
      rw [this]
      refine Emits.bind (a := s'.width - ((s'.width - n) / 2 + n)) ?_ (Emits.seq hf (hright _ (by omega) (by simp)))
      intro ops
      obtain ⟨new, g1, g2⟩ := hchar ((s'.width - n) / 2).toNat ops
      refine ⟨new, ?_, g2⟩
      rw [hleft, if_neg (by rw [e2]; simp), e3, e2]
      simp only [if_true]
      rw [M.bind_ok g1]
      rfl

theorem writePadded_emits (dflt : Align) (hd : dflt = .left ∨ dflt = .right) (s : Specs) (h : s.Ok)
    {func : Fmt Unit} {text : Str} {k n : Nat} (hn : n = text.length) (hlt : text.length < 2 ^ 31)
    (hf : Emits func text k) : Emits (writePadded dflt s n func) (padded dflt s text) k := by
  subst hn
  exact writePadded_emits_raw dflt hd s h _ hlt hf

/-! ### Integers -/

theorem getOptions (type : Char)
    (ht : type = noChar ∨ type = 'd' ∨ type = 'x' ∨ type = 'X' ∨ type = 'b' ∨ type = 'B' ∨ type = 'o') (ops : List WOp) :
    ∃ pfx, makeWriteIntOptions type ops = .ok ops (pfx, baseOf type, type == 'X') ∧
      (pfx = if type = 'x' ∨ type = 'X' ∨ type = 'b' ∨ type = 'B' then ['0', type]
        else if type = 'o' then ['0'] else []) := by
  rcases ht with rfl | rfl | rfl | rfl | rfl | rfl | rfl <;> exact ⟨_, rfl, by decide⟩

theorem baseOf_range (type : Char) : 2 ≤ baseOf type ∧ baseOf type ≤ 16 := by
  unfold baseOf; repeat' split
  all_goals omega

theorem numeral_length_le (up : Bool) (b : Nat) (hb : 2 ≤ b) : ∀ (k n : Nat), n < 2 ^ (k + 1) → (numeral up b n).length ≤ k + 1 := by
  intro k
  induction k with
  | zero =>
    intro n hn
    rw [length_numeral_lt up b n hb (by omega)]
  | succ k ih =>
    intro n hn
    rcases Nat.lt_or_ge n b with h | h
    · rw [length_numeral_lt up b n hb h]; omega
    · rw [length_numeral_ge up b n hb h]
      have : n / b ≤ n / 2 := Nat.div_le_div_left hb (by omega)
      have := ih (n / b) (by rw [Nat.pow_succ] at hn; omega)
      omega

theorem natAbs_lt {t : IntTy} (ht : t.Std) {n : Int} (hn : t.Holds n) : n.natAbs < 2 ^ 64 := by
  obtain ⟨s, b⟩ := t
  simp only [IntTy.Std] at ht
  simp only [IntTy.Holds, IntTy.min, IntTy.max] at hn
  rcases ht with h | h | h | h <;> subst h <;> cases s <;> simp at hn <;> omega

theorem sign_emits (s : Specs) (neg : Bool) :
    (s.zeroFlag = true → ∀ ops, ∃ new, tryWriteSign s neg ops = .ok (ops ++ new) noChar ∧ render new = signOf s neg ∧
      (∀ op ∈ new, op.Fine) ∧ ∀ op ∈ new, op.need ≤ 1) ∧
    (s.zeroFlag = false → ∃ c, (∀ ops, tryWriteSign s neg ops = .ok ops c) ∧ signText c = signOf s neg) := by
  have hb : ∃ c, (if neg = true then '-' else if s.sign = '+' ∨ s.sign = ' ' then s.sign else noChar) = c ∧
      signText c = signOf s neg := by
    refine ⟨_, rfl, ?_⟩
    unfold signOf
    cases neg with
    | true => simp; decide
    | false =>
      by_cases h1 : s.sign = '+'
      · rw [h1]; decide
      · by_cases h2 : s.sign = ' '
        · rw [h2]; decide
        · simp [h1, h2, signText]
  obtain ⟨c, hc, hs⟩ := hb
  constructor
  · intro hz ops
    unfold tryWriteSign
    simp only [hc, hz]
    by_cases hn : c = noChar
    · refine ⟨[], ?_, ?_, by simp, by simp⟩
      · rw [if_neg (by simp [hn]), hn]; simp
      · rw [← hs, hn]; rfl
    · refine ⟨[.char c], ?_, ?_, by simp [WOp.Fine], by simp [WOp.need]⟩
      · rw [if_pos ⟨hn, trivial⟩]; rfl
      · rw [← hs]; simp [signText, hn, WOp.text]
  · intro hz
    refine ⟨c, fun ops => ?_, hs⟩
    unfold tryWriteSign
    simp only [hc, hz]
    rw [if_neg (by simp)]
    rfl

theorem signText_length (c : Char) : (if c ≠ noChar then 1 else 0) = (signText c).length := by
  unfold signText; split <;> rfl

theorem signOf_length (s : Specs) (neg : Bool) :
    (if neg || s.sign == ' ' || s.sign == '+' then 1 else 0) = (signOf s neg).length := by
  unfold signOf
  cases neg with
  | true => simp
  | false =>
    by_cases h1 : s.sign = '+'
    · rw [h1]; decide
    · by_cases h2 : s.sign = ' '
      · rw [h2]; decide
      · simp [h1, h2]

/-- Digits with sign and prefix, as `write_arg` for integers writes them. -/
theorem writeArgInt_emits (s : Specs) (h : s.Ok) (t : IntTy) (ht : t.Std) (n : Int) (hn : t.Holds n)
    (hty : s.type = noChar ∨ s.type = 'd' ∨ s.type = 'x' ∨ s.type = 'X' ∨ s.type = 'b' ∨ s.type = 'B' ∨ s.type = 'o' ∨
      s.type = 'c') :
    Emits (writeArgInt s t n) (intText s n) 67 := by
  unfold writeArgInt intText
  by_cases hc : s.type = 'c'
  · rw [if_pos hc, if_pos hc]
    exact (writePadded_emits .left (Or.inl rfl) s h rfl (by simp [WOp.text]) (emit_emits (.char _) trivial)).mono (by simp [WOp.need])
  · rw [if_neg hc, if_neg hc]
    have hty' : s.type = noChar ∨ s.type = 'd' ∨ s.type = 'x' ∨ s.type = 'X' ∨ s.type = 'b' ∨ s.type = 'B' ∨
        s.type = 'o' := by tauto
    obtain ⟨hb2, hb16⟩ := baseOf_range s.type
    have habs := toAbsolute_eq t n ht hn
    have hneg : (t.signed && decide (n < 0)) = decide (n < 0) := by
      cases hsg : t.signed with
      | true => simp
      | false =>
        have : t.min = 0 := by unfold IntTy.min; simp [hsg]
        have := hn.1
        simp; omega
    have hdig := getNumberOfDigits_eq n.natAbs (baseOf s.type) (s.type == 'X') hb2
    have hnum := writeNumber_eq n.natAbs (baseOf s.type) (s.type == 'X') [] hb2 (by omega)
    have hlen : (numeral (s.type == 'X') (baseOf s.type) n.natAbs).length ≤ 64 :=
      numeral_length_le _ _ hb2 63 _ (natAbs_lt ht hn)
    generalize hD : numeral (s.type == 'X') (baseOf s.type) n.natAbs = D at *
    rw [List.append_nil] at hnum
    intro ops
    obtain ⟨pfx, hopt, hpfx⟩ := getOptions s.type hty' ops
    rw [M.bind_ok hopt]
    simp only [habs, hneg, hdig, hnum]
    -- the prefix that is written
    generalize hp : (if s.type = 'o' ∧ n = 0 then [] else pfx) = p
    have hpre : (if s.alternateForm = true then p else []) = prefixOf s n := by
      rw [← hp, hpfx]
      unfold prefixOf
      cases ha : s.alternateForm with
      | false => simp
      | true =>
        by_cases ho : s.type = 'o'
        · by_cases h0 : n = 0 <;> simp [ho, h0]
        · simp [ho]
    have hplen : p.length ≤ 2 := by
      rw [← hp, hpfx]; split
      · simp
      · split
        · simp
        · split <;> simp
    have hprelen : (if s.alternateForm = true then p.length else 0) = (prefixOf s n).length := by
      rw [← hpre]; split <;> rfl
    have hsgl := signOf_length s (decide (n < 0))
    have hsl : (signOf s (decide (n < 0))).length ≤ 1 := by rw [← hsgl]; split <;> omega
    have hppl : (prefixOf s n).length ≤ 2 := by rw [← hprelen]; split <;> omega
    rw [hsgl, hprelen]
    generalize hsg : signOf s (decide (n < 0)) = sg at *
    generalize hpf : prefixOf s n = pf at *
    refine (?_ : Emits _ _ _) ops
    cases hz : s.zeroFlag with
    | true =>
      obtain ⟨hfill, halign⟩ := h.zero hz
      have e : paddedNumber s (sg ++ pf) D = sg ++ (pf ++ (List.replicate (fillCount s (D.length + pf.length + sg.length)) '0' ++ D)) := by
        unfold paddedNumber
        rw [if_pos hz]
        have : (sg ++ pf ++ D).length = D.length + pf.length + sg.length := by simp; omega
        rw [this]
        simp
      rw [e]
      refine Emits.bind (a := noChar) ?_ ?_
      · intro ops
        obtain ⟨new, g1, g2, g3, g4⟩ := (sign_emits s (decide (n < 0))).1 hz ops
        exact ⟨new, g1, by rw [g2, hsg], g3, fun op ho => by have := g4 op ho; omega⟩
      · refine Emits.bind (a := []) ?_ ?_
        · intro ops
          unfold tryWritePrefix
          simp only [hz]
          cases ha : s.alternateForm with
          | false =>
            refine ⟨[], by simp, ?_, by simp, by simp⟩
            rw [← hpre, ha]; rfl
          | true =>
            have : p = pf := by rw [← hpre, ha]; rfl
            rw [this]
            by_cases hpe : pf = []
            · rw [hpe]; exact ⟨[], by simp, rfl, by simp, by simp⟩
            · refine ⟨[.str pf], ?_, by simp [WOp.text], by simp [WOp.Fine], by simp [WOp.need]⟩
              simp only [Bool.true_and, Bool.and_true, decide_eq_true_eq]
              rw [if_pos hpe]
              rfl
        · have := writePadded_emits_raw .right (Or.inr rfl) s h (D.length + pf.length + sg.length) (by omega)
            ((emit_emits (.area D.length D) rfl).mono (k' := 67) (by simp [WOp.need]; omega))
          rw [halign, hfill] at this
          simpa [surround, signText, WOp.text] using this
    | false =>
      obtain ⟨c, hc1, hc2⟩ := (sign_emits s (decide (n < 0))).2 hz
      have e : paddedNumber s (sg ++ pf) D = [] ++ ([] ++ padded .right s (sg ++ pf ++ D)) := by
        unfold paddedNumber
        rw [if_neg (by simp [hz])]
        simp
      rw [e]
      refine Emits.bind (a := c) (fun ops => ⟨[], by simp [hc1], rfl, by simp, by simp⟩) ?_
      refine Emits.bind (a := pf) ?_ ?_
      · intro ops
        refine ⟨[], ?_, rfl, by simp, by simp⟩
        unfold tryWritePrefix
        simp only [hz, List.append_nil]
        rw [← hpre]
        cases ha : s.alternateForm with
        | false => simp
        | true => by_cases hpe : p = [] <;> simp [hpe]
      · rw [signText_length, hc2, hsg]
        have hl : (sg ++ pf ++ D).length = D.length + sg.length + pf.length := by simp; omega
        refine writePadded_emits .right (Or.inr rfl) s h (by omega) (by omega) ?_
        exact (emit_emits (.area _ (sg ++ pf ++ D)) hl).mono (by simp [WOp.need]; omega)

/-! ### The other kinds -/

theorem writeArgStr_emits (s : Specs) (h : s.Ok) (str : Str) (hb : ∀ c ∈ str, c.toNat < 256)
    (hlen : (quoted '"' str).length < 2 ^ 31) (hlen' : str.length < 2 ^ 31) :
    Emits (writeArgStr s str) (strText s str) 0 := by
  unfold writeArgStr strText
  by_cases hq : s.type = '?'
  · rw [if_neg (by simp [hq]), if_pos hq]
    have e : (WOp.strEscaped str).text = quoted '"' str := by
      simp [WOp.text, quoted, escAll_eq str hb]
    refine writePadded_emits .left (Or.inl rfl) s h ?_ hlen ?_
    · rw [countSize_eq, escAll_eq str hb]; simp [quoted]
    · rw [← e]; exact emit_emits _ trivial
  · rw [if_pos hq, if_neg hq]
    simp only
    refine writePadded_emits .left (Or.inl rfl) s h ?_ ?_ ?_
    · rfl
    · split
      · simp; omega
      · exact hlen'
    · exact emit_emits (.str _) trivial

theorem writeArgBool_emits (s : Specs) (h : s.Ok) (b : Bool) (hc : checkBoolSpecs s = true) (hO : s.type ≠ 'O') :
    Emits (writeArgBool s b) (boolText s b) 67 := by
  unfold writeArgBool boolText
  by_cases ht : s.type = noChar ∨ s.type = 's'
  · rw [if_neg (by tauto), if_pos ht]
    cases b
    · exact (writePadded_emits .left (Or.inl rfl) s h (text := "false".toList) (k := 0) rfl (by decide)
        (emit_emits (.str "false".toList) trivial)).mono (by simp)
    · exact (writePadded_emits .left (Or.inl rfl) s h (text := "true".toList) (k := 0) rfl (by decide)
        (emit_emits (.str "true".toList) trivial)).mono (by simp)
  · rw [if_pos (by tauto), if_neg ht]
    unfold checkBoolSpecs at hc
    rw [if_pos (by tauto)] at hc
    have : s.type = noChar ∨ s.type = 'd' ∨ s.type = 'x' ∨ s.type = 'X' ∨ s.type = 'b' ∨ s.type = 'B' ∨ s.type = 'o' ∨
      s.type = 'c' := by
      unfold checkIntegralSpecs at hc
      simp at hc
      tauto
    exact writeArgInt_emits s h u8 (by decide) _ (by cases b <;> decide) this

theorem writeArgChar_emits (s : Specs) (h : s.Ok) (c : Char) (hb : c.toNat < 256) (hc : checkCharSpecs s = true)
    (hO : s.type ≠ 'O') (hq : s.type ≠ '?') : Emits (writeArgChar s c) (charText s c) 67 := by
  unfold writeArgChar charText
  rw [if_neg hq]
  by_cases ht : s.type = noChar ∨ s.type = 'c'
  · rw [if_neg (by tauto), if_pos ht, if_pos hq]
    exact (writePadded_emits .left (Or.inl rfl) s h rfl (by simp [WOp.text]) (emit_emits (.char _) trivial)).mono
      (by simp [WOp.need])
  · rw [if_pos (by tauto), if_neg ht]
    unfold checkCharSpecs at hc
    rw [if_pos (by tauto)] at hc
    have : s.type = noChar ∨ s.type = 'd' ∨ s.type = 'x' ∨ s.type = 'X' ∨ s.type = 'b' ∨ s.type = 'B' ∨ s.type = 'o' ∨
      s.type = 'c' := by
      unfold checkIntegralSpecs at hc
      simp at hc
      tauto
    refine writeArgInt_emits s h u8 (by decide) _ ⟨?_, ?_⟩ this
    · have : u8.min = 0 := by decide
      omega
    · have : u8.max = 255 := by decide
      omega

/-- The debug form of a character: the padding is computed for three characters. -/
theorem writeArgChar_debug_emits (s : Specs) (h : s.Ok) (c : Char) (hb : c.toNat < 256) (hq : s.type = '?') :
    Emits (writeArgChar s c)
      (surround (if s.align = .none then .left else s.align) s.fill (fillCount s 3) (quoted '\'' [c])) 0 := by
  unfold writeArgChar
  rw [if_neg (by simp [hq]), if_neg (by simp [hq])]
  refine writePadded_emits_raw .left (Or.inl rfl) s h 3 (by omega) ?_
  have e : (WOp.charEscaped c).text = quoted '\'' [c] := by
    simp [WOp.text, quoted, escAll_eq [c] (by simpa using hb)]
  rw [← e]
  exact emit_emits _ trivial

theorem writeArgPtr_emits (s : Specs) (h : s.Ok) (addr : Nat) (ha : addr < 2 ^ 64) (hc : checkPointerSpecs s = true) :
    Emits (writeArgPtr s addr) (ptrText s addr) 67 := by
  unfold writeArgPtr
  have hc' : s.alternateForm = false ∧ s.sign = noChar ∧ s.zeroFlag = false ∧ s.precision = noPrecision := by
    unfold checkPointerSpecs at hc
    split at hc
    · simp at hc
    · simp at hc; tauto
  have := writeArgInt_emits { s with alternateForm := true, type := 'x' } ⟨h.width, h.precision, h.zero⟩ u64 (by decide)
    (addr : Int) ⟨by have : u64.min = 0 := (by decide); omega, by
      have : u64.max = 18446744073709551615 := by decide
      omega⟩ (by simp)
  have e : intText { s with alternateForm := true, type := 'x' } (addr : Int) = ptrText s addr := by
    unfold intText ptrText paddedNumber
    rw [if_neg (by simp), if_neg (by simp [hc'.2.2.1])]
    have h1 : signOf { s with alternateForm := true, type := 'x' } (decide ((addr : Int) < 0)) = [] := by
      unfold signOf
      simp [hc'.2.1, noChar]
    have h2 : prefixOf { s with alternateForm := true, type := 'x' } (addr : Int) = ['0', 'x'] := by
      simp [prefixOf]
    rw [h1, h2]
    rfl
  rw [e] at this
  exact this

end Emio
