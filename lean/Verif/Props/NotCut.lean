import Verif.Spec.NotCut
import Verif.Props.Kept
import Verif.Lemmas.Dynamic
/- C106: a number is never cut. -/
namespace Emio
open BufferImpl Spec

/-- Calls that fill up what room there is. -/
def Cuttable (a : List WOp) (text : Str) : Prop :=
  render a = text ∧ ∀ op ∈ a, op.Fine ∧ (fillsUp op = true ∨ op.text.length ≤ 1)

theorem cuttable_nil : Cuttable [] [] := ⟨rfl, by simp⟩

theorem cuttable_append {a b : List WOp} {s t : Str} (ha : Cuttable a s) (hb : Cuttable b t) :
    Cuttable (a ++ b) (s ++ t) := by
  refine ⟨by rw [render_append, ha.1, hb.1], fun op ho => ?_⟩
  rcases List.mem_append.1 ho with h | h
  · exact ha.2 op h
  · exact hb.2 op h

theorem cuttable_charN (c : Char) (n : Nat) : Cuttable [.charN c n] (List.replicate n c) :=
  ⟨by simp [WOp.text], by simp [WOp.Fine, fillsUp]⟩

/-- Such calls are cut where the room ends. -/
theorem cutCalls_cuttable : ∀ (a : List WOp) (text : Str), Cuttable a text → ∀ (b : List WOp) (room : Nat),
    room < text.length → cutCalls room (a ++ b) = (text.take room, false) := by
  intro a
  induction a with
  | nil => rintro _ ⟨rfl, _⟩ b room h; simp at h
  | cons op a ih =>
    rintro _ ⟨rfl, hop⟩ b room h
    rw [render_cons, List.length_append] at h
    rw [List.cons_append, cutCalls, render_cons]
    by_cases hp : op.text.length ≤ room
    · rw [if_pos hp, ih _ ⟨rfl, fun o ho => hop o (by simp [ho])⟩ b (room - op.text.length) (by omega), List.take_append,
        List.take_of_length_le hp]
    · rw [if_neg hp, List.take_append_of_le_length (by omega)]
      rcases (hop op (by simp)).2 with hf | hl
      · rw [if_pos hf]
      · have : room = 0 := by omega
        subst this
        simp

/-- A formatter that writes a body with the calls `mid`, between calls that fill up. -/
def WritesAround (m : Fmt Unit) (left : Str) (mid : List WOp) (right : Str) : Prop :=
  ∀ ops, ∃ a b, m ops = .ok (ops ++ (a ++ (mid ++ b))) () ∧ Cuttable a left ∧ Cuttable b right

theorem writesAround_bind {α : Type} {m : Fmt α} {f : α → Fmt Unit} {v : α} {l left right : Str} {mid : List WOp}
    (hm : ∀ ops, ∃ a, m ops = .ok (ops ++ a) v ∧ Cuttable a l) (hf : WritesAround (f v) left mid right) :
    WritesAround (m >>= f) (l ++ left) mid right := by
  intro ops
  obtain ⟨a, h1, h2⟩ := hm ops
  obtain ⟨a', b, h3, h4, h5⟩ := hf (ops ++ a)
  exact ⟨a ++ a', b, by rw [M.bind_ok h1, h3]; simp, cuttable_append h2 h4, h5⟩

theorem writesAround_mid {func m : Fmt Unit} {mid : List WOp} {right : Str}
    (hfunc : ∀ ops, func ops = .ok (ops ++ mid) ())
    (hm : ∀ ops, ∃ b, m ops = .ok (ops ++ b) () ∧ Cuttable b right) :
    WritesAround (do func; m) [] mid right := by
  intro ops
  obtain ⟨b, h1, h2⟩ := hm (ops ++ mid)
  refine ⟨[], b, ?_, cuttable_nil, h2⟩
  rw [M.bind_ok (hfunc ops), h1]
  simp

theorem writePadded_around (dflt : Align) (hd : dflt = .left ∨ dflt = .right) (s : Specs) (h : s.Ok) (n : Nat)
    (hn : n < 2 ^ 31) {func : Fmt Unit} {mid : List WOp} (hfunc : ∀ ops, func ops = .ok (ops ++ mid) ()) :
    WritesAround (writePadded dflt s n func)
      (around (if s.align = .none then dflt else s.align) s.fill (fillCount s n)).1 mid
      (around (if s.align = .none then dflt else s.align) s.fill (fillCount s n)).2 := by
  have hw := h.width
  unfold writePadded
  generalize hal : (if s.align = .none then dflt else s.align) = al
  have hal' : al ≠ .none := by
    rw [← hal]; split
    · rcases hd with rfl | rfl <;> simp
    · assumption
  generalize hs : (if s.align = .none then { s with align := dflt } else s) = s'
  have e1 : s'.width = s.width := by rw [← hs]; split <;> rfl
  have e2 : s'.align = al := by rw [← hs, ← hal]; split <;> rfl
  have e3 : s'.fill = s.fill := by rw [← hs]; split <;> rfl
  have hto : toInt32 (n : Int) = n := by unfold toInt32; omega
  simp only
  have hpure : ∀ ops : List WOp, ∃ b, (pure () : Fmt Unit) ops = .ok (ops ++ b) () ∧ Cuttable b [] := fun ops =>
    ⟨[], by simp, cuttable_nil⟩
  by_cases hc : s'.width = 0 ∨ s'.width < n
  · have hk : fillCount s n = 0 := by unfold fillCount; omega
    have ha : around al s.fill (fillCount s n) = ([], []) := by
      rw [hk]; cases al <;> rfl
    rw [ha]
    refine writesAround_bind (v := 0) (l := []) (left := []) (fun ops => ⟨[], ?_, cuttable_nil⟩) (writesAround_mid hfunc fun ops => ?_)
    · unfold writePaddingLeft
      simp only [hto]
      rw [if_pos hc]
      simp
    · unfold writePaddingRight
      rw [if_pos (Or.inl rfl)]
      exact hpure ops
  · have hge : (n : Int) ≤ s'.width := by omega
    have hub : ¬ (s'.width - (n : Int) > int32Max) := by unfold int32Max at *; omega
    have hleft : ∀ ops, writePaddingLeft s' n ops =
        (if s'.align = .left then pure (s'.width - n)
         else do
          emit (.charN s'.fill (if s'.align = .center then (s'.width - n) / 2 else s'.width - n).toNat)
          return s'.width - ((if s'.align = .center then (s'.width - n) / 2 else s'.width - n) + n) : Fmt Int) ops := by
      intro ops
      unfold writePaddingLeft
      simp only [hto]
      rw [if_neg hc, if_neg hub]
    have hright : ∀ w : Int, 0 ≤ w → al ≠ .right → ∀ ops, ∃ b, writePaddingRight { s' with width := w } ops =
        .ok (ops ++ b) () ∧ Cuttable b (List.replicate w.toNat s.fill) := by
      intro w hw0 hr ops
      unfold writePaddingRight
      simp only [e2, e3]
      by_cases h0 : w = 0
      · rw [if_pos (Or.inl h0), h0]; exact hpure ops
      · rw [if_neg (by
          rintro (h | ⟨h1, h2⟩)
          · exact h0 h
          · cases al <;> simp_all)]
        exact ⟨_, rfl, cuttable_charN _ _⟩
    cases al with
    | none => exact absurd rfl hal'
    | left =>
      have e : fillCount s n = (s'.width - n).toNat := by unfold fillCount; omega
      rw [e]
      refine writesAround_bind (v := s'.width - n) (l := []) (left := []) (fun ops => ⟨[], ?_, cuttable_nil⟩)
        (writesAround_mid hfunc (hright _ (by omega) (by simp)))
      rw [hleft, if_pos e2]; simp
    | right =>
      have e : fillCount s n = (s'.width - n).toNat := by unfold fillCount; omega
      have : (around .right s.fill (fillCount s n)).1 = List.replicate (s'.width - n).toNat s.fill ++ [] := by
        rw [e]; simp [around]
      rw [this]
      refine writesAround_bind (v := s'.width - ((s'.width - n) + n)) (fun ops => ⟨_, ?_, cuttable_charN _ _⟩)
        (writesAround_mid hfunc fun ops => ?_)
      · rw [hleft, if_neg (by rw [e2]; simp), e3, e2]
        simp only [reduceCtorEq, if_false]
        rfl
      · have : s'.width - ((s'.width - (n : Int)) + n) = 0 := by omega
        rw [this]
        unfold writePaddingRight
        rw [if_pos (Or.inl rfl)]
        exact hpure ops
    | center =>
      have ea : ((s'.width - (n : Int)) / 2).toNat = fillCount s n / 2 := by unfold fillCount; omega
      have e : (s'.width - ((s'.width - (n : Int)) / 2 + n)).toNat = fillCount s n - fillCount s n / 2 := by
        unfold fillCount; omega
      have h1 : (around .center s.fill (fillCount s n)).1 = List.replicate ((s'.width - n) / 2).toNat s.fill ++ [] := by
        rw [ea]; simp [around]
      have h2 : (around .center s.fill (fillCount s n)).2 =
          List.replicate (s'.width - ((s'.width - (n : Int)) / 2 + n)).toNat s.fill := by
        rw [e]; simp [around]
      rw [h1, h2]
      refine writesAround_bind (v := s'.width - ((s'.width - n) / 2 + n)) (fun ops => ⟨_, ?_, cuttable_charN _ _⟩)
        (writesAround_mid hfunc (hright _ (by omega) (by simp)))
      rw [hleft, if_neg (by rw [e2]; simp), e3, e2]
      simp only [if_true]
      rfl

/-- An integer of any type. -/
theorem writeArgInt_around (s : Specs) (h : s.Ok) (t : IntTy) (ht : t.Std) (n : Int) (hn : t.Holds n)
    (hty : s.type = noChar ∨ s.type = 'd' ∨ s.type = 'x' ∨ s.type = 'X' ∨ s.type = 'b' ∨ s.type = 'B' ∨ s.type = 'o' ∨
      s.type = 'c') :
    ∃ op, WritesAround (writeArgInt s t n) (intParts s n).left [op] (intParts s n).right ∧ op.text = (intParts s n).body ∧
      op.Fine ∧ fillsUp op = false := by
  unfold writeArgInt intParts
  by_cases hc : s.type = 'c'
  · rw [if_pos hc, if_pos hc]
    exact ⟨.char _, writePadded_around .left (Or.inl rfl) s h 1 (by decide) fun _ => rfl, rfl, trivial, rfl⟩
  · rw [if_neg hc, if_neg hc]
    have hty' : s.type = noChar ∨ s.type = 'd' ∨ s.type = 'x' ∨ s.type = 'X' ∨ s.type = 'b' ∨ s.type = 'B' ∨
        s.type = 'o' := by tauto
    obtain ⟨hb2, hb16⟩ := baseOf_range s.type
    have habs := toAbsolute_eq t n ht hn
    have hneg : (t.signed && decide (n < 0)) = decide (n < 0) := by
      cases hsg : t.signed with
      | true => simp
      | false =>
        have : t.min = 0 := by unfold IntTy.min; simp [hsg]
        have := hn.1
        simp; omega
    have hdig := getNumberOfDigits_eq n.natAbs (baseOf s.type) (s.type == 'X') hb2
    have hnum := writeNumber_eq n.natAbs (baseOf s.type) (s.type == 'X') [] hb2 (by omega)
    have hlen : (numeral (s.type == 'X') (baseOf s.type) n.natAbs).length ≤ 64 :=
      numeral_length_le _ _ hb2 63 _ (natAbs_lt ht hn)
    generalize hD : numeral (s.type == 'X') (baseOf s.type) n.natAbs = D at *
    rw [List.append_nil] at hnum
    obtain ⟨pfx, hopt, hpfx⟩ : ∃ pfx, (∀ ops, makeWriteIntOptions s.type ops = .ok ops (pfx, baseOf s.type, s.type == 'X')) ∧
        (pfx = if s.type = 'x' ∨ s.type = 'X' ∨ s.type = 'b' ∨ s.type = 'B' then ['0', s.type]
          else if s.type = 'o' then ['0'] else []) := by
      generalize s.type = ty at hty'
      rcases hty' with rfl | rfl | rfl | rfl | rfl | rfl | rfl <;> exact ⟨_, fun _ => rfl, by decide⟩
    suffices hmain : ∃ op, WritesAround (do
          let sign ← tryWriteSign s (t.signed && decide (n < 0))
          let pfx' ← tryWritePrefix s (if s.type = 'o' ∧ n = 0 then [] else pfx)
          writePadded .right s (getNumberOfDigits (toAbsolute t n) (baseOf s.type) +
              (if s.alternateForm then (if s.type = 'o' ∧ n = 0 then [] else pfx).length else 0) +
              (if (t.signed && decide (n < 0)) || s.sign == ' ' || s.sign == '+' then 1 else 0))
            (emit (.area (getNumberOfDigits (toAbsolute t n) (baseOf s.type) + (if sign ≠ noChar then 1 else 0) + pfx'.length)
              (signText sign ++ pfx' ++ writeNumber (toAbsolute t n) (baseOf s.type) (s.type == 'X') []))))
        (numberParts s (signOf s (n < 0) ++ prefixOf s n) D).left [op]
        (numberParts s (signOf s (n < 0) ++ prefixOf s n) D).right ∧
        op.text = (numberParts s (signOf s (n < 0) ++ prefixOf s n) D).body ∧ op.Fine ∧ fillsUp op = false by
      obtain ⟨op, h1, h2⟩ := hmain
      refine ⟨op, fun ops => ?_, h2⟩
      rw [M.bind_ok (hopt ops)]
      exact h1 ops
    unfold numberParts
    simp only [habs, hneg, hdig, hnum]
    -- the prefix that is written
    generalize hp : (if s.type = 'o' ∧ n = 0 then [] else pfx) = p
    have hpre : (if s.alternateForm = true then p else []) = prefixOf s n := by
      rw [← hp, hpfx]
      unfold prefixOf
      cases ha : s.alternateForm with
      | false => simp
      | true =>
        by_cases ho : s.type = 'o'
        · by_cases h0 : n = 0 <;> simp [ho, h0]
        · simp [ho]
    have hprelen : (if s.alternateForm = true then p.length else 0) = (prefixOf s n).length := by
      rw [← hpre]; split <;> rfl
    have hplen : p.length ≤ 2 := by
      rw [← hp, hpfx]; split
      · simp
      · split
        · simp
        · split <;> simp
    have hsgl := signOf_length s (decide (n < 0))
    have hsl : (signOf s (decide (n < 0))).length ≤ 1 := by rw [← hsgl]; split <;> omega
    have hppl : (prefixOf s n).length ≤ 2 := by rw [← hprelen]; split <;> omega
    rw [hsgl, hprelen]
    generalize hsg : signOf s (decide (n < 0)) = sg at *
    generalize hpf : prefixOf s n = pf at *
    have hl : (sg ++ pf ++ D).length = D.length + pf.length + sg.length := by simp; omega
    cases hz : s.zeroFlag with
    | true =>
      obtain ⟨hfill, halign⟩ := h.zero hz
      simp only [if_true]
      refine ⟨.area D.length D, ?_, rfl, rfl, rfl⟩
      rw [List.append_assoc]
      refine writesAround_bind (v := noChar) ?_ (writesAround_bind (v := []) ?_ ?_)
      · intro ops
        obtain ⟨new, g1, g2, g3, _⟩ := (sign_emits s (decide (n < 0))).1 hz ops
        refine ⟨new, g1, by rw [g2, hsg], fun op ho => ⟨g3 op ho, Or.inr ?_⟩⟩
        rw [hsg] at g2
        have := congrArg List.length g2
        obtain ⟨a, b, rfl⟩ := List.append_of_mem ho
        simp only [render_append, render_cons, List.length_append] at this
        omega
      · intro ops
        unfold tryWritePrefix
        simp only [hz]
        cases ha : s.alternateForm with
        | false =>
          refine ⟨[], by simp, ?_⟩
          rw [← hpre, ha]; exact cuttable_nil
        | true =>
          have : p = pf := by rw [← hpre, ha]; rfl
          rw [this]
          by_cases hpe : pf = []
          · rw [hpe]; exact ⟨[], by simp, cuttable_nil⟩
          · refine ⟨[.str pf], ?_, by simp [WOp.text], by simp [WOp.Fine, fillsUp]⟩
            simp only [Bool.true_and, Bool.and_true, decide_eq_true_eq]
            rw [if_pos hpe]
            rfl
      · have := writePadded_around .right (Or.inr rfl) s h (D.length + pf.length + sg.length) (by omega)
          (func := emit (.area D.length D)) (mid := [.area D.length D]) (fun _ => rfl)
        rw [halign, hfill, ← hl] at this
        rw [← hl]
        simpa [around, signText] using this
    | false =>
      obtain ⟨c, hc1, hc2⟩ := (sign_emits s (decide (n < 0))).2 hz
      simp only [Bool.false_eq_true, if_false]
      refine ⟨.area (D.length + (signText c).length + pf.length) (sg ++ pf ++ D), ?_, rfl, ?_, rfl⟩
      · have e : (paddedParts .right s (sg ++ pf ++ D)).left = [] ++ ([] ++ (paddedParts .right s (sg ++ pf ++ D)).left) := rfl
        rw [e]
        refine writesAround_bind (v := c) (fun ops => ⟨[], by simp [hc1], cuttable_nil⟩) ?_
        refine writesAround_bind (v := pf) (fun ops => ⟨[], ?_, cuttable_nil⟩) ?_
        · unfold tryWritePrefix
          simp only [hz, List.append_nil]
          rw [← hpre]
          cases ha : s.alternateForm with
          | false => simp
          | true => by_cases hpe : p = [] <;> simp [hpe]
        · rw [signText_length, hc2, hsg, ← hl]
          exact writePadded_around .right (Or.inr rfl) s h _ (by rw [hl]; omega) fun _ => rfl
      · rw [hc2, hsg]
        show (sg ++ pf ++ D).length = _
        omega

/-- What calls around a body leave. -/
theorem cutCalls_around {a b : List WOp} {left right : Str} {op : WOp} (ha : Cuttable a left) (hb : Cuttable b right)
    (hop : fillsUp op = false) (room : Nat) :
    cutCalls room (a ++ op :: b) =
      ((⟨left, op.text, right⟩ : Parts).kept room, decide ((left ++ op.text ++ right).length ≤ room)) := by
  unfold Parts.kept
  simp only
  by_cases h1 : room < left.length
  · rw [if_pos h1, cutCalls_cuttable a left ha _ _ h1]
    congr 1
    symm
    simp only [decide_eq_false_iff_not, List.length_append]
    omega
  · rw [if_neg h1, cutCalls_fits a _ room (by rw [ha.1]; omega), ha.1, cutCalls]
    by_cases h2 : room < left.length + op.text.length
    · rw [if_pos h2, if_neg (by omega), hop]
      simp only [Bool.false_eq_true, if_false, List.append_nil]
      congr 1
      symm
      simp only [decide_eq_false_iff_not, List.length_append]
      omega
    · rw [if_neg h2, if_pos (by omega)]
      have h3 : (left ++ op.text).length ≤ room := by rw [List.length_append]; omega
      rw [List.take_append, List.take_of_length_le h3]
      by_cases h4 : right.length ≤ room - left.length - op.text.length
      · have := cutCalls_fits b [] (room - left.length - op.text.length) (by rw [hb.1]; exact h4)
        rw [List.append_nil, hb.1] at this
        rw [this, List.take_of_length_le (by rw [List.length_append]; omega)]
        simp only [cutCalls, List.append_nil, List.append_assoc]
        congr 1
        symm
        simp only [decide_eq_true_eq, List.length_append]
        omega
      · have := cutCalls_cuttable b right hb [] (room - left.length - op.text.length) (by omega)
        rw [List.append_nil] at this
        rw [this, List.length_append, Nat.sub_sub]
        simp only [List.append_assoc]
        congr 1
        symm
        simp only [decide_eq_false_iff_not, List.length_append]
        omega

theorem parts_padded (dflt : Align) (s : Specs) (body : Str) :
    (paddedParts dflt s body).left ++ (paddedParts dflt s body).body ++ (paddedParts dflt s body).right =
      padded dflt s body := by
  unfold paddedParts padded
  generalize (if s.align = .none then dflt else s.align) = al
  cases al <;> simp [around, surround]

theorem parts_number (s : Specs) (front digits : Str) :
    (numberParts s front digits).left ++ (numberParts s front digits).body ++ (numberParts s front digits).right =
      paddedNumber s front digits := by
  unfold numberParts paddedNumber
  cases hz : s.zeroFlag with
  | true => simp
  | false =>
    simp only [Bool.false_eq_true, if_false]
    rw [parts_padded]

/-- The parts make up the text. -/
theorem parts_intText (s : Specs) (n : Int) :
    (intParts s n).left ++ (intParts s n).body ++ (intParts s n).right = intText s n := by
  unfold intParts intText
  by_cases hc : s.type = 'c'
  · rw [if_pos hc, if_pos hc, parts_padded]
  · rw [if_neg hc, if_neg hc, parts_number]

/-- A single field on a span buffer with any past. -/
theorem span_field (a : CoreArg) (t : SpecText) (wf : t.WellFormed) (fits : t.Fits) (hal : CoreTy.Allows a.ty t)
    {calls : List WOp} (hw : a.write t.meaning [] = .ok calls ()) (hfine : ∀ op ∈ calls, op.Fine)
    {mem : Str} {ops : List ClientOp} {s : SpanBuf} {old : Str}
    (h : client spanReset ops (SpanBuf.new mem, []) = some (s, old)) :
    ∃ s', formatTo ("{:".toList ++ t.text ++ "}".toList) [a.farg] s =
        (if (cutCalls (mem.length - old.length) calls).2 then .ok s' () else .err s' .eof) ∧
      s'.view = old ++ (cutCalls (mem.length - old.length) calls).1 ∧ old.length ≤ mem.length := by
  have hrep := span_reach h
  have hle : old.length ≤ mem.length := by rw [SpanBuf.Rep.length hrep]; exact hrep.2.2.2.2.1
  have hc := (allows_iff a.ty wf).2 hal
  have hf : formatTo ('{' :: ((if true then [':'] else []) ++ (t.text ++ ['}']))) [a.farg] s =
      runAct (a.write t.meaning) s := by
    refine field_exact (colon := true) (by simp) (fun r hat => ?_) (fun r hat => ?_) s
    · have h1 := C28_type_check a.ty t wf fits r hat.1 [] hat.2
      rw [if_pos hc] at h1
      exact h1
    · have h2 := (C28_grammar_is_accepted t wf fits r hat.1 [] hat.2).2
      show (do let s ← parseFormatSpecs {}; return a.write s : M Reader (Fmt Unit)) r = _
      rw [M.bind_ok h2]
      rfl
  have e : "{:".toList ++ t.text ++ "}".toList = '{' :: ((if true then [':'] else []) ++ (t.text ++ ['}'])) := by simp
  rw [e, hf]
  obtain ⟨s', e1, e2⟩ := span_calls calls hfine s old hrep
  refine ⟨s', ?_, e2.2.2.2.2.2, hle⟩
  unfold runAct
  rw [hw]
  exact e1

theorem span_field_around (a : CoreArg) (t : SpecText) (wf : t.WellFormed) (fits : t.Fits) (hal : CoreTy.Allows a.ty t)
    {p : Parts} {op : WOp} (hw : WritesAround (a.write t.meaning) p.left [op] p.right) (ht : op.text = p.body)
    (hfine : op.Fine) (hop : fillsUp op = false) {mem : Str} {ops : List ClientOp} {s : SpanBuf} {old : Str}
    (h : client spanReset ops (SpanBuf.new mem, []) = some (s, old)) :
    ∃ s', formatTo ("{:".toList ++ t.text ++ "}".toList) [a.farg] s =
        (if old.length + (p.left ++ p.body ++ p.right).length ≤ mem.length then .ok s' () else .err s' .eof) ∧
      s'.view = old ++ p.kept (mem.length - old.length) := by
  obtain ⟨ca, cb, h1, h2, h3⟩ := hw []
  rw [List.nil_append, List.singleton_append] at h1
  obtain ⟨s', e1, e2, hle⟩ := span_field a t wf fits hal h1 (by
    intro o ho
    rcases List.mem_append.1 ho with ho | ho
    · exact (h2.2 o ho).1
    · rcases List.mem_cons.1 ho with rfl | ho
      · exact hfine
      · exact (h3.2 o ho).1) h
  rw [cutCalls_around h2 h3 hop, ht] at e1 e2
  refine ⟨s', ?_, e2⟩
  rw [e1]
  simp only [decide_eq_true_eq]
  by_cases hfit : old.length + (p.left ++ p.body ++ p.right).length ≤ mem.length
  · rw [if_pos hfit, if_pos (by omega)]
  · rw [if_neg hfit, if_neg (by omega)]

theorem span_field_cut (a : CoreArg) (t : SpecText) (wf : t.WellFormed) (fits : t.Fits) (hal : CoreTy.Allows a.ty t)
    {calls : List WOp} {text : Str} (hw : a.write t.meaning [] = .ok calls ()) (hcut : Cuttable calls text)
    {mem : Str} {ops : List ClientOp} {s : SpanBuf} {old : Str}
    (h : client spanReset ops (SpanBuf.new mem, []) = some (s, old)) :
    ∃ s', formatTo ("{:".toList ++ t.text ++ "}".toList) [a.farg] s =
        (if old.length + text.length ≤ mem.length then .ok s' () else .err s' .eof) ∧
      s'.view = old ++ text.take (mem.length - old.length) := by
  obtain ⟨s', e1, e2, hle⟩ := span_field a t wf fits hal hw (fun o ho => (hcut.2 o ho).1) h
  by_cases hfit : old.length + text.length ≤ mem.length
  · have := cutCalls_fits calls [] (mem.length - old.length) (by rw [hcut.1]; omega)
    rw [List.append_nil, hcut.1] at this
    simp only [cutCalls, List.append_nil] at this
    rw [this] at e1 e2
    exact ⟨s', by rw [e1, if_pos rfl, if_pos hfit], by rw [e2, List.take_of_length_le (by omega)]⟩
  · have := cutCalls_cuttable calls text hcut [] (mem.length - old.length) (by omega)
    rw [List.append_nil] at this
    rw [this] at e1 e2
    exact ⟨s', by rw [e1, if_neg (by simp), if_neg hfit], e2⟩

/-- C106: `format_to` with a single integer field, of any type and with any specification, on a span buffer with any past.
It succeeds exactly if the whole text of C30 fits.  Otherwise the result is end-of-file; if the room ends in the padding,
the padding is cut there, and if it ends in the number, nothing of the number is left. -/
theorem C106_integers (ty : IntTy) (n : Int) (hty : ty.Std) (hn : ty.Holds n) (t : SpecText) (wf : t.WellFormed)
    (fits : t.Fits) (hal : CoreTy.Allows (.int ty) t) (hO : t.type ≠ some 'O')
    (mem : Str) (ops : List ClientOp) (s : SpanBuf) (old : Str)
    (h : client spanReset ops (SpanBuf.new mem, []) = some (s, old)) :
    ∃ s', formatTo ("{:".toList ++ t.text ++ "}".toList) [(CoreArg.int ty n).farg] s =
        (if old.length + (intText t.meaning n).length ≤ mem.length then .ok s' () else .err s' .eof) ∧
      s'.view = old ++ (intParts t.meaning n).kept (mem.length - old.length) ∧
      (intParts t.meaning n).left ++ (intParts t.meaning n).body ++ (intParts t.meaning n).right = intText t.meaning n := by
  have hc := (allows_iff (.int ty) wf).2 hal
  have hc' : (checkIntegralSpecs t.meaning && (ty.signed || checkUnsignedSpecs t.meaning)) = true := hc
  simp only [Bool.and_eq_true] at hc'
  obtain ⟨op, h1, h2, h3, h4⟩ := writeArgInt_around t.meaning (meaning_ok fits) ty hty n hn
    (intTypes hc'.1 (fun h => hO ((meaning_type_some wf 'O' (by decide)).1 h)))
  obtain ⟨s', e1, e2⟩ := span_field_around (.int ty n) t wf fits hal h1 h2 h3 h4 h
  rw [parts_intText] at e1
  exact ⟨s', e1, e2, parts_intText _ _⟩

theorem writeArgPtr_around (s : Specs) (hok : s.Ok) (addr : Nat) (ha : addr < 2 ^ 64) (hc : checkPointerSpecs s = true) :
    ∃ op, WritesAround (writeArgPtr s addr) (paddedParts .right s (['0', 'x'] ++ numeral false 16 addr)).left [op]
        (paddedParts .right s (['0', 'x'] ++ numeral false 16 addr)).right ∧
      op.text = (paddedParts .right s (['0', 'x'] ++ numeral false 16 addr)).body ∧ op.Fine ∧ fillsUp op = false := by
  have hc' : s.sign = noChar ∧ s.zeroFlag = false := by
    unfold checkPointerSpecs at hc
    split at hc
    · simp at hc
    · simp at hc; tauto
  have e : intParts { s with alternateForm := true, type := 'x' } (addr : Int) =
      paddedParts .right s (['0', 'x'] ++ numeral false 16 addr) := by
    unfold intParts numberParts
    rw [if_neg (by simp), if_neg (by simp [hc'.2])]
    have h1 : signOf { s with alternateForm := true, type := 'x' } (decide ((addr : Int) < 0)) = [] := by
      unfold signOf
      simp [hc'.1, noChar]
    have h2 : prefixOf { s with alternateForm := true, type := 'x' } (addr : Int) = ['0', 'x'] := by
      simp [prefixOf]
    rw [h1, h2]
    rfl
  rw [← e]
  exact writeArgInt_around { s with alternateForm := true, type := 'x' } ⟨hok.width, hok.precision, hok.zero⟩ u64 (by decide)
    (addr : Int) ⟨by have : u64.min = 0 := (by decide); omega, by
      have : u64.max = 18446744073709551615 := by decide
      omega⟩ (by simp)

/-- C106 for pointers. -/
theorem C106_pointers (addr : Nat) (ha : addr < 2 ^ 64) (t : SpecText) (wf : t.WellFormed)
    (fits : t.Fits) (hal : CoreTy.Allows .pointer t) (mem : Str) (ops : List ClientOp) (s : SpanBuf) (old : Str)
    (h : client spanReset ops (SpanBuf.new mem, []) = some (s, old)) :
    ∃ s', formatTo ("{:".toList ++ t.text ++ "}".toList) [(CoreArg.pointer addr).farg] s =
        (if old.length + (ptrText t.meaning addr).length ≤ mem.length then .ok s' () else .err s' .eof) ∧
      s'.view = old ++ (paddedParts .right t.meaning (['0', 'x'] ++ numeral false 16 addr)).kept
        (mem.length - old.length) := by
  obtain ⟨op, h1, h2, h3, h4⟩ := writeArgPtr_around t.meaning (meaning_ok fits) addr ha ((allows_iff .pointer wf).2 hal)
  obtain ⟨s', e1, e2⟩ := span_field_around (.pointer addr) t wf fits hal h1 h2 h3 h4 h
  rw [parts_padded] at e1
  exact ⟨s', e1, e2⟩

/-- Padded text that may be cut. -/
theorem writePadded_cut (s : Specs) (h : s.Ok) (n : Nat) (hn : n < 2 ^ 31) {func : Fmt Unit} {mid : List WOp} {text : Str}
    (hfunc : ∀ ops, func ops = .ok (ops ++ mid) ()) (hmid : Cuttable mid text) (ops : List WOp) :
    ∃ calls, writePadded .left s n func ops = .ok (ops ++ calls) () ∧
      Cuttable calls (surround (if s.align = .none then .left else s.align) s.fill (fillCount s n) text) := by
  obtain ⟨a, b, g1, g2, g3⟩ := writePadded_around .left (Or.inl rfl) s h n hn hfunc ops
  refine ⟨_, g1, ?_⟩
  have e : ∀ al : Align, surround al s.fill (fillCount s n) text =
      (around al s.fill (fillCount s n)).1 ++ (text ++ (around al s.fill (fillCount s n)).2) := by
    intro al
    cases al <;> simp [around, surround]
  rw [e]
  exact cuttable_append g2 (cuttable_append hmid g3)

theorem cuttable_one {op : WOp} (h1 : op.Fine) (h2 : fillsUp op = true ∨ op.text.length ≤ 1) : Cuttable [op] op.text :=
  ⟨by simp, by intro o ho; rw [List.mem_singleton.1 ho]; exact ⟨h1, h2⟩⟩

theorem writeArgStr_cut (s : Specs) (hok : s.Ok) (str : Str) (hs : ∀ c ∈ str, c.toNat < 256)
    (hl : (quoted '"' str).length < 2 ^ 31) (ops : List WOp) :
    ∃ calls, writeArgStr s str ops = .ok (ops ++ calls) () ∧ Cuttable calls (strText s str) := by
  have hlen' : str.length < 2 ^ 31 := by
    have := length_escape_ge str
    have h2 := hl
    simp [quoted] at h2
    omega
  unfold writeArgStr strText
  by_cases hq : s.type = '?'
  · rw [if_neg (by simp [hq]), if_pos hq]
    have e : (WOp.strEscaped str).text = quoted '"' str := by
      simp [WOp.text, quoted, escAll_eq str hs]
    have e2 : countSizeWhenEscaped str + 2 = (quoted '"' str).length := by
      rw [countSize_eq, escAll_eq str hs]; simp [quoted]
    rw [e2]
    refine writePadded_cut s hok _ hl (fun _ => rfl) ?_ ops
    rw [← e]
    exact cuttable_one trivial (Or.inl rfl)
  · rw [if_pos hq, if_neg hq]
    refine writePadded_cut s hok _ ?_ (fun _ => rfl) (cuttable_one (op := .str _) trivial (Or.inl rfl)) ops
    split
    · rw [List.length_take]; omega
    · exact hlen'

/-- C106, the contrast: a string is cut where the room ends, in its padding as well as in its characters and escapes. -/
theorem C106_strings (str : Str) (hs : ∀ c ∈ str, c.toNat < 256) (hl : (quoted '"' str).length < 2 ^ 31) (t : SpecText)
    (wf : t.WellFormed) (fits : t.Fits) (hal : CoreTy.Allows .string t) (mem : Str) (ops : List ClientOp) (s : SpanBuf)
    (old : Str) (h : client spanReset ops (SpanBuf.new mem, []) = some (s, old)) :
    ∃ s', formatTo ("{:".toList ++ t.text ++ "}".toList) [(CoreArg.string str).farg] s =
        (if old.length + (strText t.meaning str).length ≤ mem.length then .ok s' () else .err s' .eof) ∧
      s'.view = old ++ (strText t.meaning str).take (mem.length - old.length) := by
  obtain ⟨calls, h1, h2⟩ := writeArgStr_cut t.meaning (meaning_ok fits) str hs hl []
  exact span_field_cut (.string str) t wf fits hal h1 h2 h

/-- A number of ten characters in five: the padding is kept, of the number nothing. -/
example : ∃ s', formatTo "{:*^+#10x}".toList [(CoreArg.int i32 255).farg] (SpanBuf.new "-----".toList) = .err s' .eof ∧
    s'.view = "**".toList := by
  obtain ⟨s', h1, h2, _⟩ := C106_integers i32 255 (by simp [IntTy.Std, i32]) (by decide)
    { fill := '*', align := '^', sign := '+', alt := true, width := ['1', '0'], type := 'x' }
    (by constructor <;> decide) (by constructor <;> decide +kernel)
    (by simp [CoreTy.Allows, SpecText.ForInteger, integerTypes, i32]) (by decide) "-----".toList [] _ [] rfl
  refine ⟨s', ?_, ?_⟩
  · rw [if_neg (by decide +kernel)] at h1; exact h1
  · rw [h2]; decide +kernel

end Emio
