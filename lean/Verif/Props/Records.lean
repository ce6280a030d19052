import Verif.Spec.Records
import Verif.Props.Writer
import Verif.Props.Reader
import Verif.Lemmas.FormatSpecs
/-
C102: data written field by field with a separator is read back.
-/
namespace Emio
open Spec

/-- What a reader makes of the text of a record, wherever it is. -/
def ReadBack (sep : Char) (record : List (ItemKind × Item)) : Prop :=
  ∀ before after : Str,
    readRecord sep (record.map Prod.fst) ⟨before ++ recordText sep record ++ after, before.length⟩ =
      .ok ⟨before ++ recordText sep record ++ after, before.length + (recordText sep record).length⟩
        (record.map Prod.snd)

/-- The full statement: any separator that is no digit of the numbers and does not occur in the texts will do. -/
def AlwaysReadBack : Prop := ∀ (sep : Char) (record : List (ItemKind × Item)), (∀ x ∈ record, Item.Fits sep x.1 x.2) →
  ReadBack sep record

theorem read_number (sep : Char) (ty : IntTy) (base : Nat) (upper : Bool) (n : Int)
    (h : Item.Fits sep (.number ty base upper) (.number n)) (hcol : 10 < base → isColonToAt sep = false)
    (before after : Str) :
    Item.read sep (.number ty base upper) ⟨before ++ (intNumeral upper base n ++ sep :: after), before.length⟩ =
      .ok ⟨before ++ (intNumeral upper base n ++ sep :: after), before.length + (intNumeral upper base n).length + 1⟩
        (.number n) := by
  obtain ⟨hty, hv, hb, hb', hsep⟩ := h
  obtain ⟨sg, hsg, hap, hneg⟩ := intNumeral_sign upper base n
  obtain ⟨hnum, hval⟩ := numeral_value upper base n.natAbs hb hb'
  have hp := C01_parse_int_exact_partial ty hty base ⟨before ++ (intNumeral upper base n ++ sep :: after), before.length⟩
    sg (numeral upper base n.natAbs) (sep :: after) hb hb' (by simp) (by simp [Reader.rest, hsg]) hnum
    (by simp [NoDigitNext, hsep]) (by simpa using hcol) (by rw [hval, hap]; exact hv)
    (by
      by_cases hs : ty.signed = true
      · exact .inl hs
      · right
        intro hm
        have := hneg.2 hm
        simp only [IntTy.Holds, IntTy.min] at hv
        simp [hs] at hv
        omega)
  have hlen : sg.text.length + (numeral upper base n.natAbs).length = (intNumeral upper base n).length := by
    rw [hsg]; simp
  rw [hval, hap] at hp
  simp only [Nat.add_assoc, hlen] at hp
  simp only [Item.read]
  rw [M.bind_ok hp]
  have hm : Reader.readIfMatchChar sep ⟨before ++ (intNumeral upper base n ++ sep :: after),
      before.length + (intNumeral upper base n).length⟩ = .ok ⟨before ++ (intNumeral upper base n ++ sep :: after),
      before.length + (intNumeral upper base n).length + 1⟩ sep := by
    unfold Reader.readIfMatchChar
    rw [if_pos (by simp)]
    have : (before ++ (intNumeral upper base n ++ sep :: after))[before.length + (intNumeral upper base n).length]? = some sep := by
      rw [← List.append_assoc, ← List.length_append, List.getElem?_append_right (Nat.le_refl _)]
      simp
    simp only [this, if_true]
  rw [M.bind_ok hm]
  rfl

theorem findIf_sep (sep : Char) (s after : Str) (h : sep ∉ s) :
    Reader.findIf (· == sep) (s ++ sep :: after) = some s.length := by
  induction s with
  | nil => simp [Reader.findIf]
  | cons c s ih =>
    simp only [List.mem_cons, not_or] at h
    have hc : (c == sep) = false := by simpa using fun e => h.1 e.symm
    simp [Reader.findIf, hc, ih h.2]

theorem read_text (sep : Char) (s : Str) (h : sep ∉ s) (before after : Str) :
    Item.read sep .text ⟨before ++ (s ++ sep :: after), before.length⟩ =
      .ok ⟨before ++ (s ++ sep :: after), before.length + s.length + 1⟩ (.text s) := by
  simp only [Item.read]
  have hr : Reader.readUntilChar sep {} ⟨before ++ (s ++ sep :: after), before.length⟩ =
      .ok ⟨before ++ (s ++ sep :: after), before.length + s.length + 1⟩ s := by
    have h1 : (Reader.mk (before ++ (s ++ sep :: after)) before.length).rest = s ++ sep :: after := by simp [Reader.rest]
    unfold Reader.readUntilChar
    rw [h1, findIf_sep sep s after h]
    unfold Reader.readUntilPos Reader.readUntilMatch
    simp only [h1]
    rw [if_neg (by simp), if_neg (by simp)]
    simp only [Bool.not_false, if_true, Bool.false_eq_true, if_false]
    rw [if_neg (by simp)]
    simp
  rw [M.bind_ok hr]
  rfl

/-- C102: whatever is written field by field with a separator that is no part of the fields is read back, in order, and the
reader stands behind the record.  Missing: in bases above 10, the separators `:` to `@`, for which this is false. -/
theorem C102_read_back_partial (sep : Char) (record : List (ItemKind × Item)) (h : ∀ x ∈ record, Item.Fits sep x.1 x.2)
    (hcol : isColonToAt sep = true → ∀ ty base upper, ∀ x ∈ record, x.1 = .number ty base upper → base ≤ 10) :
    ReadBack sep record := by
  induction record with
  | nil => intro before after; simp [recordText, readRecord, M.pure_run]
  | cons x record ih =>
    have ih := ih (fun y hy => h y (List.mem_cons_of_mem _ hy))
      (fun hc ty base upper y hy => hcol hc ty base upper y (List.mem_cons_of_mem _ hy))
    have hx := h x (List.mem_cons_self ..)
    intro before after
    match x, hx with
    | (.number ty base upper, .number n), hx =>
      have h1 := read_number sep ty base upper n hx (fun hb => by
        cases hs : isColonToAt sep with
        | false => rfl
        | true => have := hcol hs ty base upper _ (List.mem_cons_self ..) rfl; omega) before
          (recordText sep record ++ after)
      have h2 := ih (before ++ intNumeral upper base n ++ [sep]) after
      simp only [List.append_assoc, List.cons_append, List.nil_append, List.length_append, List.length_cons,
        List.length_nil] at h1 h2
      simp only [List.map_cons, readRecord, recordText, List.append_assoc, List.cons_append]
      rw [M.bind_ok h1]
      simp only [Nat.add_assoc, Nat.zero_add] at h2 ⊢
      rw [M.bind_ok h2]
      simp only [M.pure_run, List.length_append, List.length_cons]
      congr 2
      omega
    | (.text, .text s), hx =>
      have h1 := read_text sep s hx before (recordText sep record ++ after)
      have h2 := ih (before ++ s ++ [sep]) after
      simp only [List.append_assoc, List.cons_append, List.nil_append, List.length_append, List.length_cons,
        List.length_nil] at h1 h2
      simp only [List.map_cons, readRecord, recordText, List.append_assoc, List.cons_append]
      rw [M.bind_ok h1]
      simp only [Nat.add_assoc, Nat.zero_add] at h2 ⊢
      rw [M.bind_ok h2]
      simp only [M.pure_run, List.length_append, List.length_cons]
      congr 2
      omega

/-- C102 is violated: of a hardware address, numbers in base 16 with `:` behind each of them, the colons are taken for
digits. -/
theorem C102_read_back_violated : ¬ AlwaysReadBack := by
  intro h
  have := h ':' [(.number u8 16 false, .number 0x1f), (.number u8 16 false, .number 0x2b)] (by
    intro x hx
    simp only [List.mem_cons, List.not_mem_nil, or_false] at hx
    rcases hx with rfl | rfl <;> (simp only [Item.Fits]; decide)) [] []
  revert this
  decide +kernel

/-- C102: a record is written to a memory buffer as its text, behind what is there; and read back from there. -/
theorem C102_written_and_read_partial (n : Nat) (s : MemBuf) (t : Str) (hs : MemReach n s t) (sep : Char)
    (record : List (ItemKind × Item)) (h : ∀ x ∈ record, Item.Fits sep x.1 x.2)
    (hcol : isColonToAt sep = true → ∀ ty base upper, ∀ x ∈ record, x.1 = .number ty base upper → base ≤ 10) :
    ∃ s', writeRecord sep record s = .ok s' () ∧ s'.view = t ++ recordText sep record ∧
      readRecord sep (record.map Prod.fst) ⟨s'.view, t.length⟩ = .ok ⟨s'.view, s'.view.length⟩ (record.map Prod.snd) := by
  have hw : ∀ (record : List (ItemKind × Item)), (∀ x ∈ record, Item.Fits sep x.1 x.2) → ∀ (s : MemBuf) (t : Str),
      (MemBuf.lawful n).Rep s t → ∃ s', writeRecord sep record s = .ok s' () ∧
        (MemBuf.lawful n).Rep s' (t ++ recordText sep record) := by
    intro record
    induction record with
    | nil => intro _ s t hr; exact ⟨s, rfl, by simpa [recordText] using hr⟩
    | cons x record ih =>
      intro h s t hr
      have hx := h x (List.mem_cons_self ..)
      have hop : ∃ op : WOp, op.Fine ∧ Item.write x.1 x.2 = (op.exec : M MemBuf Unit) ∧
          recordText sep (x :: record) = op.text ++ sep :: recordText sep record := by
        match x, hx with
        | (.number ty base upper, .number v), hx =>
          obtain ⟨h1, h2, h3, h4, _⟩ := hx
          exact ⟨.int ty v base upper, ⟨h1, h2, by omega, by omega⟩, rfl, by simp [recordText, WOp.text]⟩
        | (.text, .text sv), hx => exact ⟨.str sv, trivial, rfl, rfl⟩
      obtain ⟨op, ho1, ho2, ho3⟩ := hop
      obtain ⟨s1, e1, r1⟩ := execAll_accepts (MemBuf.accepts n) [op, .char sep] (by
        intro o ho
        simp only [List.mem_cons, List.not_mem_nil, or_false] at ho
        rcases ho with rfl | rfl
        · exact ho1
        · trivial) (fun _ _ => trivial) s t hr trivial
      obtain ⟨s2, e2, r2⟩ := ih (fun y hy => h y (List.mem_cons_of_mem _ hy)) s1 _ r1
      refine ⟨s2, ?_, ?_⟩
      · obtain ⟨kind, item⟩ := x
        simp only at ho2
        simp only [writeRecord, ho2]
        simp only [execAll] at e1
        obtain ⟨sa, _, ea, e1⟩ := bind_ok_inv e1
        obtain ⟨sb, _, eb, e1⟩ := bind_ok_inv e1
        simp only [M.pure_run, Run.ok.injEq, and_true] at e1
        subst e1
        rw [M.bind_ok ea, M.bind_ok (show writeChar sep sa = _ from eb)]
        exact e2
      · rw [ho3]
        simpa [WOp.text] using r2
  obtain ⟨s', e1, r1⟩ := hw record h s t (hs.rep)
  have hv : s'.view = t ++ recordText sep record := r1.2.2.2.2.2.2.2
  refine ⟨s', e1, hv, ?_⟩
  have := C102_read_back_partial sep record h hcol t []
  simp only [List.append_nil] at this
  rw [hv, this]
  simp

/-- C102, the hypotheses are met. -/
example :
    let record : List (ItemKind × Item) := [(.number i32 10 false, .number (-42)), (.text, .text "a b".toList),
      (.number u8 16 true, .number 0xab), (.text, .text [])]
    (∀ x ∈ record, Item.Fits ',' x.1 x.2) ∧ isColonToAt ',' = false ∧
      recordText ',' record = "-42,a b,AB,,".toList := by
  refine ⟨?_, by decide, by decide +kernel⟩
  intro x hx
  simp only [List.mem_cons, List.not_mem_nil, or_false] at hx
  rcases hx with rfl | rfl | rfl | rfl <;> (simp only [Item.Fits]; decide)

end Emio
