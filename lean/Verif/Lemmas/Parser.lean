import Verif.Spec.FormatString
import Verif.Lemmas.SpecsOk
/-
Helper lemmas about reading format strings.
-/
namespace Emio
open Reader Spec

/-! ### Literal text -/

theorem escBraces_cons (c : Char) (l : Str) :
    escBraces (c :: l) = (if c = '{' then ['{', '{'] else if c = '}' then ['}', '}'] else [c]) ++ escBraces l := by
  simp [escBraces]

theorem scan_open (d : Char) (l : Str) (n : Nat) :
    Checked.scan ('{' :: d :: l) n = if d = '{' then Checked.scan l (n + 2) else some (n + 1, true) := by
  rw [Checked.scan, if_pos rfl]

theorem scan_close (d : Char) (l : Str) (n : Nat) :
    Checked.scan ('}' :: d :: l) n = if d = '}' then Checked.scan l (n + 2) else none := by
  rw [Checked.scan, if_neg (by decide), if_pos rfl]

theorem scan_other {c : Char} (h1 : c ≠ '{') (h2 : c ≠ '}') (l : Str) (n : Nat) :
    Checked.scan (c :: l) n = Checked.scan l (n + 1) := by
  rw [Checked.scan.eq_def]
  simp only
  rw [if_neg h1, if_neg h2]

theorem scan_lit (lit rest : Str) (n : Nat) :
    Checked.scan (escBraces lit ++ rest) n = Checked.scan rest (n + (escBraces lit).length) := by
  induction lit generalizing n with
  | nil => rfl
  | cons c l ih =>
    rw [escBraces_cons]
    by_cases h1 : c = '{'
    · subst h1
      simp only [if_true, List.cons_append, List.nil_append]
      rw [scan_open, if_pos rfl, ih]
      congr 1; simp; omega
    · by_cases h2 : c = '}'
      · subst h2
        simp only [if_neg h1, if_true, List.cons_append, List.nil_append]
        rw [scan_close, if_pos rfl, ih]
        congr 1; simp; omega
      · simp only [if_neg h1, if_neg h2, List.cons_append, List.nil_append]
        rw [scan_other h1 h2, ih]
        simp [Nat.add_assoc, Nat.add_comm]

theorem uscan_open (pend : Str) (d : Char) (l : Str) (n : Nat) :
    Unchecked.scan pend ('{' :: d :: l) n =
      if d = '{' then
        match Unchecked.scan [] l (n + 2) with
        | none => none
        | some (k, f, ps) => some (k, f, (pend ++ ['{']) :: ps)
      else some (n + 1, true, if pend ≠ [] then [pend] else []) := by
  rw [Unchecked.scan, if_pos rfl]
  split <;> rfl

theorem uscan_close (pend : Str) (d : Char) (l : Str) (n : Nat) :
    Unchecked.scan pend ('}' :: d :: l) n =
      match Unchecked.scan [] l (n + 2) with
      | none => none
      | some (k, f, ps) => some (k, f, (pend ++ ['}']) :: ps) := by
  rw [Unchecked.scan, if_neg (by decide), if_pos rfl]
  rfl

theorem uscan_other (pend : Str) {c : Char} (h1 : c ≠ '{') (h2 : c ≠ '}') (l : Str) (n : Nat) :
    Unchecked.scan pend (c :: l) n = Unchecked.scan (pend ++ [c]) l (n + 1) := by
  rw [Unchecked.scan.eq_def]
  simp only
  rw [if_neg h1, if_neg h2]

theorem scan_inv : ∀ (k : Nat) (l : Str), l.length = k → ∀ (n m : Nat) (f : Bool), Checked.scan l n = some (m, f) →
    ∃ lit rest, l = escBraces lit ++ rest ∧ m = n + (escBraces lit).length + (if f then 1 else 0) ∧
      (f = false → rest = []) ∧ (f = true → ∃ d tl, rest = '{' :: d :: tl ∧ d ≠ '{') ∧
      ∀ pend, ∃ ps : List Str, Unchecked.scan pend l n = some (m, f, ps) ∧ ps.flatten = pend ++ lit := by
  intro k
  induction k using Nat.strongRecOn with
  | ind k ih =>
    intro l hk n m f h
    match l with
    | [] =>
      simp only [Checked.scan, Option.some.injEq, Prod.mk.injEq] at h
      obtain ⟨rfl, rfl⟩ := h
      refine ⟨[], [], rfl, by simp [escBraces], fun _ => rfl, by simp, fun pend => ?_⟩
      refine ⟨_, rfl, ?_⟩
      split <;> simp_all
    | c :: l =>
      by_cases h1 : c = '{'
      · subst h1
        match l with
        | [] => simp [Checked.scan] at h
        | d :: l =>
          rw [scan_open] at h
          split at h
          · rename_i hd
            subst hd
            obtain ⟨lit, rest, e1, e2, e3, e4, e5⟩ := ih l.length (by simp at hk; omega) l rfl (n + 2) m f h
            refine ⟨'{' :: lit, rest, ?_, ?_, e3, e4, fun pend => ?_⟩
            · rw [escBraces_cons, e1]; simp
            · rw [escBraces_cons, e2]; simp; omega
            · obtain ⟨ps, g1, g2⟩ := e5 []
              refine ⟨(pend ++ ['{']) :: ps, ?_, ?_⟩
              · rw [uscan_open, if_pos rfl, g1]
              · simp [g2]
          · rename_i hd
            simp only [Option.some.injEq, Prod.mk.injEq] at h
            obtain ⟨rfl, rfl⟩ := h
            refine ⟨[], '{' :: d :: l, rfl, by simp [escBraces], by simp, fun _ => ⟨d, l, rfl, hd⟩, fun pend => ?_⟩
            refine ⟨_, by rw [uscan_open, if_neg hd], ?_⟩
            split <;> simp_all
      · by_cases h2 : c = '}'
        · subst h2
          match l with
          | [] => simp [Checked.scan] at h
          | d :: l =>
            rw [scan_close] at h
            split at h
            · rename_i hd
              subst hd
              obtain ⟨lit, rest, e1, e2, e3, e4, e5⟩ := ih l.length (by simp at hk; omega) l rfl (n + 2) m f h
              refine ⟨'}' :: lit, rest, ?_, ?_, e3, e4, fun pend => ?_⟩
              · rw [escBraces_cons, e1]; simp
              · rw [escBraces_cons, e2]; simp; omega
              · obtain ⟨ps, g1, g2⟩ := e5 []
                refine ⟨(pend ++ ['}']) :: ps, ?_, ?_⟩
                · rw [uscan_close, g1]
                · simp [g2]
            · simp at h
        · rw [scan_other h1 h2] at h
          obtain ⟨lit, rest, e1, e2, e3, e4, e5⟩ := ih l.length (by simp at hk; omega) l rfl (n + 1) m f h
          refine ⟨c :: lit, rest, ?_, ?_, e3, e4, fun pend => ?_⟩
          · rw [escBraces_cons, e1]; simp [h1, h2]
          · rw [escBraces_cons, e2]; simp [h1, h2]; omega
          · obtain ⟨ps, g1, g2⟩ := e5 (pend ++ [c])
            exact ⟨ps, by rw [uscan_other pend h1 h2, g1], by simp [g2]⟩

/-! ### Replacement fields -/

theorem onReader_ok {α : Type} {m : M Reader α} {p : PSt} {r : Reader} {a : α} (h : m p.rdr = .ok r a) :
    PSt.onReader m p = .ok { p with rdr := r } a := by
  unfold PSt.onReader; rw [h]

theorem onReader_ok_inv {α : Type} {m : M Reader α} {p p' : PSt} {a : α} (h : PSt.onReader m p = .ok p' a) :
    ∃ r, m p.rdr = .ok r a ∧ p' = { p with rdr := r } := by
  unfold PSt.onReader at h
  cases hm : m p.rdr with
  | ok r b => rw [hm] at h; obtain ⟨rfl, rfl⟩ := ok_inj h; exact ⟨r, rfl, rfl⟩
  | err r e => rw [hm] at h; simp at h
  | bad b => rw [hm] at h; simp at h

/-- The parser without validation does what the one with validation did, once it succeeded. -/
theorem fieldName_agree {p p' : PSt} {k : Nat} (h : Checked.fieldName p = .ok p' k) : Unchecked.fieldName p = .ok p' k := by
  unfold Checked.fieldName at h
  unfold Unchecked.fieldName
  obtain ⟨p1, c, h1, h⟩ := bind_ok_inv h
  obtain ⟨r1, g1, rfl⟩ := onReader_ok_inv h1
  rw [M.bind_ok (onReader_ok (assume_ok g1))]
  obtain ⟨p2, q, h2, h⟩ := bind_ok_inv h
  rw [M.get_run] at h2
  obtain ⟨rfl, rfl⟩ := ok_inj h2
  split at h
  · rename_i hc
    rw [if_pos hc]
    split at h
    · simp at h
    · obtain ⟨p3, v, h3, h⟩ := bind_ok_inv h
      obtain ⟨r3, g3, rfl⟩ := onReader_ok_inv h3
      rw [M.bind_ok (onReader_ok (assume_ok g3))]
      exact h
  · rename_i hc
    rw [if_neg hc]
    split at h
    · simp at h
    · rw [M.bind_ok (M.get_run _)]
      exact h

theorem replacementField_agree {p p' : PSt} {k : Nat} (h : Checked.replacementField p = .ok p' k) :
    Unchecked.replacementField p = .ok p' k := by
  unfold Checked.replacementField at h
  unfold Unchecked.replacementField
  obtain ⟨p1, k1, h1, h⟩ := bind_ok_inv h
  rw [M.bind_ok (fieldName_agree h1)]
  obtain ⟨p2, c, h2, h⟩ := bind_ok_inv h
  obtain ⟨r2, g2, rfl⟩ := onReader_ok_inv h2
  rw [M.bind_ok (onReader_ok (assume_ok g2))]
  split at h
  · rename_i hc; rw [if_pos hc]; exact h
  · rename_i hc
    rw [if_neg hc]
    split at h
    · exact h
    · simp at h

/-- What reading a field name did. -/
structure NameRead (p p' : PSt) (k : Nat) (idx : Str) : Prop where
  digits : ∀ c ∈ idx, isDigit c = true
  rdr : p'.rdr = p.rdr.adv idx.length
  mode : (idx = [] ∧ p.positional ≠ some true ∧ p'.positional = some false ∧ p'.incr = (p.incr + 1) % 256 ∧ k = p.incr) ∨
    (idx ≠ [] ∧ p.positional ≠ some false ∧ p'.positional = some true ∧ p'.incr = p.incr ∧ k = numeralValue 10 idx ∧
      k < 256)

theorem parse_u8 {r : Reader} {ds tail : Str} (h : r.At (ds ++ tail)) (hd : Digits ds) (ht : NoDigit tail) :
    Reader.parseInt u8 10 r = if numeralValue 10 ds < 256 then .ok (r.adv ds.length) (numeralValue 10 ds)
      else .err r .outOfRange := by
  have := C01_parse_int_narrow_unsigned u8 (Or.inl rfl) 10 r .none ds tail (by omega) (by omega) h.1 h.2 hd.isNumeral
    ht.next (by simp)
  rw [show ((10 : Nat) : Int) = 10 from rfl] at this
  rw [this]
  have hh : (u8.Holds (Sign.none.apply (numeralValue 10 ds)) ∧ (u8.signed = true ∨ Sign.none ≠ Sign.minus)) ↔
      numeralValue 10 ds < 256 := by
    have h1 : u8.min = 0 := by decide
    have h2 : u8.max = 255 := by decide
    simp [IntTy.Holds, h1, h2, Sign.apply]
    omega
  by_cases hlt : numeralValue 10 ds < 256
  · rw [if_pos (hh.2 hlt), if_pos hlt]
    simp [Sign.text, Sign.apply, Reader.adv]
  · rw [if_neg (fun h => hlt (hh.1 h)), if_neg hlt]

theorem fieldName_inv {p p' : PSt} {k : Nat} (hp : p.rdr.Inv) (h : Checked.fieldName p = .ok p' k) :
    ∃ idx rest, p.rdr.At (idx ++ rest) ∧ NameRead p p' k idx ∧ NoDigit rest := by
  unfold Checked.fieldName at h
  obtain ⟨p1, c, h1, h⟩ := bind_ok_inv h
  obtain ⟨r1, g1, rfl⟩ := onReader_ok_inv h1
  obtain ⟨rfl, l, hl⟩ := peek_ok_inv hp g1
  obtain ⟨p2, q, h2, h⟩ := bind_ok_inv h
  rw [M.get_run] at h2
  obtain ⟨rfl, rfl⟩ := ok_inj h2
  simp only at h
  split at h
  · rename_i hc
    split at h
    · simp at h
    · rename_i hpos
      obtain ⟨p3, v, h3, h⟩ := bind_ok_inv h
      obtain ⟨r3, g3, rfl⟩ := onReader_ok_inv h3
      obtain ⟨ds, tail, e1, hds, htail, hr3⟩ := parse_decimal_inv u8 hl hc g3
      rw [e1] at hl
      simp only at g3
      rw [parse_u8 hl hds htail] at g3
      split at g3
      · rename_i hlt
        obtain ⟨rfl, rfl⟩ := ok_inj g3
        rw [M.bind_ok (M.modify_run _ _), M.pure_run] at h
        obtain ⟨rfl, rfl⟩ := ok_inj h
        exact ⟨ds, tail, hl, ⟨hds.2, rfl, Or.inr ⟨hds.1, hpos, rfl, rfl, by simp, by simpa using hlt⟩⟩, htail⟩
      · simp at g3
  · rename_i hc
    split at h
    · simp at h
    · rename_i hpos
      rw [M.bind_ok (M.set_run _ _), M.pure_run] at h
      obtain ⟨rfl, rfl⟩ := ok_inj h
      exact ⟨[], c :: l, hl, ⟨by simp, rfl, Or.inl ⟨rfl, hpos, rfl, rfl, rfl⟩⟩, noDigit_cons (by simpa using hc)⟩

/-- What reading the beginning of a field, behind the opening brace, did. -/
structure HeadRead (p p' : PSt) (k : Nat) (idx : Str) (colon : Bool) : Prop where
  digits : ∀ c ∈ idx, isDigit c = true
  rdr : p'.rdr = p.rdr.adv (idx.length + if colon then 1 else 0)
  mode : (idx = [] ∧ p.positional ≠ some true ∧ p'.positional = some false ∧ p'.incr = (p.incr + 1) % 256 ∧ k = p.incr) ∨
    (idx ≠ [] ∧ p.positional ≠ some false ∧ p'.positional = some true ∧ p'.incr = p.incr ∧ k = numeralValue 10 idx ∧
      k < 256)

theorem replacementField_inv {p p' : PSt} {k : Nat} (hp : p.rdr.Inv) (h : Checked.replacementField p = .ok p' k) :
    ∃ idx colon rest, p.rdr.At (idx ++ ((if colon then [':'] else []) ++ rest)) ∧ HeadRead p p' k idx colon ∧
      (colon = false → rest.head? = some '}') := by
  unfold Checked.replacementField at h
  obtain ⟨p1, k1, h1, h⟩ := bind_ok_inv h
  obtain ⟨idx, rest, hat, hn, hnd⟩ := fieldName_inv hp h1
  obtain ⟨p2, c, h2, h⟩ := bind_ok_inv h
  obtain ⟨r2, g2, rfl⟩ := onReader_ok_inv h2
  rw [hn.rdr] at g2
  obtain ⟨rfl, l, hl⟩ := peek_ok_inv hat.adv.1 g2
  obtain rfl := hat.adv.unique hl
  split at h
  · rename_i hc
    subst hc
    rw [M.pure_run] at h
    obtain ⟨rfl, rfl⟩ := ok_inj h
    exact ⟨idx, false, '}' :: l, by simpa using hat, ⟨hn.digits, rfl, hn.mode⟩, by simp⟩
  · split at h
    · rename_i hc
      subst hc
      rw [M.bind_ok (M.modify_run _ _), M.pure_run] at h
      obtain ⟨rfl, rfl⟩ := ok_inj h
      refine ⟨idx, true, l, by simpa using hat, ⟨hn.digits, ?_, hn.mode⟩, by simp⟩
      simp only [if_true]
      rw [hl.pop1, adv_adv]
    · simp at h

/-- The parser of a format string meets the end or a field. -/
theorem parse_inv {p p' : PSt} {k : Nat} (hp : p.rdr.Inv) (h : Checked.parse p = .ok p' k) :
    (∃ lit, p.rdr.At (escBraces lit) ∧ k = noMoreArgs ∧ p' = { p with rdr := p.rdr.adv (escBraces lit).length } ∧
      ∀ ops, ∃ pieces : List Str, Unchecked.parse ⟨p, ops⟩ = .ok ⟨p', ops ++ pieces.map WOp.str⟩ noMoreArgs ∧ pieces.flatten = lit) ∨
    (∃ lit idx colon rest, p.rdr.At (escBraces lit ++ '{' :: (idx ++ ((if colon then [':'] else []) ++ rest))) ∧
      HeadRead { p with rdr := p.rdr.adv ((escBraces lit).length + 1) } p' k idx colon ∧
      (colon = false → rest.head? = some '}') ∧
      ∀ ops, ∃ pieces : List Str, Unchecked.parse ⟨p, ops⟩ = .ok ⟨p', ops ++ pieces.map WOp.str⟩ k ∧ pieces.flatten = lit) := by
  unfold Checked.parse at h
  cases hs : Checked.scan p.rdr.rest 0 with
  | none => rw [hs] at h; simp at h
  | some mf =>
    obtain ⟨m, f⟩ := mf
    obtain ⟨lit, rest, e1, e2, e3, e4, e5⟩ := scan_inv _ _ rfl 0 m f hs
    rw [hs] at h
    obtain ⟨pieces, g1, g2⟩ := e5 []
    cases f with
    | false =>
      left
      have := e3 rfl
      subst this
      simp only [List.append_nil] at e1
      simp only at h
      obtain ⟨rfl, rfl⟩ := ok_inj h
      have hm : m = (escBraces lit).length := by simpa using e2
      refine ⟨lit, ⟨hp, e1⟩, rfl, by rw [hm]; rfl, fun ops => ⟨pieces, ?_, by simpa using g2⟩⟩
      unfold Unchecked.parse
      simp only [g1]
      rfl
    | true =>
      right
      obtain ⟨d, tl, rfl, hd⟩ := e4 rfl
      simp only at h
      have hm : m = (escBraces lit).length + 1 := by simpa using e2
      have hat : p.rdr.At ((escBraces lit ++ ['{']) ++ d :: tl) := ⟨hp, by simpa using e1⟩
      have hat2 := hat.adv
      have hlen : (escBraces lit ++ ['{']).length = (escBraces lit).length + 1 := by simp
      rw [hlen] at hat2
      have hq : { p with rdr := { p.rdr with pos := p.rdr.pos + m } } =
          { p with rdr := p.rdr.adv ((escBraces lit).length + 1) } := by rw [hm]; rfl
      rw [hq] at h
      obtain ⟨idx, colon, rest, ha, hh, hb⟩ := replacementField_inv hat2.1 h
      refine ⟨lit, idx, colon, rest, ?_, hh, hb, fun ops => ⟨pieces, ?_, by simpa using g2⟩⟩
      · have := ha.unique hat2
        rw [this]
        exact ⟨hp, e1⟩
      · unfold Unchecked.parse
        simp only [g1, hq, replacementField_agree h]
        rfl

end Emio
