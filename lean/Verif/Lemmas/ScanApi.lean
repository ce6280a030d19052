import Verif.Lemmas.ScanFields
import Verif.Lemmas.SpecsTotal
/-
Scan strings with one field, errors, and undefined behaviour.
-/
namespace Emio
open Reader Spec

/-! ### One field -/

/-- The scan string `{:<spec>}` followed by literal text. -/
def oneField (sp : ScanSpec) (last : Str) : ScanTemplate := ⟨[([], ⟨[], some sp⟩)], last⟩

theorem oneField_text (sp : ScanSpec) (last : Str) :
    (oneField sp last).text = "{:".toList ++ sp.text ++ "}".toList ++ escBraces last := by
  simp [oneField, ScanTemplate.text, ScanTemplate.format, FormatText.text, escBraces, Field.text, ScanHole.field]

theorem oneField_suits (ty : ScanTy) {sp : ScanSpec} (wf : sp.WellFormed) (fits : sp.Fits) (hal : ScanTy.Allows ty sp)
    (last : Str) : (oneField sp last).Suits [ty] := by
  refine ⟨by simp, ?_, ?_, Or.inl ?_, ?_, ?_⟩
  · simp [oneField]
  · simp only [oneField, List.mem_singleton]
    rintro s rfl
    exact ⟨wf, fits⟩
  · intro f hf
    simp only [oneField, ScanTemplate.format, FormatText.fields, List.map_cons, List.map_nil, List.mem_singleton] at hf
    subst hf
    rfl
  · intro k
    rw [scan_args]
    simp [oneField, argsFrom, Field.argument, ScanHole.field]
  · intro x hx
    rw [scan_args] at hx
    simp [oneField, argsFrom, Field.argument, ScanHole.field] at hx
    subst hx
    exact ⟨ty, rfl, hal⟩

/-- A field with nothing behind it. -/
theorem scan_single (ty : ScanTy) {sp : ScanSpec} (wf : sp.WellFormed) (fits : sp.Fits) (hal : ScanTy.Allows ty sp)
    (r : Reader) (v : ScanVal) :
    scanFrom ("{:".toList ++ sp.text ++ "}".toList) [ty] ⟨r, [v]⟩ =
      match ty.scan sp.meaning (.ofStr []) ⟨r, v⟩ with
      | .ok sl _ => .ok ⟨sl.inp, [sl.var]⟩ ()
      | .err sl e => .err ⟨sl.inp, [sl.var]⟩ e
      | .bad b => .bad b := by
  have ht : "{:".toList ++ sp.text ++ "}".toList = (oneField sp []).text := by
    rw [oneField_text]; simp [escBraces]
  rw [ht, scan_eq (oneField_suits ty wf fits hal [])]
  simp only [oneField, scanSegs]
  have h1 : ScanIO.onInp (matchLit []) ⟨r, [v]⟩ = .ok ⟨r, [v]⟩ () := rfl
  rw [M.bind_ok h1]
  have harg : Field.argument 0 (ScanHole.field ⟨[], some sp⟩) = 0 := rfl
  have hsp : ScanHole.sp ⟨[], some sp⟩ = sp := rfl
  have htx : ScanTemplate.text ⟨[], []⟩ = [] := rfl
  simp only [harg, hsp, htx, List.getElem?_cons_zero, (scan_fits_pass fits).2, List.append_nil]
  cases hs : ty.scan sp.meaning (.ofStr []) ⟨r, v⟩ with
  | ok sl u =>
    have h2 : ScanIO.onVar 0 (ty.scan sp.meaning (.ofStr [])) ⟨r, [v]⟩ = .ok ⟨sl.inp, [sl.var]⟩ () := by
      unfold ScanIO.onVar
      simp only [List.getElem?_cons_zero, hs]
      rfl
    rw [M.bind_ok h2]
    rfl
  | err sl e =>
    have h2 : ScanIO.onVar 0 (ty.scan sp.meaning (.ofStr [])) ⟨r, [v]⟩ = .err ⟨sl.inp, [sl.var]⟩ e := by
      unfold ScanIO.onVar
      simp only [List.getElem?_cons_zero, hs]
      rfl
    rw [M.bind_err h2]
  | bad b =>
    have h2 : ScanIO.onVar 0 (ty.scan sp.meaning (.ofStr [])) ⟨r, [v]⟩ = .bad b := by
      unfold ScanIO.onVar
      simp only [List.getElem?_cons_zero, hs]
    rw [M.bind_bad h2]

/-! ### Errors -/

/-- A failed read of an integer of at least 32 bit does not move the reader. -/
theorem readInt_err {t : IntTy} {s : ScanSpecs} {st st' : Slot} {e : Err} (h : readInt t s st = .err st' e) :
    st'.inp = st.inp ∧ (s.width = noWidth → st'.var = st.var) := by
  unfold readInt at h
  split at h
  · simp at h
  · obtain ⟨rfl, _⟩ := (by simpa using h : st = st' ∧ _); exact ⟨rfl, fun _ => rfl⟩
  · split at h
    · simp at h
    · obtain ⟨rfl, _⟩ := (by simpa using h : st = st' ∧ _); exact ⟨rfl, fun _ => rfl⟩
    · simp only at h
      split at h
      · rename_i hw
        split at h
        · simp only [Run.err.injEq] at h
          rw [← h.1]
          exact ⟨rfl, fun hh => absurd hh hw⟩
        · simp at h
      · simp at h

theorem readInteger_err {t : IntTy} {s : ScanSpecs} {st st' : Slot} {e : Err} (h : readInteger t s st = .err st' e) :
    (t.upcast = t ∨ e ≠ .outOfRange → st'.inp = st.inp) ∧ (s.width = noWidth ∨ t.upcast ≠ t → st'.var = st.var) := by
  unfold readInteger at h
  split at h
  · rename_i ht
    obtain ⟨h1, h2⟩ := readInt_err h
    exact ⟨fun _ => h1, fun hh => h2 (by tauto)⟩
  · rename_i ht
    split at h
    · simp at h
    · rename_i st1 e1 h1
      obtain ⟨g1, _⟩ := readInt_err h1
      simp only [Run.err.injEq] at h
      rw [← h.1]
      exact ⟨fun _ => g1, fun _ => rfl⟩
    · split at h
      · split at h
        · simp only [Run.err.injEq] at h
          rw [← h.1, ← h.2]
          exact ⟨fun hh => by rcases hh with hh | hh; exact absurd hh ht; exact absurd rfl hh, fun _ => rfl⟩
        · simp at h
      · simp at h

/-! ### Numbers that do not fit -/

theorem readInt_big (t : IntTy) (ht : t.signed = false) (m : Nat) (hm : 36 * m + 36 < 2 ^ t.bits) {sp : ScanSpec}
    (wf : sp.WellFormed) (fits : sp.Fits) (hal : ∀ c ∈ sp.type, c ∈ ['b', 'd', 'o', 'x']) {st : Slot} {n : Number}
    {tail : Str} (h : st.inp.At (n.text ++ tail)) (hw : ∀ w ∈ sp.size, n.text.length = w)
    (hbase : sp.Base n.base n.mark) (hds : IsNumeral n.base n.digits)
    (hp : Plain10 sp n.base n.digits (if sp.size = none then tail else []))
    (hbig : n.sign = .minus ∨ m < numeralValue n.base n.digits) :
    readInt t sp.meaning st = .err st .outOfRange ∨
    ∃ r' v, readInt t sp.meaning st = .ok ⟨r', .int v⟩ () ∧ (m : Int) < v := by
  unfold readInt scanWindow
  cases hsz : sp.size with
  | none =>
    rw [if_neg (by rw [scanWidth_none hsz]; simp)]
    simp only [hsz, if_true] at hp
    rcases scanNumber_big t ht m hm wf hal h hbase hds hp hbig with ⟨r', hr⟩ | ⟨r', v, hr, hv⟩
    · left; simp only [hr]
    · right
      simp only [hr, scanWidth_none hsz]
      rw [if_neg (by simp)]
      exact ⟨r', v, rfl, hv⟩
  | some w =>
    obtain ⟨hw1, hw2⟩ := scanWidth_some hsz
    have hlt := fits w (by simp [hsz])
    have hnl := hw w (by simp [hsz])
    simp only [hsz, reduceCtorEq, if_false] at hp
    rw [if_pos hw2, hw1, toSize_nat w hlt.2, if_neg ?_]
    · simp only
      have htk : st.inp.rest.take w = n.text ++ [] := by
        rw [h.2, ← hnl]; simp
      have hat : (ofStr (n.text ++ [])).At (n.text ++ []) := Reader.at_ofStr _
      rw [htk]
      rcases scanNumber_big t ht m hm wf hal hat hbase hds hp hbig with ⟨r', hr⟩ | ⟨r', v, hr, hv⟩
      · left; simp only [hr]
      · right
        simp only [hr]
        rw [if_pos (by rw [← hw1]; exact hw2), if_neg ?_]
        · exact ⟨_, v, rfl, hv⟩
        · -- all digits are read
          obtain ⟨hraw, hat2⟩ := scanNumber_raw t wf hal hat hbase hds hp
          have hb2 : 2 ≤ n.base ∧ n.base ≤ 36 := by have := base_mem hal hbase; omega
          rw [hr] at hraw
          obtain ⟨ds', tail', e1, e2, e3, e4, e5, _⟩ := raw_inv t n.base hb2.1 hb2.2 _ hat2 hraw.symm
          have ht' : tail' = [] := by
            cases tail' with
            | nil => rfl
            | cons c cs =>
              have hc : c ∈ n.digits := by
                rw [List.append_nil] at e1
                rw [e1]; simp
              obtain ⟨d, hd⟩ := Option.isSome_iff_exists.1 (hds.2 c hc)
              have h1 := charToDigit_of_symbolValue hb2.2 hd
              have h2 := (digitLike_false hb2.2).1 (e4 c (by simp))
              rw [h1] at h2
              cases h2
          subst ht'
          simp only [List.append_nil] at e1
          rw [e5, ← e1]
          simp [Reader.eof, adv, ofStr, Number.text, Nat.add_assoc]
    · have := st.inp.rest_length
      rw [h.2] at this
      simp at this
      unfold cntRemaining
      omega

/-- Numbers a narrow type cannot represent, but for signed ones beyond 32 bit. -/
theorem readInteger_big (t : IntTy) (ht : t ∈ [i8, i16, u8, u16]) {sp : ScanSpec} (wf : sp.WellFormed) (fits : sp.Fits)
    (hal : ∀ c ∈ sp.type, c ∈ ['b', 'd', 'o', 'x']) {st : Slot} {n : Number} {tail : Str} (h : st.inp.At (n.text ++ tail))
    (hw : ∀ w ∈ sp.size, n.text.length = w) (hbase : sp.Base n.base n.mark) (hds : IsNumeral n.base n.digits)
    (hp : Plain10 sp n.base n.digits (if sp.size = none then tail else []))
    (htail : sp.size = none → ∀ c ∈ tail.head?, digitLike n.base c = false) (hfit : ¬ t.Holds n.value)
    (hs : t.signed = true → i32.Holds n.value) :
    ∃ r', readInteger t sp.meaning st = .err ⟨r', st.var⟩ .outOfRange := by
  have hne : t.upcast ≠ t := by
    simp only [List.mem_cons, List.not_mem_nil, or_false] at ht
    rcases ht with rfl | rfl | rfl | rfl <;> decide
  unfold readInteger
  rw [if_neg hne]
  by_cases hsg : t.signed = true
  · have hup : t.upcast = i32 := by
      simp only [List.mem_cons, List.not_mem_nil, or_false] at ht
      rcases ht with rfl | rfl | rfl | rfl <;> first | rfl | cases hsg
    rw [readInt_fwd t.upcast (st := { st with var := .int 0 }) wf fits hal h hw hbase hds hp htail
      (by rw [hup]; exact hs hsg) (by left; rw [hup])]
    simp only
    rw [if_pos]
    · exact ⟨_, rfl⟩
    · unfold IntTy.Holds at hfit
      omega
  · have hup : t.upcast = u32 := by
      simp only [List.mem_cons, List.not_mem_nil, or_false] at ht
      rcases ht with rfl | rfl | rfl | rfl <;> first | rfl | exact absurd rfl hsg
    obtain ⟨m, hm, hmax⟩ : ∃ m : Nat, 36 * m + 36 < 2 ^ u32.bits ∧ t.max = m ∧ t.min = 0 := by
      simp only [List.mem_cons, List.not_mem_nil, or_false] at ht
      rcases ht with rfl | rfl | rfl | rfl
      · exact absurd rfl hsg
      · exact absurd rfl hsg
      · exact ⟨255, by decide, by decide, by decide⟩
      · exact ⟨65535, by decide, by decide, by decide⟩
    have hbig : n.sign = .minus ∨ m < numeralValue n.base n.digits := by
      by_cases hmin : n.sign = .minus
      · exact Or.inl hmin
      · right
        have : n.value = numeralValue n.base n.digits := by
          unfold Number.value Sign.apply
          cases hn : n.sign <;> simp_all
        unfold IntTy.Holds at hfit
        rw [this, hmax.1, hmax.2] at hfit
        omega
    rw [hup]
    rcases readInt_big u32 rfl m hm wf fits hal (st := { st with var := .int 0 }) h hw hbase hds hp hbig with
      hr | ⟨r', v, hr, hv⟩
    · rw [hr]; exact ⟨_, rfl⟩
    · rw [hr]
      simp only
      rw [if_pos (by right; rw [hmax.1]; exact hv)]
      exact ⟨_, rfl⟩

/-! ### Undefined behaviour -/

theorem safe_disallowSign {r : Reader} (h : r.Inv) : Safe disallowSign r := by
  unfold disallowSign
  refine (safe_peek h).bind fun r c h => ?_
  split
  · exact safe_throw _
  · exact safe_pure _ h

theorem safe_readIfMatchChar (c : Char) {r : Reader} (h : r.Inv) : Safe (readIfMatchChar c) r := by
  unfold Safe
  rw [C06_read_if_match_char c r h]
  cases hr : r.rest with
  | nil => exact Or.inl ⟨_, _, rfl⟩
  | cons d cs =>
    simp only
    split
    · right
      have hat : r.At (d :: cs) := ⟨h, hr⟩
      exact ⟨_, _, rfl, hat.adv1.1⟩
    · exact Or.inl ⟨_, _, rfl⟩

theorem determineBase_ok (r : Reader) (h : r.Inv) :
    (∃ e, determineBase r = .err () e) ∨ ∃ b, determineBase r = .ok () b := by
  unfold determineBase
  rcases safe_readChar h with ⟨r', e, h1⟩ | ⟨r', c, h1, h2⟩
  · rw [h1]; exact Or.inl ⟨_, rfl⟩
  · rw [h1]
    simp only
    split
    · exact Or.inr ⟨_, rfl⟩
    · rcases safe_readChar h2 with ⟨r'', e, h3⟩ | ⟨r'', c', h3, _⟩
      · rw [h3]; exact Or.inr ⟨_, rfl⟩
      · rw [h3]
        simp only
        split_ifs <;> exact Or.inr ⟨_, rfl⟩

theorem safe_scanBase {sp : ScanSpec} (wf : sp.WellFormed) (hal : ∀ c ∈ sp.type, c ∈ ['b', 'd', 'o', 'x']) {r : Reader}
    (h : r.Inv) : Safe (scanBase sp.meaning) r := by
  unfold scanBase
  split
  · have hg : Safe (fun r => (match determineBase r with
        | .bad b => (M.bad b : M Reader Nat)
        | .err _ e => M.throw e
        | .ok _ base => if base ≠ 10 then do
            M.modify (·.pop (if base = 8 then 1 else 2))
            disallowSign
            return base
          else return base) r) r := by
      rcases determineBase_ok r h with ⟨e, he⟩ | ⟨b, hb⟩
      · refine Or.inl ⟨r, e, ?_⟩
        simp only [he]
        rfl
      · have : Safe (if b ≠ 10 then do
            M.modify (·.pop (if b = 8 then 1 else 2))
            disallowSign
            return b
          else return b) r := by
          split
          · exact (safe_pop _ h).bind fun r _ h => (safe_disallowSign h).bind fun r _ h => safe_pure _ h
          · exact safe_pure _ h
        unfold Safe at this ⊢
        simp only [hb]
        exact this
    unfold Safe at hg ⊢
    rw [M.bind_ok (M.get_run r)]
    exact hg
  · obtain ⟨b, hb⟩ : ∃ b, getBase sp.meaning.type = some b := by
      exact ⟨_, (getBase_eq hal).1⟩
    rw [hb]
    simp only
    split
    · refine Safe.bind ?_ fun r _ h => (safe_disallowSign h).bind fun r _ h => safe_pure _ h
      unfold parseAlternateForm
      refine (safe_readIfMatchChar _ h).bind fun r _ h => ?_
      split
      · exact safe_pure _ h
      · refine (safe_readChar h).bind fun r _ h => ?_
        split_ifs <;> first | exact safe_pure _ h | exact safe_throw _
    · exact safe_pure _ h

theorem safe_parseSign {r : Reader} (h : r.Inv) : Safe parseSign r := by
  unfold parseSign
  refine (safe_peek h).bind fun r c h => ?_
  split_ifs
  · exact (safe_pop 1 h).bind fun r _ h => safe_pure _ h
  · exact (safe_pop 1 h).bind fun r _ h => safe_pure _ h
  · exact safe_pure _ h

/-- Reading a number of base `b` into `t` is defined anywhere in the text `s`. -/
def Safely (t : IntTy) (sp : ScanSpec) (s : Str) : Prop :=
  ∀ (b : Nat) (mark : Str), sp.Base b mark → ∀ u : Str, u <:+: s → ∀ (neg : Bool) (r : Reader), r.At u →
    (∃ r' e, parseIntRaw t b neg r = .err r' e) ∨ ∃ r' v, parseIntRaw t b neg r = .ok r' v

theorem Safely.mono {t : IntTy} {sp : ScanSpec} {s u : Str} (h : Safely t sp s) (hu : u <:+: s) : Safely t sp u :=
  fun b mark hb v hv => h b mark hb v (hv.trans hu)

theorem safe_raw (t : IntTy) (ht : t.signed = false) (b : Nat) (hb : 2 ≤ b) (hb' : b ≤ 36) (neg : Bool) {r : Reader}
    (h : r.Inv) : (∃ r' e, parseIntRaw t b neg r = .err r' e) ∨ ∃ r' v, parseIntRaw t b neg r = .ok r' v := by
  cases hr : r.rest with
  | nil => rw [raw_nil t b hb hb' neg ⟨h, hr⟩]; exact Or.inl ⟨_, _, rfl⟩
  | cons c cs =>
    cases hc : charToDigit c b with
    | none => rw [raw_none t b hb hb' neg ⟨h, hr⟩ hc]; exact Or.inl ⟨_, _, rfl⟩
    | some d =>
      rw [raw_run t b hb hb' neg ⟨h, hr⟩ hc]
      cases neg with
      | true => rw [if_pos (by simp [ht])]; exact Or.inl ⟨_, _, rfl⟩
      | false =>
        rw [if_neg (by simp)]
        rcases parseLoop_unsigned t b ht cs (r.pos + 1) 0 0 d with ⟨p, g⟩ | ⟨p, v, g, _⟩
        · rw [g]; exact Or.inl ⟨_, _, rfl⟩
        · rw [g]; exact Or.inr ⟨_, _, rfl⟩

/-- Unsigned numbers. -/
theorem safely_unsigned (t : IntTy) (ht : t.signed = false) {sp : ScanSpec}
    (hal : ∀ c ∈ sp.type, c ∈ ['b', 'd', 'o', 'x']) (s : Str) : Safely t sp s := by
  intro b mark hb u _ neg r h
  have hb2 : 2 ≤ b ∧ b ≤ 36 := by have := base_mem hal hb; omega
  exact safe_raw t ht b hb2.1 hb2.2 neg h.1

theorem charToDigit_lt {c : Char} {b d : Nat} (h : charToDigit c b = some d) : d < b := by
  unfold charToDigit charToDigitVal at h
  generalize c.toNat = n at h
  simp only at h
  generalize hres : (if (n : Int) ≥ 97 then (n : Int) - 97 + 10 else if (n : Int) ≥ 65 then (n : Int) - 65 + 10 else
    (n : Int) - 48) = res at h
  split at h
  · simp at h
  · split at h
    · simp only [Option.map_some, Option.some.injEq] at h
      have : 0 ≤ res := by rw [← hres]; split_ifs <;> omega
      omega
    · simp at h

/-- A number of few digits is in range. -/
theorem parseLoop_few (t : IntTy) (b : Nat) (neg : Bool) (hb : 2 ≤ b) (k : Nat) (hk : b ^ k ≤ 2 ^ (t.bits - 1)) :
    ∀ (rest : Str) (pos a d i : Nat), a < b ^ i → d < b →
      i + 1 + (rest.takeWhile fun c => (charToDigit c b).isSome).length ≤ k → t.signed = true →
      ∃ p v, parseLoop t b neg rest pos (sgn neg a) (sgn neg a * b) d = .ok p v := by
  intro rest
  have hH : ∀ n : Nat, n < 2 ^ (t.bits - 1) → t.signed = true → t.Holds (sgn neg n) := by
    intro n hn hs
    have h : (n : Int) < 2 ^ (t.bits - 1) := by exact_mod_cast hn
    unfold IntTy.Holds IntTy.min IntTy.max sgn
    rw [hs]
    generalize (2 : Int) ^ (t.bits - 1) = y at *
    cases neg <;> simp only [Bool.false_eq_true, if_false, if_true] <;> omega
  induction rest with
  | nil =>
    intro pos a d i ha hd hi hs
    have hlt : a * b + d < b ^ (i + 1) := by rw [pow_succ]; nlinarith
    have hle : b ^ (i + 1) ≤ b ^ k := Nat.pow_le_pow_right (by omega) (by simpa using hi)
    have := sgn_step t neg a b d (by omega) (hH _ (by omega) hs)
    rw [parseLoop_nil, this]
    exact ⟨_, _, rfl⟩
  | cons c cs ih =>
    intro pos a d i ha hd hi hs
    have hlt : a * b + d < b ^ (i + 1) := by rw [pow_succ]; nlinarith
    have hle : b ^ (i + 1) ≤ b ^ k := Nat.pow_le_pow_right (by omega) (by omega)
    have hst := sgn_step t neg a b d (by omega) (hH _ (by omega) hs)
    rw [parseLoop_cons, hst]
    simp only
    cases hc : charToDigit c b with
    | none => exact ⟨_, _, rfl⟩
    | some v =>
      simp only [List.takeWhile_cons, hc, Option.isSome_some, if_true, List.length_cons] at hi
      have hle2 : b ^ (i + 2) ≤ b ^ k := Nat.pow_le_pow_right (by omega) (by omega)
      have hlt2 : (a * b + d) * b < b ^ (i + 2) := by
        rw [pow_succ]; exact Nat.mul_lt_mul_of_pos_right hlt (by omega)
      have har : Reader.arith t (sgn neg (a * b + d) * b) = some (sgn neg (a * b + d) * b) := by
        rw [sgn_mul]; exact arith_ok t _ (hH _ (by omega) hs)
      simp only [har]
      exact ih (pos + 1) (a * b + d) v (i + 1) hlt (charToDigit_lt hc) (by omega) hs

theorem digitLike_up {b B : Nat} (h : b ≤ B) {c : Char} (hc : digitLike b c = true) : digitLike B c = true := by
  unfold digitLike symbolValue isColonToAt at *
  generalize c.toNat = n at *
  simp only at *
  generalize (if 48 ≤ n ∧ n ≤ 57 then some (n - 48) else if 97 ≤ n ∧ n ≤ 122 then some (n - 97 + 10)
    else if 65 ≤ n ∧ n ≤ 90 then some (n - 65 + 10) else none : Option Nat) = o at *
  simp only [Bool.or_eq_true, Bool.and_eq_true, decide_eq_true_eq] at hc ⊢
  rcases hc with hc | hc
  · left
    cases o with
    | none => simp at hc
    | some v =>
      simp only [Option.filter, decide_eq_true_eq] at hc ⊢
      by_cases hv : v < b
      · rw [if_pos (by omega)]; rfl
      · simp [hv] at hc
  · right; exact ⟨hc.1, by omega⟩

/-- Signed numbers of few digits. -/
theorem safely_few (t : IntTy) {sp : ScanSpec} (hal : ∀ c ∈ sp.type, c ∈ ['b', 'd', 'o', 'x']) {s : Str} {B k : Nat}
    (hB : ∀ b mark, sp.Base b mark → b ≤ B) (hk : B ^ k ≤ 2 ^ (t.bits - 1)) (hr : ShortRuns B k s) : Safely t sp s := by
  intro b mark hb u hu neg r h
  have hb2 : 2 ≤ b ∧ b ≤ 36 := by have := base_mem hal hb; omega
  have hbB := hB b mark hb
  by_cases ht : t.signed = false
  · exact safe_raw t ht b hb2.1 hb2.2 neg h.1
  have ht : t.signed = true := by simpa using ht
  cases u with
  | nil => rw [raw_nil t b hb2.1 hb2.2 neg h]; exact Or.inl ⟨_, _, rfl⟩
  | cons c cs =>
    cases hc : charToDigit c b with
    | none => rw [raw_none t b hb2.1 hb2.2 neg h hc]; exact Or.inl ⟨_, _, rfl⟩
    | some d =>
      rw [raw_run t b hb2.1 hb2.2 neg h hc, if_neg (by simp [ht])]
      have hlen : (c :: cs.takeWhile fun c => (charToDigit c b).isSome).length ≤ k := by
        apply hr
        · refine List.IsInfix.trans ?_ hu
          exact ⟨[], cs.dropWhile fun c => (charToDigit c b).isSome, by simp [List.takeWhile_append_dropWhile]⟩
        · intro x hx
          apply digitLike_up hbB
          rw [← charToDigit_isSome x b hb2.2]
          simp only [List.mem_cons] at hx
          rcases hx with rfl | hx
          · rw [hc]; rfl
          · simpa using List.mem_takeWhile_imp hx
      have hk' : b ^ k ≤ 2 ^ (t.bits - 1) := le_trans (Nat.pow_le_pow_left hbB k) hk
      obtain ⟨p, v, g⟩ := parseLoop_few t b neg hb2.1 k hk' cs (r.pos + 1) 0 d 0 (by simp) (charToDigit_lt hc)
        (by simp only [List.length_cons] at hlen; omega) ht
      have z : sgn neg 0 = 0 := by unfold sgn; cases neg <;> rfl
      rw [z, Int.zero_mul] at g
      rw [g]
      exact Or.inr ⟨_, _, rfl⟩

theorem safe_scanNumber (t : IntTy) {sp : ScanSpec} (wf : sp.WellFormed)
    (hal : ∀ c ∈ sp.type, c ∈ ['b', 'd', 'o', 'x']) {r : Reader} (h : r.Inv) (hsf : Safely t sp r.rest) :
    Safe (scanNumber t sp.meaning) r := by
  unfold scanNumber
  have hsg : (∃ r' e, parseSign r = .err r' e) ∨ ∃ r' neg, parseSign r = .ok r' neg ∧ r'.Inv ∧ r'.rest <:+ r.rest := by
    unfold parseSign
    cases hl : r.rest with
    | nil => rw [M.bind_err (Reader.At.peek_nil ⟨h, hl⟩)]; exact Or.inl ⟨_, _, rfl⟩
    | cons c cs =>
      have hat : r.At (c :: cs) := ⟨h, hl⟩
      rw [M.bind_ok hat.peek]
      right
      split
      · refine ⟨r.pop 1, false, rfl, ?_⟩
        rw [hat.pop1]
        exact ⟨hat.adv1.1, by rw [hat.adv1.2]; exact List.suffix_cons _ _⟩
      · split
        · refine ⟨r.pop 1, true, rfl, ?_⟩
          rw [hat.pop1]
          exact ⟨hat.adv1.1, by rw [hat.adv1.2]; exact List.suffix_cons _ _⟩
        · exact ⟨r, false, rfl, h, by rw [hl]⟩
  rcases hsg with ⟨r', e, h0⟩ | ⟨r1, neg, h0, hi1, hsuf⟩
  · exact Or.inl ⟨_, _, M.bind_err h0⟩
  unfold Safe
  rw [M.bind_ok h0]
  rcases safe_scanBase wf hal hi1 with ⟨r', e, h1⟩ | ⟨r', b, h1, h2⟩
  · exact Or.inl ⟨_, _, M.bind_err h1⟩
  · obtain ⟨mark, l', hb, hl', hr'⟩ := scanBase_inv wf hal (l := r1.rest) ⟨hi1, rfl⟩ h1
    have hb2 : 2 ≤ b ∧ b ≤ 36 := by have := base_mem hal hb; omega
    rw [M.bind_ok h1]
    have hat1 : r1.At (mark ++ l') := ⟨hi1, hl'⟩
    have hat2 : r'.At l' := by rw [hr']; exact hat1.adv
    have hin : l' <:+: r.rest :=
      List.IsInfix.trans ⟨mark, [], by rw [hl']; simp⟩ hsuf.isInfix
    rcases hsf b mark hb l' hin neg r' hat2 with ⟨r'', e, h3⟩ | ⟨r'', v, h3⟩
    · exact Or.inl ⟨_, _, h3⟩
    · obtain ⟨ds, tail, e1, _, _, _, e5, _⟩ := raw_inv t b hb2.1 hb2.2 neg (l := r'.rest) ⟨h2, rfl⟩ h3
      refine Or.inr ⟨_, _, h3, ?_⟩
      rw [e5]
      have hat : r'.At (ds ++ tail) := ⟨h2, e1⟩
      exact hat.adv.1

/-- No undefined behaviour, and the reader stays inside the input. -/
def SlotSafe (m : M Slot Unit) (st : Slot) : Prop :=
  (∃ st' e, m st = .err st' e) ∨ ∃ st', m st = .ok st' () ∧ st'.inp.Inv

theorem inv_pop {r : Reader} (n : Nat) (h : r.Inv) : (r.pop n).Inv := by
  unfold Reader.Inv at *
  simp only [Reader.pop]
  split <;> simp only <;> omega

theorem safe_readInt (t : IntTy) {sp : ScanSpec} (wf : sp.WellFormed)
    (hal : ∀ c ∈ sp.type, c ∈ ['b', 'd', 'o', 'x']) {st : Slot} (h : st.inp.Inv) (hsf : Safely t sp st.inp.rest) :
    (∃ st' e, readInt t sp.meaning st = .err st' e) ∨
    ∃ r v, readInt t sp.meaning st = .ok ⟨r, .int v⟩ () ∧ r.Inv := by
  unfold readInt scanWindow
  by_cases hw : sp.meaning.width ≠ noWidth
  · rw [if_pos hw]
    split
    · rename_i hx; split at hx <;> simp at hx
    · exact Or.inl ⟨_, _, rfl⟩
    · rename_i r hx
      split at hx
      · simp at hx
      · obtain ⟨_, rfl⟩ := ok_inj hx
        rcases safe_scanNumber t wf hal (at_ofStr (List.take (toSize sp.meaning.width) st.inp.rest)).1
          (hsf.mono (List.take_prefix _ _).isInfix) with
          ⟨r', e, h1⟩ | ⟨r', v, h1, h2⟩
        · rw [h1]; exact Or.inl ⟨_, _, rfl⟩
        · rw [h1]
          simp only
          rw [if_pos hw]
          split
          · exact Or.inl ⟨_, _, rfl⟩
          · exact Or.inr ⟨_, _, rfl, inv_pop _ h⟩
  · rw [if_neg hw]
    simp only
    rcases safe_scanNumber t wf hal h hsf with ⟨r', e, h1⟩ | ⟨r', v, h1, h2⟩
    · rw [h1]; exact Or.inl ⟨_, _, rfl⟩
    · rw [h1]
      simp only
      rw [if_neg hw]
      exact Or.inr ⟨_, _, rfl, h2⟩

theorem safe_readInteger (t : IntTy) {sp : ScanSpec} (wf : sp.WellFormed)
    (hal : ∀ c ∈ sp.type, c ∈ ['b', 'd', 'o', 'x']) {st : Slot} (h : st.inp.Inv)
    (hsf : Safely t.upcast sp st.inp.rest) :
    SlotSafe (readInteger t sp.meaning) st := by
  unfold SlotSafe readInteger
  split
  · rename_i ht
    rw [ht] at hsf
    rcases safe_readInt t wf hal h hsf with ⟨st', e, h1⟩ | ⟨r, v, h1, h2⟩
    · exact Or.inl ⟨_, _, h1⟩
    · exact Or.inr ⟨_, h1, h2⟩
  · rcases safe_readInt t.upcast wf hal (st := { st with var := .int 0 }) h hsf with ⟨st', e, h1⟩ | ⟨r, v, h1, h2⟩
    · rw [h1]; exact Or.inl ⟨_, _, rfl⟩
    · rw [h1]
      simp only
      split
      · exact Or.inl ⟨_, _, rfl⟩
      · exact Or.inr ⟨_, rfl, h2⟩

/-- Literal text up to a field or the end. -/
def LitThen (f : Str) : Prop :=
  ∃ lit rest, f = escBraces lit ++ rest ∧ (rest = [] ∨ ∃ d tl, rest = '{' :: d :: tl ∧ d ≠ '{')

theorem litThen_next {x : Char} {f : Str} (h : LitThen (x :: f)) :
    nextLiteral x f = some none ∨ ∃ d f', nextLiteral x f = some (some (d, f')) ∧ LitThen f' := by
  obtain ⟨lit, rest, hf, hr⟩ := h
  cases lit with
  | nil =>
    simp only [escBraces, List.flatMap_nil, List.nil_append] at hf
    rcases hr with rfl | ⟨d, tl, rfl, hd⟩
    · simp at hf
    · simp only [List.cons.injEq] at hf
      obtain ⟨rfl, rfl⟩ := hf
      left
      simp [nextLiteral, hd]
  | cons c l =>
    rw [escBraces_cons'] at hf
    simp only [List.cons_append, List.cons.injEq] at hf
    obtain ⟨rfl, hf⟩ := hf
    right
    unfold nextLiteral
    by_cases h1 : x = '{'
    · subst h1
      simp at hf
      subst hf
      simp only [if_true, ne_eq, not_true, if_false]
      exact ⟨_, _, rfl, l, rest, rfl, hr⟩
    · by_cases h2 : x = '}'
      · subst h2
        simp at hf
        subst hf
        simp only [if_neg h1, if_true]
        exact ⟨_, _, rfl, l, rest, rfl, hr⟩
      · simp [h1, h2] at hf
        rw [if_neg h1, if_neg h2]
        exact ⟨_, _, rfl, l, rest, hf, hr⟩

theorem complexLoop_safe {fmt : Str} (hf : LitThen fmt) : ∀ (inp f : Str) (k m : Nat), LitThen f →
    (∃ e, complexLoop fmt inp f k m = .err () e) ∨ ∃ n, complexLoop fmt inp f k m = .ok () n := by
  intro inp
  induction inp with
  | nil =>
    intro f k m _
    cases f with
    | nil => unfold complexLoop; exact Or.inr ⟨_, rfl⟩
    | cons => unfold complexLoop; exact Or.inl ⟨_, rfl⟩
  | cons c cs ih =>
    intro f k m h
    cases f with
    | nil => unfold complexLoop; exact Or.inr ⟨_, rfl⟩
    | cons x f =>
      unfold complexLoop
      rcases litThen_next h with h1 | ⟨d, f', h1, h2⟩
      · rw [h1]; exact Or.inr ⟨_, rfl⟩
      · rw [h1]
        simp only
        split
        · exact ih _ _ _ h2
        · exact ih _ _ _ hf

theorem litThen_split : ∀ {lit rest x : Str} {c : Char} {y : Str}, escBraces lit ++ rest = x ++ c :: y → '{' ∉ x → '}' ∉ x →
    (c = '{' ∨ c = '}') → (rest = [] ∨ ∃ d tl, rest = '{' :: d :: tl ∧ d ≠ '{') → LitThen (c :: y) ∧ y ≠ [] := by
  intro lit
  induction lit with
  | nil =>
    intro rest x c y h h1 h2 hc hr
    simp only [escBraces, List.flatMap_nil, List.nil_append] at h
    rcases hr with rfl | ⟨d, tl, rfl, hd⟩
    · simp at h
    · cases x with
      | nil =>
        simp only [List.nil_append, List.cons.injEq] at h
        obtain ⟨rfl, rfl⟩ := h
        exact ⟨⟨[], '{' :: d :: tl, rfl, Or.inr ⟨d, tl, rfl, hd⟩⟩, by simp⟩
      | cons a x =>
        simp only [List.cons_append, List.cons.injEq] at h
        rw [← h.1] at h1
        simp at h1
  | cons a l ih =>
    intro rest x c y h h1 h2 hc hr
    cases x with
    | nil =>
      rw [List.nil_append] at h
      refine ⟨⟨a :: l, rest, h.symm, hr⟩, ?_⟩
      rw [escBraces_cons'] at h
      simp only [List.cons_append, List.cons.injEq] at h
      obtain ⟨rfl, h⟩ := h
      rw [if_pos hc] at h
      rw [← h]
      simp
    | cons b x =>
      rw [escBraces_cons'] at h
      simp only [List.cons_append, List.cons.injEq] at h
      obtain ⟨rfl, h⟩ := h
      simp only [List.mem_cons, not_or] at h1 h2
      rw [if_neg (by simp [Ne.symm h1.1, Ne.symm h2.1]), List.nil_append] at h
      exact ih h h1.2 h2.2 hc hr

theorem text_litThen (segs : List (Str × ScanHole)) (last : Str) {tail : Str} (stop : Stop tail)
    (hd : ∀ s ∈ segs, ∀ c ∈ s.2.idx, isDigit c = true) :
    ∃ lit rest, ScanTemplate.text ⟨segs, last⟩ ++ tail = escBraces lit ++ rest ∧
      (rest = [] ∨ ∃ d tl, rest = '{' :: d :: tl ∧ d ≠ '{') := by
  cases segs with
  | nil => exact ⟨last, tail, by rw [scanTemplate_text_nil], stop⟩
  | cons s segs =>
    obtain ⟨lit, hole⟩ := s
    rw [scanTemplate_text_cons, hole_sp_text]
    simp only [List.append_assoc, List.cons_append]
    have hb : hole.spec.isSome = false →
        (hole.sp.text ++ '}' :: (ScanTemplate.text ⟨segs, last⟩ ++ tail)).head? = some '}' := by
      intro h
      have : hole.spec = none := by cases hh : hole.spec <;> simp_all
      simp [ScanHole.sp, this, ScanSpec.text]
    obtain ⟨d, tl, hdt, hne⟩ := field_head (hd (lit, hole) (by simp)) hb
    exact ⟨lit, '{' :: d :: tl, by rw [hdt], Or.inr ⟨d, tl, rfl, hne⟩⟩

theorem safe_readUntilStr (d : Str) {r : Reader} (h : r.Inv) : Safe (readUntilStr d { keepDelimiter := true }) r := by
  cases hr : readUntilStr d { keepDelimiter := true } r with
  | ok r' a =>
    obtain ⟨rest, e1, e2, _⟩ := (readUntilStr_at (l := r.rest) ⟨h, rfl⟩ d).2.2 _ _ hr
    refine Or.inr ⟨_, _, hr, ?_⟩
    have hat : r.At (a ++ rest) := ⟨h, e1⟩
    rw [e2]
    exact hat.adv.1
  | err r' e => exact Or.inl ⟨_, _, hr⟩
  | bad b =>
    exfalso
    unfold readUntilStr at hr
    rw [readUntilPos_eq _ _ d.length r h (findStr_hyp d r)] at hr
    split_ifs at hr <;> cases hf : findStr d r.rest <;> rw [hf] at hr <;> simp at hr

theorem safe_readString {sp : ScanSpec} (fits : sp.Fits) (segs : List (Str × ScanHole)) (last : Str)
    {tail : Str} (stop : Stop tail) (hd : ∀ s ∈ segs, ∀ c ∈ s.2.idx, isDigit c = true) {r : Reader} (h : r.Inv) :
    Safe (readString sp.meaning (.ofStr (ScanTemplate.text ⟨segs, last⟩ ++ tail))) r := by
  have key : (∃ r' e, readString sp.meaning (.ofStr (ScanTemplate.text ⟨segs, last⟩ ++ tail)) r = .err r' e) ∨
      ∃ r' a, readString sp.meaning (.ofStr (ScanTemplate.text ⟨segs, last⟩ ++ tail)) r = .ok r' a := by
    obtain ⟨hw, hn⟩ := readString_at sp.meaning (at_ofStr (ScanTemplate.text ⟨segs, last⟩ ++ tail)) r
    by_cases hwid : sp.meaning.width = noWidth
    swap
    · rw [hw hwid]
      unfold readNChars
      split
      · exact Or.inr ⟨_, _, rfl⟩
      · exact Or.inl ⟨_, _, rfl⟩
    · obtain ⟨b1, b2, b3⟩ := hn hwid
      by_cases ht : ScanTemplate.text ⟨segs, last⟩ ++ tail = []
      · rw [b1 ht]; exact Or.inr ⟨_, _, rfl⟩
      · have hu : ∀ d, (∃ r' e, readUntilStr d { keepDelimiter := true } r = .err r' e) ∨
            ∃ r' a, readUntilStr d { keepDelimiter := true } r = .ok r' a := by
          intro d
          rcases safe_readUntilStr d h with h1 | ⟨r', a, h1, _⟩
          · exact Or.inl h1
          · exact Or.inr ⟨_, _, h1⟩
        rcases brace_split (ScanTemplate.text ⟨segs, last⟩ ++ tail) with ⟨g1, g2⟩ | ⟨x, c, y, hx, g1, g2, g3⟩
        · rw [b2 ht g1 g2]; exact hu _
        · rw [b3 x c y hx g1 g2 g3]
          obtain ⟨lit, rest, htx, hrest⟩ := text_litThen segs last stop hd
          obtain ⟨hlt, hy⟩ := litThen_split (by rw [← htx, hx]) g1 g2 g3 hrest
          cases y with
          | nil => exact absurd rfl hy
          | cons d y =>
            simp only
            split
            · exact hu _
            · unfold readStringComplex
              rcases complexLoop_safe hlt r.rest (c :: d :: y) 0 0 hlt with ⟨e, he⟩ | ⟨n, he⟩
              · rw [he]; exact Or.inl ⟨_, _, rfl⟩
              · rw [he]; exact Or.inr ⟨_, _, rfl⟩
  rcases key with h1 | ⟨r', a, h1⟩
  · exact Or.inl h1
  · obtain ⟨rest, e1, e2, _⟩ := readString_inv fits stop hd (l := r.rest) ⟨h, rfl⟩ h1
    refine Or.inr ⟨_, _, h1, ?_⟩
    have hat : r.At (a ++ rest) := ⟨h, e1⟩
    rw [e2]
    exact hat.adv.1

theorem safe_tyscan (ty : ScanTy) {sp : ScanSpec} (wf : sp.WellFormed)
    (fits : sp.Fits) (hal : ScanTy.Allows ty sp) (segs : List (Str × ScanHole)) (last : Str)
    {tail : Str} (stop : Stop tail) (hd : ∀ s ∈ segs, ∀ c ∈ s.2.idx, isDigit c = true) {st : Slot} (h : st.inp.Inv)
    (hty : ∀ t, ty = .int t → Safely t.upcast sp st.inp.rest) :
    SlotSafe (ty.scan sp.meaning (.ofStr (ScanTemplate.text ⟨segs, last⟩ ++ tail))) st := by
  cases ty with
  | char =>
    unfold SlotSafe
    simp only [ScanTy.scan, readCharArg]
    rcases safe_readChar h with ⟨r', e, h1⟩ | ⟨r', c, h1, h2⟩
    · rw [h1]; exact Or.inl ⟨_, _, rfl⟩
    · rw [h1]; exact Or.inr ⟨_, rfl, h2⟩
  | int t => exact safe_readInteger t wf hal h (hty t rfl)
  | string =>
    unfold SlotSafe
    simp only [ScanTy.scan, readStringArg]
    rcases safe_readString fits segs last stop hd h with ⟨r', e, h1⟩ | ⟨r', a, h1, h2⟩
    · rw [h1]; exact Or.inl ⟨_, _, rfl⟩
    · rw [h1]; exact Or.inr ⟨_, rfl, h2⟩

theorem scanSegs_safe (tys : List ScanTy) (last : Str) {tail : Str} (stop : Stop tail) :
    ∀ (segs : List (Str × ScanHole)) (i : Nat) (io : ScanIO), SegsOk tys i segs → io.inp.Inv →
      (∀ x ∈ (segs.map (·.2.sp)).zip (argsFrom i (segs.map (·.2.field))), ∀ t, tys[x.2]? = some (.int t) →
        Safely t.upcast x.1 io.inp.rest) →
      tys.length ≤ io.vars.length → ∀ b, scanSegs tys last tail i segs io ≠ .bad b := by
  intro segs
  induction segs with
  | nil =>
    intro i io _ h _ _ b
    unfold scanSegs ScanIO.onInp
    rcases matchLit_cases last h with ⟨rest, _, h1⟩ | ⟨r, e, h1, _⟩ <;> rw [h1] <;> simp
  | cons s segs ih =>
    intro i io hok h hsf hl b
    obtain ⟨lit, hole⟩ := s
    obtain ⟨⟨ty, hn, hal⟩, wf, fits, hok'⟩ := hok.cons
    unfold scanSegs
    rcases matchLit_cases lit h with ⟨rest, hat, h1⟩ | ⟨r, e, h1, _⟩
    swap
    · have : ScanIO.onInp (matchLit lit) io = .err ⟨r, io.vars⟩ e := by unfold ScanIO.onInp; rw [h1]
      rw [M.bind_err this]
      simp
    · have : ScanIO.onInp (matchLit lit) io = .ok ⟨io.inp.adv lit.length, io.vars⟩ () := by
        unfold ScanIO.onInp; rw [h1]
      rw [M.bind_ok this]
      simp only [hn, (scan_fits_pass fits).2]
      have hlt : hole.field.argument i < io.vars.length := by
        have := (List.getElem?_eq_some_iff.1 hn).1
        omega
      have hi1 := hat.adv.1
      have hrest : (io.inp.adv lit.length).rest <:+: io.inp.rest := by
        rw [hat.adv.2, hat.2]; exact (List.suffix_append _ _).isInfix
      simp only [List.map_cons, argsFrom, List.zip_cons_cons, List.mem_cons, forall_eq_or_imp] at hsf
      rcases safe_tyscan ty wf fits hal segs last
        stop hok'.digits (st := ⟨io.inp.adv lit.length, io.vars[hole.field.argument i]⟩) hi1
        (fun t ht => (hsf.1 t (by rw [← ht]; exact hn)).mono hrest) with
        ⟨sl, e, h2⟩ | ⟨sl, h2, h3⟩
      · have h4 : ScanIO.onVar (hole.field.argument i) (ty.scan hole.sp.meaning
            (.ofStr (ScanTemplate.text ⟨segs, last⟩ ++ tail))) ⟨io.inp.adv lit.length, io.vars⟩ =
            .err ⟨sl.inp, io.vars.set (hole.field.argument i) sl.var⟩ e := by
          unfold ScanIO.onVar
          simp only [List.getElem?_eq_getElem hlt, h2]
        rw [M.bind_err h4]
        simp
      · have h4 : ScanIO.onVar (hole.field.argument i) (ty.scan hole.sp.meaning
            (.ofStr (ScanTemplate.text ⟨segs, last⟩ ++ tail))) ⟨io.inp.adv lit.length, io.vars⟩ =
            .ok ⟨sl.inp, io.vars.set (hole.field.argument i) sl.var⟩ () := by
          unfold ScanIO.onVar
          simp only [List.getElem?_eq_getElem hlt, h2]
        rw [M.bind_ok h4]
        obtain ⟨piece, rest', v, e1, _, e3, _⟩ := tyscan_inv ty wf fits hal stop hok'.digits hat.adv h2
        have hat3 : (io.inp.adv lit.length).At (piece ++ rest') := by rw [← e1]; exact hat.adv
        have hin : sl.inp.rest <:+: io.inp.rest := by
          rw [e3]
          simp only
          rw [hat3.adv.2, hat.2, e1]
          exact ⟨lit ++ piece, [], by simp⟩
        exact ih (i + 1) _ hok' h3 (fun x hx t ht => (hsf.2 x hx t ht).mono hin) (by simpa using hl) b

end Emio
