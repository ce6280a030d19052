import Verif.Lemmas.ScanSpecs
/-
Reading integers.
-/
namespace Emio
open Reader Spec

/-! ### Digits -/

theorem raw_run (t : IntTy) (b : Nat) (hb : 2 ≤ b) (hb' : b ≤ 36) (neg : Bool) {r : Reader} {c : Char} {cs : Str} {d : Nat}
    (h : r.At (c :: cs)) (hc : charToDigit c b = some d) :
    parseIntRaw t b neg r = if !t.signed && neg then .err (r.adv 1) .outOfRange
      else match parseLoop t b neg cs (r.pos + 1) 0 0 d with
        | .ok p v => .ok { r with pos := p } v
        | .err p e => .err { r with pos := p } e
        | .bad b => .bad b := by
  have hvalid : isValidNumberBase (b : Int) = true := by
    unfold isValidNumberBase; simp; omega
  unfold parseIntRaw
  rw [hvalid]
  simp only [Bool.not_true, Bool.false_eq_true, if_false]
  rw [M.bind_ok h.readChar]
  simp only [Int.toNat_natCast, hc]
  by_cases hn : (!t.signed && neg) = true
  · rw [if_pos hn, if_pos hn]; rfl
  · rw [if_neg hn, if_neg hn]
    unfold parseDigits
    rw [h.adv1.2]
    rfl

theorem raw_nil (t : IntTy) (b : Nat) (hb : 2 ≤ b) (hb' : b ≤ 36) (neg : Bool) {r : Reader} (h : r.At []) :
    parseIntRaw t b neg r = .err r .eof := by
  have hvalid : isValidNumberBase (b : Int) = true := by
    unfold isValidNumberBase; simp; omega
  unfold parseIntRaw
  rw [hvalid]
  simp only [Bool.not_true, Bool.false_eq_true, if_false]
  rw [M.bind_err h.readChar_nil]

theorem raw_none (t : IntTy) (b : Nat) (hb : 2 ≤ b) (hb' : b ≤ 36) (neg : Bool) {r : Reader} {c : Char} {cs : Str}
    (h : r.At (c :: cs)) (hc : charToDigit c b = none) : parseIntRaw t b neg r = .err (r.adv 1) .invalidData := by
  have hvalid : isValidNumberBase (b : Int) = true := by
    unfold isValidNumberBase; simp; omega
  unfold parseIntRaw
  rw [hvalid]
  simp only [Bool.not_true, Bool.false_eq_true, if_false]
  rw [M.bind_ok h.readChar]
  simp only [Int.toNat_natCast, hc]
  rfl

theorem digitLike_false {b : Nat} (hb' : b ≤ 36) {c : Char} : digitLike b c = false ↔ charToDigit c b = none := by
  rw [← charToDigit_isSome c b hb']
  cases charToDigit c b <;> simp

/-- Reading a number that fits. -/
theorem raw_fwd (t : IntTy) (b : Nat) (hb : 2 ≤ b) (hb' : b ≤ 36) (neg : Bool) {r : Reader} {ds tail : Str}
    (h : r.At (ds ++ tail)) (hnum : IsNumeral b ds) (htail : ∀ c ∈ tail.head?, digitLike b c = false)
    (hfit : t.Holds (sgn neg (numeralValue b ds))) (hs : t.signed = true ∨ neg = false) :
    parseIntRaw t b neg r = .ok (r.adv ds.length) (sgn neg (numeralValue b ds)) := by
  obtain ⟨c, cs, d, rfl, hd, hall, hval⟩ := isNumeral_cases hnum
  rw [raw_run t b hb hb' neg h (charToDigit_of_symbolValue hb' hd), if_neg (by
    rcases hs with hs | hs <;> simp [hs])]
  rw [hval] at hfit ⊢
  have := parseLoop_exact t b neg hb hb' tail (fun c hc => (digitLike_false hb').1 (htail c hc)) cs (r.pos + 1) 0 d hall hfit
  have z : sgn neg 0 = 0 := by unfold sgn; cases neg <;> rfl
  rw [z, Int.zero_mul] at this
  change (match parseLoop t b neg (cs ++ tail) (r.pos + 1) 0 0 d with
    | .ok p v => Run.ok { r with pos := p } v
    | .err p e => .err { r with pos := p } e
    | .bad b => .bad b) = _
  rw [this]
  simp only [adv, List.length_cons]
  rw [Nat.add_assoc, Nat.add_comm 1]

theorem addDigit_holds {t : IntTy} {neg : Bool} {value mo v : Int} {d : Nat} (h : addDigit t neg value mo d = .ok () v) :
    t.Holds v := by
  unfold addDigit at h
  cases ha : arith t (if neg then mo - d else mo + d) with
  | none => rw [ha] at h; simp at h
  | some m =>
    rw [ha] at h
    simp only at h
    split at h
    · simp at h
    · simp at h
      subst h
      unfold arith at ha
      by_cases hs : t.signed = true
      · rw [if_pos hs] at ha
        by_cases hh : t.Holds (if neg then mo - d else mo + d)
        · rw [if_pos hh] at ha
          exact (Option.some.inj ha) ▸ hh
        · rw [if_neg hh] at ha
          simp at ha
      · rw [if_neg hs] at ha
        simp only [Option.some.injEq] at ha
        subst ha
        simp at hs
        unfold IntTy.Holds IntTy.min IntTy.max
        have hp : (0 : Int) < 2 ^ t.bits := by exact_mod_cast Nat.two_pow_pos _
        have h1 := Int.emod_nonneg (if neg then mo - (d : Int) else mo + d) (by omega : (2 : Int) ^ t.bits ≠ 0)
        have h2 := Int.emod_lt_of_pos (if neg then mo - (d : Int) else mo + d) hp
        simp only [hs, Bool.false_eq_true, if_false, Nat.cast_pow, Nat.cast_ofNat]
        omega

theorem parseLoop_holds (t : IntTy) (b : Nat) (neg : Bool) : ∀ (rest : Str) (pos : Nat) (value mo : Int) (d : Nat)
    (p : Nat) (v : Int), parseLoop t b neg rest pos value mo d = .ok p v → t.Holds v := by
  intro rest
  induction rest with
  | nil =>
    intro pos value mo d p v h
    rw [parseLoop_nil] at h
    cases ha : addDigit t neg value mo d with
    | bad b => rw [ha] at h; simp at h
    | err s e => rw [ha] at h; simp at h
    | ok s m =>
      rw [ha] at h
      simp at h
      exact h.2 ▸ addDigit_holds ha
  | cons c cs ih =>
    intro pos value mo d p v h
    rw [parseLoop] at h
    cases ha : addDigit t neg value mo d with
    | bad b => rw [ha] at h; simp at h
    | err s e => rw [ha] at h; simp at h
    | ok s m =>
      rw [ha] at h
      simp only at h
      split at h
      · simp at h
        exact h.2 ▸ addDigit_holds ha
      · simp at h
      · exact ih _ _ _ _ _ _ h

/-- What was read. -/
theorem raw_inv (t : IntTy) (b : Nat) (hb : 2 ≤ b) (hb' : b ≤ 36) (neg : Bool) {r r' : Reader} {l : Str} {v : Int}
    (h : r.At l) (hr : parseIntRaw t b neg r = .ok r' v) :
    ∃ ds tail, l = ds ++ tail ∧ ds ≠ [] ∧ (∀ c ∈ ds, digitLike b c = true) ∧ (∀ c ∈ tail.head?, digitLike b c = false) ∧
      r' = r.adv ds.length ∧ t.Holds v ∧ (t.signed = true ∨ neg = false) ∧
      (IsNumeral b ds → t.Holds (sgn neg (numeralValue b ds)) → v = sgn neg (numeralValue b ds)) := by
  cases l with
  | nil => rw [raw_nil t b hb hb' neg h] at hr; simp at hr
  | cons c cs =>
    cases hc : charToDigit c b with
    | none => rw [raw_none t b hb hb' neg h hc] at hr; simp at hr
    | some d =>
      have hr0 := hr
      rw [raw_run t b hb hb' neg h hc] at hr
      split at hr
      · simp at hr
      · rename_i hn
        cases hl : parseLoop t b neg cs (r.pos + 1) 0 0 d with
        | bad b => rw [hl] at hr; simp at hr
        | err p e => rw [hl] at hr; simp at hr
        | ok p w =>
          rw [hl] at hr
          obtain ⟨rfl, rfl⟩ := ok_inj hr
          have hp := parseLoop_pos t b neg _ _ _ _ _ _ _ hl
          have hsplit := (List.takeWhile_append_dropWhile (p := fun c => (charToDigit c b).isSome) (l := cs)).symm
          have hs : t.signed = true ∨ neg = false := by
            clear hsplit
            revert hn
            cases t.signed <;> cases neg <;> simp
          have hdl : ∀ x ∈ (cs.dropWhile fun c => (charToDigit c b).isSome).head?, digitLike b x = false := by
            intro x hx
            have := List.head?_dropWhile_not (fun c => (charToDigit c b).isSome) cs
            rw [Option.mem_def.1 hx] at this
            rw [digitLike_false hb']
            simpa using this
          refine ⟨c :: cs.takeWhile (fun c => (charToDigit c b).isSome),
            cs.dropWhile (fun c => (charToDigit c b).isSome), by rw [List.cons_append, ← hsplit], List.cons_ne_nil _ _, ?_, hdl, ?_, parseLoop_holds _ _ _ _ _ _ _ _ _ _ hl, hs, ?_⟩
          · intro x hx
            rw [← charToDigit_isSome x b hb']
            simp only [List.mem_cons] at hx
            rcases hx with rfl | hx
            · simp [hc]
            · exact (List.mem_takeWhile_imp (p := fun c => (charToDigit c b).isSome) hx)
          · rw [hp]
            simp only [adv, List.length_cons]
            rw [Nat.add_assoc, Nat.add_comm 1]
          · intro hnum hfit
            rw [hsplit, ← List.cons_append] at h
            rw [raw_fwd t b hb hb' neg h hnum hdl hfit hs] at hr0
            exact (ok_inj hr0).2.symm

/-! ### Bases -/

theorem scan_type_none {sp : ScanSpec} (wf : sp.WellFormed) : sp.meaning.type = noChar ↔ sp.type = none := by
  unfold ScanSpec.meaning
  cases ht : sp.type with
  | none => simp [noChar]
  | some c =>
    simp only [Option.getD_some, reduceCtorEq, iff_false]
    rintro rfl
    have := wf.type noChar (by simp [ht])
    revert this
    decide

theorem scan_type_some {sp : ScanSpec} (c : Char) (hc : c ≠ noChar) :
    sp.meaning.type = c ↔ sp.type = some c := by
  unfold ScanSpec.meaning
  cases ht : sp.type with
  | none =>
    simp only [Option.getD_none, reduceCtorEq, iff_false]
    exact fun h => hc h.symm
  | some x => simp

/-- The bases of the types an integer allows. -/
theorem getBase_eq {sp : ScanSpec} (hal : ∀ c ∈ sp.type, c ∈ ['b', 'd', 'o', 'x']) :
    getBase sp.meaning.type = some (typeBase sp.type) ∧ typeBase sp.type ∈ [2, 8, 10, 16] := by
  have e : sp.meaning.type = sp.type.getD (Char.ofNat 0) := rfl
  rw [e]
  cases ht : sp.type with
  | none => exact ⟨by decide, by decide⟩
  | some c =>
    have := hal c (by simp [ht])
    simp at this
    rcases this with rfl | rfl | rfl | rfl <;> exact ⟨by decide, by decide⟩

theorem marks_mem {b : Nat} {m : Str} : m ∈ marks b ↔
    (b = 2 ∧ (m = ['0', 'b'] ∨ m = ['0', 'B'])) ∨ (b = 8 ∧ m = ['0']) ∨ (b = 16 ∧ (m = ['0', 'x'] ∨ m = ['0', 'X'])) ∨
    (b ≠ 2 ∧ b ≠ 8 ∧ b ≠ 16 ∧ m = []) := by
  unfold marks
  by_cases h2 : b = 2
  · subst h2; simp
  · by_cases h8 : b = 8
    · subst h8; simp
    · by_cases h16 : b = 16
      · subst h16; simp
      · simp [h2, h8, h16]

theorem disallow_fwd {r : Reader} {c : Char} {l : Str} (h : r.At (c :: l)) (hc : c ≠ '+' ∧ c ≠ '-') :
    disallowSign r = .ok r () := by
  unfold disallowSign
  rw [M.bind_ok h.peek, if_neg (by simp [hc])]
  rfl

theorem disallow_inv {r r' : Reader} {u : Unit} (hi : r.Inv) (h : disallowSign r = .ok r' u) : r' = r := by
  unfold disallowSign at h
  obtain ⟨r1, c, h1, h2⟩ := bind_ok_inv h
  obtain ⟨rfl, _⟩ := peek_ok_inv hi h1
  clear h
  rename' h2 => h
  split at h
  · simp at h
  · rw [M.pure_run] at h
    exact (ok_inj h).1.symm

theorem readIfMatchChar_at {r : Reader} {c : Char} {l : Str} (h : r.At (c :: l)) (x : Char) :
    readIfMatchChar x r = if c = x then .ok (r.adv 1) x else .err r .invalidData := by
  rw [C06_read_if_match_char x r h.1, h.2]
  rfl

theorem readIfMatchChar_nil {r : Reader} (h : r.At []) (x : Char) : readIfMatchChar x r = .err r .eof := by
  rw [C06_read_if_match_char x r h.1, h.2]

/-- The mark required with `#`. -/
theorem scan_mark_inv {b : Nat} (hb : b = 2 ∨ b = 8 ∨ b = 16) {r r' : Reader} {l : Str} {u : Unit} (h : r.At l)
    (hp : parseAlternateForm b r = .ok r' u) : ∃ mark tail, mark ∈ marks b ∧ l = mark ++ tail ∧ r' = r.adv mark.length := by
  unfold parseAlternateForm at hp
  cases l with
  | nil => rw [M.bind_err (readIfMatchChar_nil h _)] at hp; simp at hp
  | cons c l =>
    have hm := readIfMatchChar_at h '0'
    by_cases hc : c = '0'
    · subst hc
      rw [if_pos rfl] at hm
      rw [M.bind_ok hm] at hp
      by_cases h8 : b = 8
      · subst h8
        rw [if_pos rfl] at hp
        refine ⟨['0'], l, by simp [marks], rfl, (ok_inj hp).1.symm⟩
      · rw [if_neg h8] at hp
        obtain ⟨r2, x, h2, hp⟩ := bind_ok_inv hp
        obtain ⟨l', rfl, rfl⟩ := readChar_at h.adv1 h2
        by_cases hb2 : b = 2
        · subst hb2
          rw [if_pos rfl] at hp
          split at hp
          · rename_i hx
            refine ⟨['0', x], l', ?_, rfl, ?_⟩
            · rcases hx with rfl | rfl <;> simp [marks]
            · rw [← (ok_inj hp).1, adv_adv]; rfl
          · simp at hp
        · have hb16 : b = 16 := by omega
          subst hb16
          rw [if_neg (by decide)] at hp
          split at hp
          · rename_i hx
            refine ⟨['0', x], l', ?_, rfl, ?_⟩
            · rcases hx with rfl | rfl <;> simp [marks]
            · rw [← (ok_inj hp).1, adv_adv]; rfl
          · simp at hp
    · rw [if_neg hc] at hm
      rw [M.bind_err hm] at hp
      simp at hp

theorem scan_mark_fwd {b : Nat} (hb : b = 2 ∨ b = 8 ∨ b = 16) {r : Reader} {mark tail : Str} (hm : mark ∈ marks b)
    (h : r.At (mark ++ tail)) : parseAlternateForm b r = .ok (r.adv mark.length) () := by
  unfold parseAlternateForm
  rw [marks_mem] at hm
  rcases hm with ⟨rfl, rfl | rfl⟩ | ⟨rfl, rfl⟩ | ⟨rfl, rfl | rfl⟩ | ⟨h1, h2, h3, _⟩
  · rw [M.bind_ok (a := '0') (readIfMatchChar_at h '0'), if_neg (by decide), M.bind_ok h.adv1.readChar, if_pos rfl, if_pos (by simp)]
    rfl
  · rw [M.bind_ok (a := '0') (readIfMatchChar_at h '0'), if_neg (by decide), M.bind_ok h.adv1.readChar, if_pos rfl, if_pos (by simp)]
    rfl
  · rw [M.bind_ok (a := '0') (readIfMatchChar_at h '0'), if_pos rfl]
    rfl
  · rw [M.bind_ok (a := '0') (readIfMatchChar_at h '0'), if_neg (by decide), M.bind_ok h.adv1.readChar, if_neg (by decide), if_pos (by simp)]
    rfl
  · rw [M.bind_ok (a := '0') (readIfMatchChar_at h '0'), if_neg (by decide), M.bind_ok h.adv1.readChar, if_neg (by decide), if_pos (by simp)]
    rfl
  · omega

theorem det_nil {r : Reader} (h : r.At []) : determineBase r = .err () .eof := by
  unfold determineBase
  rw [h.readChar_nil]

theorem det_zero {r : Reader} {c : Char} {l : Str} (h : r.At ('0' :: c :: l)) :
    determineBase r = .ok () (if c = 'b' ∨ c = 'B' then 2 else if c = 'x' ∨ c = 'X' then 16 else 8) := by
  unfold determineBase
  rw [h.readChar]
  simp only [ne_eq, not_true_eq_false, if_false]
  rw [h.adv1.readChar]
  simp only
  split_ifs <;> rfl

theorem det_ten {r : Reader} {c : Char} {l : Str} (h : r.At (c :: l)) (hc : c ≠ '0' ∨ l = []) :
    determineBase r = .ok () 10 := by
  unfold determineBase
  rw [h.readChar]
  by_cases hz : c = '0'
  · subst hz
    rcases hc with hc | rfl
    · exact absurd rfl hc
    · simp only [ne_eq, not_true_eq_false, if_false]
      rw [h.adv1.readChar_nil]
  · simp only [ne_eq, hz, not_false_eq_true, if_true]

theorem pop_at {r : Reader} {a b : Str} (h : r.At (a ++ b)) {n : Nat} (hn : a.length = n) : r.pop n = r.adv n := by
  subst hn; exact h.pop

theorem base_mem {sp : ScanSpec} (hal : ∀ c ∈ sp.type, c ∈ ['b', 'd', 'o', 'x']) {b : Nat} {mark : Str}
    (h : sp.Base b mark) : b = 2 ∨ b = 8 ∨ b = 10 ∨ b = 16 := by
  unfold ScanSpec.Base at h
  split at h
  · simpa using h.1
  · rw [h.1]; simpa using (getBase_eq hal).2

/-- The base of a number and its mark, read. -/
theorem scanBase_inv {sp : ScanSpec} (wf : sp.WellFormed) (hal : ∀ c ∈ sp.type, c ∈ ['b', 'd', 'o', 'x'])
    {r r' : Reader} {l : Str} {b : Nat} (h : r.At l) (hb : scanBase sp.meaning r = .ok r' b) :
    ∃ mark tail, sp.Base b mark ∧ l = mark ++ tail ∧ r' = r.adv mark.length := by
  have ha : sp.meaning.alternateForm = sp.alt := rfl
  unfold scanBase at hb
  unfold ScanSpec.Base
  by_cases hauto : sp.type = none ∧ sp.alt = true
  · rw [if_pos ⟨(scan_type_none wf).2 hauto.1, hauto.2⟩, M.bind_ok (M.get_run _)] at hb
    simp only [if_pos hauto]
    have ten : determineBase r = .ok () 10 → r' = r ∧ b = 10 := by
      intro hd
      rw [hd] at hb
      simp only [ne_eq, not_true_eq_false, if_false] at hb
      obtain ⟨rfl, rfl⟩ := ok_inj hb
      exact ⟨rfl, rfl⟩
    cases l with
    | nil => rw [det_nil h] at hb; simp at hb
    | cons c l =>
      by_cases hc : c ≠ '0' ∨ l = []
      · obtain ⟨rfl, rfl⟩ := ten (det_ten h hc)
        exact ⟨[], c :: l, ⟨by simp, by simp [marks]⟩, rfl, rfl⟩
      · push Not at hc
        obtain ⟨rfl, hl⟩ := hc
        cases l with
        | nil => exact absurd rfl hl
        | cons c l =>
          rw [det_zero h] at hb
          have hbase : (if c = 'b' ∨ c = 'B' then 2 else if c = 'x' ∨ c = 'X' then 16 else 8) ≠ 10 := by
            split_ifs <;> decide
          simp only at hb
          rw [if_pos hbase, M.bind_ok (M.modify_run _ _)] at hb
          obtain ⟨r2, u, h3, hb⟩ := bind_ok_inv hb
          by_cases h8 : (if c = 'b' ∨ c = 'B' then 2 else if c = 'x' ∨ c = 'X' then 16 else 8) = 8
          · rw [if_pos h8, pop_at (n := 1) (a := ['0']) (b := c :: l) h rfl] at h3
            obtain rfl := disallow_inv h.adv1.1 h3
            obtain ⟨rfl, rfl⟩ := ok_inj hb
            exact ⟨['0'], c :: l, ⟨by simp [h8], by simp [marks, h8]⟩, rfl, rfl⟩
          · rw [if_neg h8, pop_at (n := 2) (a := ['0', c]) (b := l) h rfl] at h3
            have hat : (r.adv 2).At l := At.adv (a := ['0', c]) h
            obtain rfl := disallow_inv hat.1 h3
            obtain ⟨rfl, rfl⟩ := ok_inj hb
            refine ⟨['0', c], l, ?_, rfl, rfl⟩
            by_cases h2 : c = 'b' ∨ c = 'B'
            · rw [if_pos h2]
              rcases h2 with rfl | rfl <;> simp [marks]
            · rw [if_neg h2]
              by_cases h16 : c = 'x' ∨ c = 'X'
              · rw [if_pos h16]
                rcases h16 with rfl | rfl <;> simp [marks]
              · rw [if_neg h2, if_neg h16] at h8
                exact absurd rfl h8
  · rw [if_neg (fun hh => hauto ⟨(scan_type_none wf).1 hh.1, hh.2⟩), (getBase_eq hal).1] at hb
    simp only [if_neg hauto]
    have hmem := (getBase_eq hal).2
    simp only at hb
    by_cases hc : sp.alt = true ∧ typeBase sp.type ≠ 10
    · rw [ha, if_pos hc] at hb
      obtain ⟨r2, u, h2, hb⟩ := bind_ok_inv hb
      obtain ⟨mark, tail, hm, rfl, rfl⟩ := scan_mark_inv (by simp at hmem; omega) h h2
      obtain ⟨r3, u, h3, hb⟩ := bind_ok_inv hb
      obtain rfl := disallow_inv h.adv.1 h3
      obtain ⟨rfl, rfl⟩ := ok_inj hb
      exact ⟨mark, tail, ⟨rfl, by rw [if_pos hc.1]; exact hm⟩, rfl, rfl⟩
    · rw [ha, if_neg hc] at hb
      obtain ⟨rfl, rfl⟩ := ok_inj hb
      refine ⟨[], l, ⟨rfl, ?_⟩, rfl, rfl⟩
      split
      · rename_i halt
        have : typeBase sp.type = 10 := by
          by_contra hne; exact hc ⟨halt, hne⟩
        rw [this]
        simp [marks]
      · rfl

/-- What is ambiguous without a type: a decimal number must not begin with a zero, unless nothing follows. -/
def Plain10 (sp : ScanSpec) (b : Nat) (ds tail : Str) : Prop :=
  sp.type = none → sp.alt = true → b = 10 → ds.head? ≠ some '0' ∨ (ds = ['0'] ∧ tail = [])

theorem numeral_head {b : Nat} {c : Char} (h : (symbolValue b c).isSome) : c ≠ '+' ∧ c ≠ '-' := by
  constructor <;> rintro rfl
  · have : symbolValue b '+' = none := by unfold symbolValue; simp
    rw [this] at h; cases h
  · have : symbolValue b '-' = none := by unfold symbolValue; simp
    rw [this] at h; cases h

theorem symbol8 {c : Char} (h : (symbolValue 8 c).isSome) : ¬ (c = 'b' ∨ c = 'B') ∧ ¬ (c = 'x' ∨ c = 'X') := by
  refine ⟨?_, ?_⟩ <;> rintro (rfl | rfl) <;> revert h <;> decide

theorem scanBase_fwd {sp : ScanSpec} (wf : sp.WellFormed) (hal : ∀ c ∈ sp.type, c ∈ ['b', 'd', 'o', 'x'])
    {r : Reader} {b : Nat} {mark ds tail : Str} (hbase : sp.Base b mark) (h : r.At (mark ++ (ds ++ tail)))
    (hds : IsNumeral b ds) (hp : Plain10 sp b ds tail) : scanBase sp.meaning r = .ok (r.adv mark.length) b := by
  have ha : sp.meaning.alternateForm = sp.alt := rfl
  obtain ⟨hne, hall⟩ := hds
  obtain ⟨d, ds', rfl⟩ : ∃ d ds', ds = d :: ds' := by
    cases ds with
    | nil => exact absurd rfl hne
    | cons d ds => exact ⟨d, ds, rfl⟩
  have hd := hall d (by simp)
  have hat := h.adv
  have hdis : disallowSign (r.adv mark.length) = .ok (r.adv mark.length) () := disallow_fwd hat (numeral_head hd)
  unfold ScanSpec.Base at hbase
  unfold scanBase
  by_cases hauto : sp.type = none ∧ sp.alt = true
  · rw [if_pos ⟨(scan_type_none wf).2 hauto.1, hauto.2⟩, M.bind_ok (M.get_run _)]
    rw [if_pos hauto] at hbase
    obtain ⟨hb, hm⟩ := hbase
    have key : ∀ (c : Char) (l : Str), mark ++ (d :: ds' ++ tail) = '0' :: c :: l → b ≠ 10 →
        (if c = 'b' ∨ c = 'B' then 2 else if c = 'x' ∨ c = 'X' then 16 else 8) = b →
        mark.length = (if b = 8 then 1 else 2) → (match determineBase r with
          | .bad b => M.bad b
          | .err _ e => M.throw e
          | .ok _ base =>
            if base ≠ 10 then do
              M.modify (fun x : Reader => x.pop (if base = 8 then 1 else 2))
              disallowSign
              return base
            else return base) r = .ok (r.adv mark.length) b := by
      intro c l hcl hb10 hbb hlen
      have h' := h
      rw [hcl] at h'
      rw [det_zero h', hbb]
      simp only
      rw [if_pos hb10, M.bind_ok (M.modify_run _ _), pop_at h hlen, ← hlen, M.bind_ok hdis]
      rfl
    rw [marks_mem] at hm
    rcases hm with ⟨rfl, rfl | rfl⟩ | ⟨rfl, rfl⟩ | ⟨rfl, rfl | rfl⟩ | ⟨h1, h2, h3, rfl⟩
    · exact key 'b' _ rfl (by decide) (by decide) rfl
    · exact key 'B' _ rfl (by decide) (by decide) rfl
    · exact key d _ rfl (by decide) (by rw [if_neg (symbol8 hd).1, if_neg (symbol8 hd).2]) rfl
    · exact key 'x' _ rfl (by decide) (by decide) rfl
    · exact key 'X' _ rfl (by decide) (by decide) rfl
    · have hb10 : b = 10 := by simp at hb; omega
      subst hb10
      have hdet : determineBase r = .ok () 10 := by
        refine det_ten h ?_
        rcases hp hauto.1 hauto.2 rfl with hz | ⟨hz, rfl⟩
        · exact Or.inl (by simpa using hz)
        · simp at hz
          exact Or.inr (by simp [hz.2])
      rw [hdet]
      simp only [ne_eq, not_true_eq_false, if_false]
      rfl
  · rw [if_neg (fun hh => hauto ⟨(scan_type_none wf).1 hh.1, hh.2⟩), (getBase_eq hal).1]
    rw [if_neg hauto] at hbase
    obtain ⟨rfl, hm⟩ := hbase
    have hmem := (getBase_eq hal).2
    simp only
    by_cases hc : sp.alt = true ∧ typeBase sp.type ≠ 10
    · rw [if_pos hc.1] at hm
      rw [ha, if_pos hc, M.bind_ok (scan_mark_fwd (by simp at hmem; omega) hm h), M.bind_ok hdis]
      rfl
    · rw [ha, if_neg hc]
      have : mark = [] := by
        split at hm
        · rename_i halt
          have : typeBase sp.type = 10 := by
            by_contra hne; exact hc ⟨halt, hne⟩
          rw [this] at hm
          simpa [marks] using hm
        · exact hm
      subst this
      rfl

/-! ### Numbers -/

theorem sign_value {sg : Sign} (n : Nat) : sgn (isMinus sg) n = sg.apply n := sgn_apply sg n

/-- What reading a number means. -/
structure NumberRead (t : IntTy) (sp : ScanSpec) (n : Number) (v : Int) (tail : Str) : Prop where
  base : sp.Base n.base n.mark
  nonempty : n.digits ≠ []
  digits : ∀ c ∈ n.digits, digitLike n.base c = true
  next : ∀ c ∈ tail.head?, digitLike n.base c = false
  holds : t.Holds v
  exact : IsNumeral n.base n.digits → t.Holds n.value → v = n.value

theorem scanNumber_inv (t : IntTy) {sp : ScanSpec} (wf : sp.WellFormed) (hal : ∀ c ∈ sp.type, c ∈ ['b', 'd', 'o', 'x'])
    {r r' : Reader} {l : Str} {v : Int} (h : r.At l) (hr : scanNumber t sp.meaning r = .ok r' v) :
    ∃ (n : Number) (tail : Str), l = n.text ++ tail ∧ NumberRead t sp n v tail ∧ r' = r.adv n.text.length := by
  unfold scanNumber at hr
  obtain ⟨r1, neg, h1, hr⟩ := bind_ok_inv hr
  obtain ⟨sg, l1, hl1, hn, rfl⟩ : ∃ (sg : Sign) (l1 : Str), l = sg.text ++ l1 ∧ neg = isMinus sg ∧ r1 = r.adv sg.text.length := by
    rcases sign_cases l with ⟨sg, rfl⟩ | ⟨sg, c, cs, rfl, hc⟩
    · cases sg with
      | none =>
        unfold parseSign at h1
        rw [M.bind_err h.peek_nil] at h1
        simp at h1
      | plus =>
        unfold parseSign at h1
        have hh : r.At ('+' :: []) := h
        rw [M.bind_ok hh.peek, if_pos rfl, M.bind_ok (M.modify_run _ _), hh.pop1] at h1
        obtain ⟨rfl, rfl⟩ := ok_inj h1
        exact ⟨.plus, [], rfl, rfl, rfl⟩
      | minus =>
        unfold parseSign at h1
        have hh : r.At ('-' :: []) := h
        rw [M.bind_ok hh.peek, if_neg (by decide), if_pos rfl, M.bind_ok (M.modify_run _ _), hh.pop1] at h1
        obtain ⟨rfl, rfl⟩ := ok_inj h1
        exact ⟨.minus, [], rfl, rfl, rfl⟩
    · rw [parseSign_eq r h.1 sg c cs h.2 hc] at h1
      obtain ⟨rfl, rfl⟩ := ok_inj h1
      exact ⟨sg, c :: cs, rfl, rfl, rfl⟩
  subst hl1 hn
  obtain ⟨r2, b, h2, hr⟩ := bind_ok_inv hr
  obtain ⟨mark, l2, hb, rfl, rfl⟩ := scanBase_inv wf hal h.adv h2
  have hb2 : 2 ≤ b ∧ b ≤ 36 := by have := base_mem hal hb; omega
  obtain ⟨ds, tail, rfl, e1, e2, e3, rfl, e5, _, e6⟩ := raw_inv t b hb2.1 hb2.2 _ h.adv.adv hr
  refine ⟨⟨sg, mark, b, ds⟩, tail, by simp [Number.text], ⟨hb, e1, e2, e3, e5, ?_⟩, ?_⟩
  · intro hn hf
    unfold Number.value at hf ⊢
    simp only at hf hn ⊢
    rw [← sgn_apply] at hf ⊢
    exact e6 hn hf
  · simp only [adv_adv, Number.text, List.length_append]

theorem scanNumber_raw (t : IntTy) {sp : ScanSpec} (wf : sp.WellFormed) (hal : ∀ c ∈ sp.type, c ∈ ['b', 'd', 'o', 'x'])
    {r : Reader} {n : Number} {tail : Str} (h : r.At (n.text ++ tail)) (hbase : sp.Base n.base n.mark)
    (hds : IsNumeral n.base n.digits) (hp : Plain10 sp n.base n.digits tail) :
    scanNumber t sp.meaning r = parseIntRaw t n.base (isMinus n.sign) (r.adv (n.sign.text ++ n.mark).length) ∧
      (r.adv (n.sign.text ++ n.mark).length).At (n.digits ++ tail) := by
  obtain ⟨sg, mark, b, ds⟩ := n
  simp only [Number.text, List.append_assoc] at *
  obtain ⟨c, cs, hcs, hc⟩ : ∃ c cs, mark ++ (ds ++ tail) = c :: cs ∧ (c ≠ '+' ∧ c ≠ '-') := by
    have hm : mark = [] ∨ ∃ m, mark = '0' :: m := by
      unfold ScanSpec.Base at hbase
      have hmm : mark = [] ∨ mark ∈ marks b := by
        split at hbase
        · exact Or.inr hbase.2
        · split at hbase
          · exact Or.inr hbase.2
          · exact Or.inl hbase.2
      rcases hmm with hmm | hmm
      · exact Or.inl hmm
      · rw [marks_mem] at hmm
        rcases hmm with ⟨_, rfl | rfl⟩ | ⟨_, rfl⟩ | ⟨_, rfl | rfl⟩ | ⟨_, _, _, rfl⟩ <;> simp
    rcases hm with rfl | ⟨m, rfl⟩
    · cases ds with
      | nil => exact absurd rfl hds.1
      | cons d ds => exact ⟨d, ds ++ tail, rfl, numeral_head (hds.2 d (by simp))⟩
    · exact ⟨'0', _, rfl, by decide⟩
  unfold scanNumber
  have hsign : parseSign r = .ok (r.adv sg.text.length) (isMinus sg) := by
    rw [hcs] at h
    exact parseSign_eq r h.1 sg c cs h.2 (fun _ => hc)
  rw [M.bind_ok hsign, M.bind_ok (scanBase_fwd wf hal hbase h.adv hds hp), List.length_append, ← adv_adv]
  exact ⟨rfl, h.adv.adv⟩

theorem scanNumber_fwd (t : IntTy) {sp : ScanSpec} (wf : sp.WellFormed) (hal : ∀ c ∈ sp.type, c ∈ ['b', 'd', 'o', 'x'])
    {r : Reader} {n : Number} {tail : Str} (h : r.At (n.text ++ tail)) (hbase : sp.Base n.base n.mark)
    (hds : IsNumeral n.base n.digits) (hp : Plain10 sp n.base n.digits tail)
    (htail : ∀ c ∈ tail.head?, digitLike n.base c = false) (hfit : t.Holds n.value)
    (hs : t.signed = true ∨ n.sign ≠ .minus) :
    scanNumber t sp.meaning r = .ok (r.adv n.text.length) n.value := by
  have hb2 : 2 ≤ n.base ∧ n.base ≤ 36 := by have := base_mem hal hbase; omega
  obtain ⟨h1, h2⟩ := scanNumber_raw t wf hal h hbase hds hp
  unfold Number.value at hfit ⊢
  rw [h1]
  rw [← sgn_apply] at hfit ⊢
  rw [raw_fwd t n.base hb2.1 hb2.2 _ h2 hds htail hfit (by
    rcases hs with hs | hs
    · exact Or.inl hs
    · right; cases hn : n.sign <;> simp_all [isMinus])]
  simp [adv_adv, Number.text]
  congr 1
  omega

/-- Unsigned numbers beyond a bound that is small compared with the type. -/
theorem scanNumber_big (t : IntTy) (ht : t.signed = false) (m : Nat) (hm : 36 * m + 36 < 2 ^ t.bits) {sp : ScanSpec}
    (wf : sp.WellFormed) (hal : ∀ c ∈ sp.type, c ∈ ['b', 'd', 'o', 'x']) {r : Reader} {n : Number} {tail : Str}
    (h : r.At (n.text ++ tail)) (hbase : sp.Base n.base n.mark) (hds : IsNumeral n.base n.digits)
    (hp : Plain10 sp n.base n.digits tail) (hbig : n.sign = .minus ∨ m < numeralValue n.base n.digits) :
    (∃ r', scanNumber t sp.meaning r = .err r' .outOfRange) ∨
    ∃ r' v, scanNumber t sp.meaning r = .ok r' v ∧ (m : Int) < v := by
  have hb2 : 2 ≤ n.base ∧ n.base ≤ 36 := by have := base_mem hal hbase; omega
  obtain ⟨h1, h2⟩ := scanNumber_raw t wf hal h hbase hds hp
  rw [h1]
  obtain ⟨c, cs, d, hcs, hd, hall, hval⟩ := isNumeral_cases hds
  rw [hcs, List.cons_append] at h2
  rw [raw_run t n.base hb2.1 hb2.2 _ h2 (charToDigit_of_symbolValue hb2.2 hd)]
  by_cases hmin : n.sign = .minus
  · left
    rw [if_pos (by simp [ht, hmin, isMinus])]
    exact ⟨_, rfl⟩
  · have hmn : isMinus n.sign = false := by cases hn : n.sign <;> simp_all [isMinus]
    rw [hmn, if_neg (by simp)]
    have hb : m < cont n.base (0 * n.base + d) (cs.filterMap (symbolValue n.base)) := by
      rcases hbig with hbig | hbig
      · exact absurd hbig hmin
      · rwa [hval] at hbig
    rcases parseLoop_narrow t n.base ht hb2.1 hb2.2 m hm tail cs
      ((r.adv (n.sign.text ++ n.mark).length).pos + 1) 0 d hall (by omega) (symbolValue_lt hd) hb with
      ⟨p, g⟩ | ⟨p, v, g, hv⟩
    · left
      simp only [Int.natCast_zero, Int.zero_mul] at g
      rw [g]
      exact ⟨_, rfl⟩
    · right
      simp only [Int.natCast_zero, Int.zero_mul] at g
      rw [g]
      exact ⟨_, v, rfl, hv⟩

theorem toSize_nat (w : Nat) (h : w < 2 ^ 31) : toSize (w : Int) = w := by
  unfold toSize
  have : ((2 : Int) ^ 64) = 18446744073709551616 := by norm_num
  rw [this, Int.emod_eq_of_lt (by omega) (by omega)]
  simp

theorem scanWidth_none {sp : ScanSpec} (h : sp.size = none) : sp.meaning.width = noWidth := by
  unfold ScanSpec.meaning
  simp only [h]
  rfl

theorem scanWidth_some {sp : ScanSpec} {w : Nat} (h : sp.size = some w) : sp.meaning.width = w ∧ sp.meaning.width ≠ noWidth := by
  unfold ScanSpec.meaning
  simp only [h]
  exact ⟨trivial, by unfold noWidth; omega⟩

/-- Integers of 32 and 64 bit: what a successful scan did. -/
theorem readInt_inv (t : IntTy) {sp : ScanSpec} (wf : sp.WellFormed) (fits : sp.Fits)
    (hal : ∀ c ∈ sp.type, c ∈ ['b', 'd', 'o', 'x']) {st st' : Slot} {l : Str} {u : Unit} (h : st.inp.At l)
    (hr : readInt t sp.meaning st = .ok st' u) :
    ∃ (n : Number) (tail : Str) (v : Int), l = n.text ++ tail ∧ (∀ w ∈ sp.size, n.text.length = w) ∧
      NumberRead t sp n v (if sp.size = none then tail else []) ∧ st' = ⟨st.inp.adv n.text.length, .int v⟩ := by
  unfold readInt scanWindow at hr
  cases hw : sp.size with
  | none =>
    rw [if_neg (by rw [scanWidth_none hw]; simp)] at hr
    simp only at hr
    cases hs : scanNumber t sp.meaning st.inp with
    | bad b => rw [hs] at hr; simp at hr
    | err r e => rw [hs] at hr; simp at hr
    | ok r v =>
      rw [hs] at hr
      simp only [scanWidth_none hw] at hr
      rw [if_neg (by simp)] at hr
      obtain ⟨rfl, _⟩ := ok_inj hr
      obtain ⟨n, tail, hl, hn, rfl⟩ := scanNumber_inv t wf hal h hs
      exact ⟨n, tail, v, hl, by simp, by simpa using hn, rfl⟩
  | some w =>
    obtain ⟨hw1, hw2⟩ := scanWidth_some hw
    have hlt := fits w (by simp [hw])
    rw [if_pos hw2, hw1, toSize_nat w hlt.2] at hr
    split at hr
    · simp at hr
    · simp at hr
    · rename_i r hwin
      split at hwin
      · simp at hwin
      · rename_i hcnt
        simp at hwin
        subst hwin
        have hlen : w ≤ l.length := by
          have := st.inp.rest_length
          rw [h.2] at this
          unfold cntRemaining at hcnt
          omega
        rw [h.2] at hr
        have hat := Reader.at_ofStr (l.take w)
        split at hr
        · simp at hr
        · simp at hr
        · rename_i r v hs
          simp only [← hw1, if_pos hw2] at hr
          obtain ⟨n, tail, hl, hn, rfl⟩ := scanNumber_inv t wf hal hat hs
          split at hr
          · simp at hr
          · rename_i heof
            obtain ⟨rfl, _⟩ := ok_inj hr
            have htail : tail = [] := by
              rw [hl] at hat
              have hp := hat.adv.pos
              simp only [Reader.eof, Bool.not_eq_true', beq_eq_false_iff_ne, ne_eq, not_not, adv, ofStr] at heof
              simp only [adv, ofStr] at hp
              have : tail.length = 0 := by
                rw [hl] at heof
                simp only [List.length_append] at hp heof
                omega
              exact List.length_eq_zero_iff.1 this
            subst htail
            rw [List.append_nil] at hl
            have hnl : n.text.length = w := by
              have := congrArg List.length hl
              rw [List.length_take] at this
              omega
            refine ⟨n, l.drop w, v, by rw [← hl, List.take_append_drop], by simpa [hw] using hnl, by simpa using hn, ?_⟩
            rw [hnl]
            have h' : st.inp.At (l.take w ++ l.drop w) := by rw [List.take_append_drop]; exact h
            rw [pop_at h' (by rw [List.length_take]; omega)]

theorem readInt_fwd (t : IntTy) {sp : ScanSpec} (wf : sp.WellFormed) (fits : sp.Fits)
    (hal : ∀ c ∈ sp.type, c ∈ ['b', 'd', 'o', 'x']) {st : Slot} {n : Number} {tail : Str} (h : st.inp.At (n.text ++ tail))
    (hw : ∀ w ∈ sp.size, n.text.length = w) (hbase : sp.Base n.base n.mark)
    (hds : IsNumeral n.base n.digits) (hp : Plain10 sp n.base n.digits (if sp.size = none then tail else []))
    (htail : sp.size = none → ∀ c ∈ tail.head?, digitLike n.base c = false) (hfit : t.Holds n.value)
    (hs : t.signed = true ∨ n.sign ≠ .minus) :
    readInt t sp.meaning st = .ok ⟨st.inp.adv n.text.length, .int n.value⟩ () := by
  unfold readInt scanWindow
  cases hsz : sp.size with
  | none =>
    rw [if_neg (by rw [scanWidth_none hsz]; simp)]
    simp only [hsz, if_true] at hp
    simp only [scanNumber_fwd t wf hal h hbase hds hp (htail hsz) hfit hs, scanWidth_none hsz]
    rw [if_neg (by simp)]
  | some w =>
    obtain ⟨hw1, hw2⟩ := scanWidth_some hsz
    have hlt := fits w (by simp [hsz])
    have hnl := hw w (by simp [hsz])
    simp only [hsz, reduceCtorEq, if_false] at hp
    rw [if_pos hw2, hw1, toSize_nat w hlt.2, if_neg ?_]
    · simp only
      have ht : st.inp.rest.take w = n.text ++ [] := by
        rw [h.2, ← hnl]; simp
      have hat : (ofStr (n.text ++ [])).At (n.text ++ []) := Reader.at_ofStr _
      rw [ht]
      simp only [scanNumber_fwd t wf hal hat hbase hds hp (by simp) hfit hs]
      rw [if_pos (by rw [← hw1]; exact hw2), if_neg ?_, pop_at h hnl, hnl]
      simp [Reader.eof, adv, ofStr]
    · have := st.inp.rest_length
      rw [h.2] at this
      simp at this
      unfold cntRemaining
      omega

theorem upcast_upcast (t : IntTy) : t.upcast.upcast = t.upcast := by
  unfold IntTy.upcast
  simp only
  by_cases h : t.bits ≤ 32 <;> simp [h]

/-- Integers of any type: what a successful scan did. -/
theorem readInteger_inv (t : IntTy) {sp : ScanSpec} (wf : sp.WellFormed) (fits : sp.Fits)
    (hal : ∀ c ∈ sp.type, c ∈ ['b', 'd', 'o', 'x']) {st st' : Slot} {l : Str} {u : Unit} (h : st.inp.At l)
    (hr : readInteger t sp.meaning st = .ok st' u) :
    ∃ (n : Number) (tail : Str) (v : Int), l = n.text ++ tail ∧ (∀ w ∈ sp.size, n.text.length = w) ∧
      NumberRead t.upcast sp n v (if sp.size = none then tail else []) ∧ t.Holds v ∧
      st' = ⟨st.inp.adv n.text.length, .int v⟩ := by
  unfold readInteger at hr
  split at hr
  · rename_i ht
    obtain ⟨n, tail, v, e1, e2, e3, e4⟩ := readInt_inv t wf fits hal h hr
    exact ⟨n, tail, v, e1, e2, by rw [ht]; exact e3, e3.holds, e4⟩
  · split at hr
    · simp at hr
    · simp at hr
    · rename_i st1 u1 h1
      obtain ⟨n, tail, v, e1, e2, e3, rfl⟩ := readInt_inv t.upcast (st := { st with var := .int 0 }) wf fits hal h h1
      simp only at hr
      split at hr
      · simp at hr
      · rename_i hv
        obtain ⟨rfl, _⟩ := ok_inj hr
        refine ⟨n, tail, v, e1, e2, e3, ?_, rfl⟩
        unfold IntTy.Holds
        omega

theorem holds_upcast (t : IntTy) (ht : t.Std) {v : Int} (h : t.Holds v) : t.upcast.Holds v := by
  unfold IntTy.Holds IntTy.upcast IntTy.min IntTy.max at *
  obtain ⟨s, b⟩ := t
  unfold IntTy.Std at ht
  simp only at ht
  rcases ht with rfl | rfl | rfl | rfl <;> cases s <;> norm_num at h ⊢ <;> omega

theorem readInteger_fwd (t : IntTy) (ht : t.Std) {sp : ScanSpec} (wf : sp.WellFormed) (fits : sp.Fits)
    (hal : ∀ c ∈ sp.type, c ∈ ['b', 'd', 'o', 'x']) {st : Slot} {n : Number} {tail : Str} (h : st.inp.At (n.text ++ tail))
    (hw : ∀ w ∈ sp.size, n.text.length = w) (hbase : sp.Base n.base n.mark)
    (hds : IsNumeral n.base n.digits) (hp : Plain10 sp n.base n.digits (if sp.size = none then tail else []))
    (htail : sp.size = none → ∀ c ∈ tail.head?, digitLike n.base c = false) (hfit : t.Holds n.value)
    (hs : t.signed = true ∨ n.sign ≠ .minus) :
    readInteger t sp.meaning st = .ok ⟨st.inp.adv n.text.length, .int n.value⟩ () := by
  unfold readInteger
  split
  · exact readInt_fwd t wf fits hal h hw hbase hds hp htail hfit hs
  · rw [readInt_fwd t.upcast (st := { st with var := .int 0 }) wf fits hal h hw hbase hds hp htail (holds_upcast t ht hfit) hs]
    simp only
    rw [if_neg]
    unfold IntTy.Holds at hfit
    omega

end Emio
