import Verif.Props.ParseInt
import Verif.Lemmas.ScanApi
import Verif.Spec.ScanReference
/-
The functions that scan, against the interpreter for scan strings.
-/
namespace Emio
open Reader Spec

/-! ### Digits -/

theorem digitOf_eq (b : Nat) (c : Char) (hb' : b ≤ 36) : digitOf b c = charToDigit c b := by
  unfold digitOf
  cases hs : symbolValue b c with
  | some d => exact (charToDigit_of_symbolValue hb' hs).symm
  | none =>
    simp only
    by_cases hc : isColonToAt c = true
    · have h1 : 58 ≤ c.toNat ∧ c.toNat ≤ 64 := by simpa [isColonToAt] using hc
      unfold charToDigit charToDigitVal
      simp only [hc, true_and]
      have g1 : ¬ ((c.toNat : Int) < 48) := by omega
      have g2 : ¬ ((c.toNat : Int) ≥ 97) := by omega
      have g3 : ¬ ((c.toNat : Int) ≥ 65) := by omega
      rw [if_neg g1, if_neg g2, if_neg g3]
      by_cases hl : c.toNat - 48 < b
      · rw [if_pos hl, if_pos (by omega)]
        simp
        omega
      · rw [if_neg hl, if_neg (by omega)]
        rfl
    · rw [if_neg (fun h => hc h.1), charToDigit_eq c b hb' (.inr (by simpa using hc)), hs]

theorem leadingDigits_cons (b : Nat) (c : Char) (s : Str) (hb' : b ≤ 36) : leadingDigits b (c :: s) =
    match charToDigit c b with | some d => d :: leadingDigits b s | none => [] := by
  rw [leadingDigits, digitOf_eq b c hb']
  cases charToDigit c b <;> rfl

theorem leadingDigits_le (b : Nat) : ∀ s : Str, (leadingDigits b s).length ≤ s.length := by
  intro s
  induction s with
  | nil => simp [leadingDigits]
  | cons c s ih =>
    rw [leadingDigits]
    split
    · simpa using ih
    · simp

/-- The signed types. -/
theorem parseLoop_signed (t : IntTy) (b : Nat) (ht : t.signed = true) (neg : Bool) (hb : 2 ≤ b) (hb' : b ≤ 36) :
    ∀ (cs : Str) (pos a d : Nat), parseLoop t b neg cs pos (sgn neg a) (sgn neg a * b) d =
      if t.Holds (sgn neg (cont b (a * b + d) (leadingDigits b cs))) then
        .ok (pos + (leadingDigits b cs).length) (sgn neg (cont b (a * b + d) (leadingDigits b cs)))
      else .bad .ub := by
  have hbad : ∀ a d : Nat, ¬ t.Holds (sgn neg (a * b + d)) →
      addDigit t neg (sgn neg a) (sgn neg a * b) d = .bad .ub := by
    intro a d h
    have h1 : (if neg then sgn neg a * b - (d : Int) else sgn neg a * b + d) = sgn neg (a * b + d) := by
      unfold sgn; cases neg
      · simp
      · simp; ring
    rw [addDigit, h1]
    simp [arith, ht, h]
  intro cs
  induction cs with
  | nil =>
    intro pos a d
    rw [parseLoop_nil]
    show _ = if t.Holds (sgn neg (a * b + d)) then Run.ok (pos + 0) (sgn neg (a * b + d)) else Run.bad .ub
    by_cases h : t.Holds (sgn neg (a * b + d))
    · rw [if_pos h, sgn_step t neg a b d (by omega) h]; rfl
    · rw [if_neg h, hbad a d h]
  | cons c cs ih =>
    intro pos a d
    rw [parseLoop_cons]
    have hge := cont_ge b (a * b + d) (leadingDigits b (c :: cs)) (by omega)
    by_cases h : t.Holds (sgn neg (a * b + d))
    swap
    · rw [hbad a d h, if_neg fun h' => h (holds_mono t neg _ _ hge h')]
    rw [sgn_step t neg a b d (by omega) h]
    simp only
    rw [leadingDigits_cons b c cs hb']
    cases hc : charToDigit c b with
    | none =>
      show _ = if t.Holds (sgn neg (a * b + d)) then Run.ok (pos + 0) (sgn neg (a * b + d)) else Run.bad .ub
      rw [if_pos h]; rfl
    | some v =>
      simp only
      have hcont : cont b (a * b + d) (v :: leadingDigits b cs) = cont b ((a * b + d) * b + v) (leadingDigits b cs) := rfl
      rw [hcont]
      by_cases h2 : t.Holds (sgn neg (a * b + d) * b)
      · rw [arith_ok t _ h2]
        simp only
        rw [ih (pos + 1) (a * b + d) v, List.length_cons, Nat.add_assoc, Nat.add_comm 1]
      · have h3 : arith t (sgn neg (a * b + d) * b) = none := by simp [arith, ht, h2]
        rw [h3, if_neg]
        intro h'
        have := cont_ge b ((a * b + d) * b + v) (leadingDigits b cs) (by omega)
        rw [sgn_mul] at h2
        exact h2 (holds_mono t neg _ _ (by omega) h')

/-- The unsigned types. -/
theorem parseLoop_modulo (t : IntTy) (b : Nat) (ht : t.signed = false) (hb' : b ≤ 36) :
    ∀ (cs : Str) (pos a d : Nat),
      (drops (2 ^ t.bits) b a (d :: leadingDigits b cs) = true ∧
        ∃ p, parseLoop t b false cs pos a ((a * b % 2 ^ t.bits : Nat) : Int) d = .err p .outOfRange) ∨
      (drops (2 ^ t.bits) b a (d :: leadingDigits b cs) = false ∧
        parseLoop t b false cs pos a ((a * b % 2 ^ t.bits : Nat) : Int) d =
        .ok (pos + (leadingDigits b cs).length) ((cont b (a * b + d) (leadingDigits b cs) % 2 ^ t.bits : Nat) : Int)) := by
  have hadd : ∀ a d : Nat, addDigit t false (a : Int) ((a * b % 2 ^ t.bits : Nat) : Int) d =
      if (a * b + d) % 2 ^ t.bits < a then .err () .outOfRange
      else .ok () (((a * b + d) % 2 ^ t.bits : Nat) : Int) := by
    intro a d
    have h : ((a * b % 2 ^ t.bits : Nat) : Int) + (d : Int) = ((a * b % 2 ^ t.bits + d : Nat) : Int) := by push_cast; rfl
    have h2 : (a * b % 2 ^ t.bits + d) % 2 ^ t.bits = (a * b + d) % 2 ^ t.bits := by
      simp [Nat.add_mod]
    rw [addDigit]
    simp only [Bool.false_eq_true, if_false]
    rw [h, arith_wrap t ht, h2]
    simp only [wentBack, Bool.false_eq_true, if_false, Int.ofNat_lt, decide_eq_true_eq]
  intro cs
  induction cs with
  | nil =>
    intro pos a d
    rw [parseLoop_nil, hadd]
    by_cases hlt : (a * b + d) % 2 ^ t.bits < a
    · exact .inl ⟨by simp [drops, hlt], pos, by rw [if_pos hlt]⟩
    · exact .inr ⟨by simpa [drops, leadingDigits] using hlt, by rw [if_neg hlt]; simp [cont, leadingDigits]⟩
  | cons c cs ih =>
    intro pos a d
    rw [parseLoop_cons, hadd]
    by_cases hlt : (a * b + d) % 2 ^ t.bits < a
    · exact .inl ⟨by simp [drops, hlt], pos, by rw [if_pos hlt]⟩
    rw [if_neg hlt, leadingDigits_cons b c cs hb']
    cases hc : charToDigit c b with
    | none => exact .inr ⟨by simpa [drops] using hlt, by simp [cont]⟩
    | some v =>
      simp only
      have h : (((a * b + d) % 2 ^ t.bits : Nat) : Int) * (b : Int) = (((a * b + d) % 2 ^ t.bits * b : Nat) : Int) := by
        push_cast; rfl
      rw [h, arith_wrap t ht]
      simp only
      have hd : drops (2 ^ t.bits) b a (d :: v :: leadingDigits b cs) =
          drops (2 ^ t.bits) b ((a * b + d) % 2 ^ t.bits) (v :: leadingDigits b cs) := by
        simp only [drops, hlt, decide_false, Bool.false_or]
      have hcm : cont b ((a * b + d) % 2 ^ t.bits * b + v) (leadingDigits b cs) % 2 ^ t.bits =
          cont b (a * b + d) (v :: leadingDigits b cs) % 2 ^ t.bits :=
        cont_mod (2 ^ t.bits) b (a * b + d) (v :: leadingDigits b cs)
      rw [hd]
      rcases ih (pos + 1) ((a * b + d) % 2 ^ t.bits) v with h | ⟨h1, h2⟩
      · exact .inl h
      · refine .inr ⟨h1, ?_⟩
        rw [h2, hcm, List.length_cons]
        congr 1
        omega

theorem wraps_eq (n b : Nat) (ds : List Nat) : wraps n b ds = drops n b 0 ds := by
  rw [Bool.eq_iff_iff]
  have h0 : drops n b 0 ds = drops n b (0 % n) ds := by rw [Nat.zero_mod]
  rw [h0, drops_iff]
  unfold wraps
  rw [List.any_eq_true]
  constructor
  · rintro ⟨k, hk, h⟩
    rw [List.mem_range] at hk
    refine ⟨ds.take k, ds.drop (k + 1), ds[k], ?_, ?_⟩
    · rw [← List.drop_eq_getElem_cons hk, List.take_append_drop]
    · rw [← List.take_succ_eq_append_getElem hk]
      simpa [denote, cont] using of_decide_eq_true h
  · rintro ⟨pre, suf, d, rfl, h⟩
    refine ⟨pre.length, by simp, ?_⟩
    have e1 : (pre ++ d :: suf).take (pre.length + 1) = pre ++ [d] := by
      rw [List.take_append]; simp
    have e2 : (pre ++ d :: suf).take pre.length = pre := by simp
    rw [e1, e2]
    simpa [denote, cont] using h

/-! ### Readers -/

/-- A reader of the same text in front of `rest`. -/
def Reader.Front (r : Reader) (rest : Str) (r' : Reader) : Prop := r'.src = r.src ∧ r'.At rest

theorem Reader.Front.eq {r r' : Reader} {rest : Str} (h : r.Front rest r') : r' = ⟨r.src, r.src.length - rest.length⟩ := by
  obtain ⟨h1, h2⟩ := h
  have := h2.pos
  cases r'
  simp only at h1 this
  subst h1
  simp only [Reader.mk.injEq, true_and]
  omega

theorem Reader.At.front {r : Reader} {s : Str} (h : r.At s) : r.Front s r := ⟨rfl, h⟩

theorem Reader.At.front_drop {r : Reader} {s : Str} (h : r.At s) {n : Nat} (hn : n ≤ s.length) :
    r.Front (s.drop n) (r.adv n) := by
  refine ⟨rfl, ?_⟩
  have h' : r.At (s.take n ++ s.drop n) := by rwa [List.take_append_drop]
  have hl : (s.take n).length = n := by simp; omega
  have := h'.adv
  rwa [hl] at this

/-- A function that reads a number does what is said. -/
def Spec.NumEnd.Is (r : Reader) (x : Run Reader Int) : NumEnd → Prop
  | .value rest v => ∃ r', x = .ok r' v ∧ r.Front rest r'
  | .error e => ∃ r', x = .err r' e
  | .undefined => x = .bad .ub

theorem raw_exact (t : IntTy) (b : Nat) (hb : 2 ≤ b) (hb' : b ≤ 36) (neg : Bool) {r : Reader} {s : Str} (h : r.At s) :
    (readDigits t b neg s).Is r (parseIntRaw t b neg r) := by
  unfold readDigits
  simp only
  cases s with
  | nil => rw [if_pos rfl]; exact ⟨r, raw_nil t b hb hb' neg h⟩
  | cons c s =>
    rw [if_neg (by simp), leadingDigits_cons b c s hb']
    cases hc : charToDigit c b with
    | none => rw [if_pos rfl]; exact ⟨_, raw_none t b hb hb' neg h hc⟩
    | some d =>
      simp only
      rw [if_neg (by simp), raw_run t b hb hb' neg h hc]
      have hle := leadingDigits_le b s
      have hfront : r.Front ((c :: s).drop (d :: leadingDigits b s).length)
          { r with pos := r.pos + 1 + (leadingDigits b s).length } := by
        have := h.front_drop (n := (d :: leadingDigits b s).length) (by simpa using hle)
        rwa [show r.adv (d :: leadingDigits b s).length = { r with pos := r.pos + 1 + (leadingDigits b s).length } by
          unfold adv; simp [Nat.add_assoc, Nat.add_comm 1]] at this
      by_cases hs : t.signed = true
      · rw [if_pos hs, hs]
        simp only [Bool.not_true, Bool.false_and, Bool.false_eq_true, if_false]
        have hl := parseLoop_signed t b hs neg hb hb' s (r.pos + 1) 0 d
        have h0 : sgn neg 0 = 0 := by cases neg <;> rfl
        rw [h0, Int.zero_mul, Nat.zero_mul, Nat.zero_add] at hl
        have hv : (if neg = true then -(denote b (d :: leadingDigits b s) : Int) else (denote b (d :: leadingDigits b s) : Int)) =
            sgn neg (cont b d (leadingDigits b s)) := by
          unfold sgn denote cont
          simp
        rw [hl, hv]
        by_cases hh : t.Holds (sgn neg (cont b d (leadingDigits b s)))
        · rw [if_pos hh, if_pos hh]
          exact ⟨_, rfl, hfront⟩
        · rw [if_neg hh, if_neg hh]
          rfl
      · rw [if_neg hs]
        have hs' : t.signed = false := by simpa using hs
        rw [hs']
        cases neg with
        | true => simp only [true_or, if_true, Bool.not_false, Bool.and_self]; exact ⟨_, rfl⟩
        | false =>
          simp only [Bool.false_eq_true, false_or, Bool.and_false, if_false]
          rw [wraps_eq]
          have key := parseLoop_modulo t b hs' hb' s (r.pos + 1) 0 d
          simp only [Nat.zero_mul, Nat.zero_mod, Int.natCast_zero] at key
          rcases key with ⟨h1, p, h2⟩ | ⟨h1, h2⟩
          · rw [if_pos h1, h2]; exact ⟨_, rfl⟩
          · rw [if_neg (by rw [h1]; simp), h2]
            refine ⟨_, ?_, hfront⟩
            simp [denote, cont]

theorem sign_exact {r : Reader} {s : Str} (h : r.At s) (hne : s ≠ []) :
    ∃ r', parseSign r = .ok r' (splitSign s).1 ∧ r.Front (splitSign s).2 r' := by
  cases s with
  | nil => exact absurd rfl hne
  | cons c s =>
    unfold parseSign
    rw [M.bind_ok h.peek]
    by_cases h1 : c = '+'
    · subst h1
      exact ⟨r.adv 1, by rw [if_pos rfl]; show Run.ok (r.pop 1) false = _; rw [h.pop1]; rfl, rfl, h.adv1⟩
    · by_cases h2 : c = '-'
      · subst h2
        exact ⟨r.adv 1, by rw [if_neg (by decide), if_pos rfl]; show Run.ok (r.pop 1) true = _; rw [h.pop1]; rfl, rfl, h.adv1⟩
      · have hs : splitSign (c :: s) = (false, c :: s) := by
          unfold splitSign
          split
          · rename_i he; simp at he; exact absurd he.1 h1
          · rename_i he; simp at he; exact absurd he.1 h2
          · rfl
        rw [hs]
        exact ⟨r, by rw [if_neg h1, if_neg h2]; rfl, h.front⟩

theorem sign_eof {r : Reader} (h : r.At []) : parseSign r = .err r .eof := by
  unfold parseSign
  rw [M.bind_err h.peek_nil]

theorem Reader.Front.trans {r r' r'' : Reader} {s s' : Str} (h : r.Front s r') (h' : r'.Front s' r'') : r.Front s' r'' :=
  ⟨h'.1.trans h.1, h'.2⟩

theorem Spec.NumEnd.Is.front {r r' : Reader} {s : Str} {x : Run Reader Int} {n : NumEnd} (h : n.Is r' x) (hf : r.Front s r') :
    n.Is r x := by
  cases n with
  | value rest v => obtain ⟨r'', h1, h2⟩ := h; exact ⟨r'', h1, hf.trans h2⟩
  | error e => exact h
  | undefined => exact h

/-! ### The base -/

theorem disallow_exact {b : Nat} {r : Reader} {s : Str} (h : r.At s) :
    match behindMark b s with
    | .error e => ∃ r', disallowSign r = .err r' e
    | .ok (b', s') => disallowSign r = .ok r () ∧ s' = s ∧ b' = b := by
  cases s with
  | nil => exact ⟨r, by unfold disallowSign; rw [M.bind_err h.peek_nil]⟩
  | cons c s =>
    rw [behindMark]
    by_cases hc : c = '+' ∨ c = '-'
    · rw [if_pos hc]
      exact ⟨r, by unfold disallowSign; rw [M.bind_ok h.peek, if_pos hc]; rfl⟩
    · rw [if_neg hc]
      exact ⟨disallow_fwd h (by simpa [not_or] using hc), rfl, rfl⟩

/-- A function that determines the base does what is said. -/
def BaseIs (r : Reader) (x : Run Reader Nat) : Except Err (Nat × Str) → Prop
  | .ok (b, s) => ∃ r', x = .ok r' b ∧ r.Front s r'
  | .error e => ∃ r', x = .err r' e

theorem behind_exact {b : Nat} {r r' : Reader} {s : Str} (h : r.Front s r') :
    BaseIs r ((do disallowSign; return b : M Reader Nat) r') (behindMark b s) := by
  have := disallow_exact (b := b) h.2
  cases hb : behindMark b s with
  | error e =>
    rw [hb] at this
    obtain ⟨r'', h1⟩ := this
    exact ⟨r'', by rw [M.bind_err h1]⟩
  | ok x =>
    obtain ⟨b', s'⟩ := x
    rw [hb] at this
    obtain ⟨h1, rfl, rfl⟩ := this
    exact ⟨r', by rw [M.bind_ok h1]; rfl, h⟩

theorem mark_exact {b : Nat} (hb : b = 2 ∨ b = 8 ∨ b = 16) {r : Reader} {s : Str} (h : r.At s) :
    BaseIs r ((do parseAlternateForm b; disallowSign; return b : M Reader Nat) r)
      (requiredMark b s) := by
  have herr : ∀ {r' e}, parseAlternateForm b r = .err r' e →
      BaseIs r ((do parseAlternateForm b; disallowSign; return b : M Reader Nat) r) (.error e) :=
    fun h => ⟨_, by rw [M.bind_err h]⟩
  have hok : ∀ {r' s'}, parseAlternateForm b r = .ok r' () → r.Front s' r' →
      BaseIs r ((do parseAlternateForm b; disallowSign; return b : M Reader Nat) r) (behindMark b s') := by
    intro r' s' h1 h2
    have := behind_exact (b := b) h2
    rwa [M.bind_ok h1]
  cases s with
  | nil => exact herr (r' := r) (by unfold parseAlternateForm; rw [M.bind_err (readIfMatchChar_nil h _)])
  | cons c s =>
    have hm := readIfMatchChar_at h '0'
    by_cases hc : c = '0'
    · subst hc
      rw [if_pos rfl] at hm
      by_cases h8 : b = 8
      · subst h8
        have hbm : requiredMark 8 ('0' :: s) = behindMark 8 s := by cases s <;> rfl
        rw [hbm]
        refine hok (r' := r.adv 1) ?_ ⟨rfl, h.adv1⟩
        unfold parseAlternateForm
        rw [M.bind_ok hm, if_pos rfl]
        rfl
      · have hpa : parseAlternateForm b r = (do
            let c ← readChar
            if b = 2 then
              if c = 'b' ∨ c = 'B' then return () else M.throw .invalidData
            else if c = 'x' ∨ c = 'X' then return () else M.throw .invalidData : M Reader Unit) (r.adv 1) := by
          unfold parseAlternateForm
          rw [M.bind_ok hm, if_neg h8]
        cases s with
        | nil => exact herr (r' := r.adv 1) (by rw [hpa, M.bind_err h.adv1.readChar_nil])
        | cons x s =>
          rw [M.bind_ok h.adv1.readChar] at hpa
          rw [requiredMark, if_neg h8]
          have hfr : r.Front s ((r.adv 1).adv 1) := ⟨rfl, h.adv1.adv1⟩
          by_cases h2 : b = 2
          · subst h2
            rw [if_pos rfl] at hpa
            rw [if_pos rfl]
            by_cases hx : x = 'b' ∨ x = 'B'
            · rw [if_pos hx] at hpa
              rw [if_pos (by simpa using hx)]
              exact hok hpa hfr
            · rw [if_neg hx] at hpa
              rw [if_neg (by simpa using hx)]
              exact herr hpa
          · rw [if_neg h2] at hpa
            rw [if_neg h2]
            by_cases hx : x = 'x' ∨ x = 'X'
            · rw [if_pos hx] at hpa
              rw [if_pos (by simpa using hx)]
              exact hok hpa hfr
            · rw [if_neg hx] at hpa
              rw [if_neg (by simpa using hx)]
              exact herr hpa
    · rw [if_neg hc] at hm
      have : parseAlternateForm b r = .err r .invalidData := by
        unfold parseAlternateForm
        rw [M.bind_err hm]
      have hr : requiredMark b (c :: s) = .error .invalidData := by
        unfold requiredMark
        split <;> simp_all
      rw [hr]
      exact herr this

theorem base_exact {sp : ScanSpec} (wf : sp.WellFormed) (hal : ∀ c ∈ sp.type, c ∈ ['b', 'd', 'o', 'x'])
    {r : Reader} {s : Str} (h : r.At s) : BaseIs r (scanBase sp.meaning r) (fieldBase sp s) := by
  have ha : sp.meaning.alternateForm = sp.alt := rfl
  unfold scanBase fieldBase
  by_cases hauto : sp.alt = true ∧ sp.type = none
  · rw [if_pos hauto, if_pos ⟨(scan_type_none wf).2 hauto.2, by rw [ha]; exact hauto.1⟩, M.bind_ok (M.get_run r)]
    have hten : ∀ {c l}, s = c :: l → c ≠ '0' ∨ l = [] → BaseIs r ((match determineBase r with
        | .bad b => (M.bad b : M Reader Nat)
        | .err _ e => M.throw e
        | .ok _ base => if base ≠ 10 then do
            M.modify (·.pop (if base = 8 then 1 else 2))
            disallowSign
            return base
          else return base) r) (.ok (10, s)) := by
      intro c l hs hc
      subst hs
      rw [det_ten h hc]
      exact ⟨r, rfl, h.front⟩
    have hmod : ∀ (b n : Nat) {s'}, b ≠ 10 → (if b = 8 then 1 else 2) = n → n ≤ s.length → s.drop n = s' →
        BaseIs r ((if b ≠ 10 then do
            M.modify (·.pop (if b = 8 then 1 else 2))
            disallowSign
            return b
          else return b : M Reader Nat) r) (behindMark b s') := by
      intro b n s' h10 hn hl hs'
      have hf := h.front_drop hl
      rw [hs'] at hf
      have := behind_exact (b := b) hf
      rw [if_pos h10]
      have hpop : r.pop n = r.adv n := by
        have h' : r.At (s.take n ++ s.drop n) := by rwa [List.take_append_drop]
        exact pop_at h' (by simp; omega)
      have hm : (M.modify (·.pop (if b = 8 then 1 else 2)) : M Reader Unit) r = .ok (r.adv n) () := by
        rw [hn, ← hpop]; rfl
      rwa [M.bind_ok hm]
    cases s with
    | nil => rw [det_nil h]; exact ⟨r, rfl⟩
    | cons c s =>
      by_cases hc : c = '0'
      · subst hc
        cases s with
        | nil => exact hten rfl (.inr rfl)
        | cons x s =>
          rw [det_zero h, anyMark]
          simp only
          by_cases hx : x = 'b' ∨ x = 'B'
          · rw [if_pos hx, if_pos hx]
            exact hmod 2 2 (by decide) rfl (by simp) rfl
          · rw [if_neg hx, if_neg hx]
            by_cases hx' : x = 'x' ∨ x = 'X'
            · rw [if_pos hx', if_pos hx']
              exact hmod 16 2 (by decide) rfl (by simp) rfl
            · rw [if_neg hx', if_neg hx']
              exact hmod 8 1 (by decide) rfl (by simp) rfl
      · have hr : anyMark (c :: s) = .ok (10, c :: s) := by
          unfold anyMark
          split <;> simp_all
        rw [hr]
        exact hten rfl (.inl hc)
  · rw [if_neg hauto, if_neg (fun hh => hauto ⟨by rw [← ha]; exact hh.2, (scan_type_none wf).1 hh.1⟩), (getBase_eq hal).1]
    simp only
    have hmem := (getBase_eq hal).2
    rw [ha]
    by_cases hc : sp.alt = true ∧ typeBase sp.type ≠ 10
    · rw [if_pos hc, if_pos hc]
      have hb : typeBase sp.type = 2 ∨ typeBase sp.type = 8 ∨ typeBase sp.type = 16 := by simp at hmem; omega
      exact mark_exact hb h
    · rw [if_neg hc, if_neg hc]
      exact ⟨r, rfl, h.front⟩

theorem fieldBase_range {sp : ScanSpec} (hal : ∀ c ∈ sp.type, c ∈ ['b', 'd', 'o', 'x']) {s s' : Str} {b : Nat}
    (h : fieldBase sp s = .ok (b, s')) : 2 ≤ b ∧ b ≤ 36 := by
  have hmem := (getBase_eq hal).2
  have hbm : ∀ {x l}, behindMark x l = .ok (b, s') → b = x := by
    intro x l hh
    cases l with
    | nil => simp [behindMark] at hh
    | cons c l =>
      rw [behindMark] at hh
      split at hh
      · simp at hh
      · simp at hh; exact hh.1.symm
  simp at hmem
  unfold fieldBase at h
  split at h
  · unfold anyMark at h
    split at h
    · simp at h
    · split at h
      · have := hbm h; omega
      · split at h
        · have := hbm h; omega
        · have := hbm h; omega
    · simp at h; omega
  · split at h
    · generalize typeBase sp.type = x at h hmem
      unfold requiredMark at h
      split at h
      · simp at h
      · simp at h
      · split at h
        · have := hbm h; omega
        · by_cases hm : x = 2
          · rw [if_pos hm] at h
            split at h
            · have := hbm h; omega
            · simp at h
          · rw [if_neg hm] at h
            split at h
            · have := hbm h; omega
            · simp at h
      · simp at h
    · simp at h; omega

theorem number_exact (t : IntTy) {sp : ScanSpec} (wf : sp.WellFormed) (hal : ∀ c ∈ sp.type, c ∈ ['b', 'd', 'o', 'x'])
    {r : Reader} {s : Str} (h : r.At s) : (fieldNumber t sp s).Is r (scanNumber t sp.meaning r) := by
  unfold fieldNumber scanNumber
  by_cases hs : s = []
  · subst hs
    rw [if_pos rfl]
    exact ⟨r, by rw [M.bind_err (sign_eof h)]⟩
  · rw [if_neg hs]
    obtain ⟨r1, h1, hf1⟩ := sign_exact h hs
    rw [M.bind_ok h1]
    have hb := base_exact wf hal hf1.2
    cases hfb : fieldBase sp (splitSign s).2 with
    | error e =>
      rw [hfb] at hb
      obtain ⟨r', hr'⟩ := hb
      exact ⟨r', by rw [M.bind_err hr']⟩
    | ok x =>
      obtain ⟨b, s'⟩ := x
      rw [hfb] at hb
      obtain ⟨r', hr', hf'⟩ := hb
      obtain ⟨h2, h36⟩ := fieldBase_range hal hfb
      rw [M.bind_ok hr']
      exact (raw_exact t b h2 h36 _ hf'.2).front (hf1.trans hf')

/-! ### Integers -/

/-- A function that reads a field does what is said. -/
def Spec.ScanEnd.Is (r : Reader) (x : Run Slot Unit) : ScanEnd ScanVal → Prop
  | .done rest v => ∃ r', x = .ok ⟨r', v⟩ () ∧ r.Front rest r'
  | .stop rest e v => ∃ r', x = .err ⟨r', v⟩ e ∧ r.Front rest r'
  | .undefined => x = .bad .ub

/-- As `integerField`, for the 32 and 64 bit types. -/
def wideField (t : IntTy) (sp : ScanSpec) (old : ScanVal) (s : Str) : ScanEnd ScanVal :=
  match sp.size with
  | none =>
    match fieldNumber t sp s with
    | .undefined => .undefined
    | .error e => .stop s e old
    | .value rest v => .done rest (.int v)
  | some w =>
    if s.length < w then .stop s .eof old
    else
      match fieldNumber t sp (s.take w) with
      | .undefined => .undefined
      | .error e => .stop s e old
      | .value rest v => if rest ≠ [] then .stop s .invalidData (.int v) else .done (s.drop w) (.int v)

theorem int_exact (t : IntTy) {sp : ScanSpec} (wf : sp.WellFormed) (fits : sp.Fits)
    (hal : ∀ c ∈ sp.type, c ∈ ['b', 'd', 'o', 'x']) {r : Reader} {s : Str} (old : ScanVal) (h : r.At s) :
    (wideField t sp old s).Is r (readInt t sp.meaning ⟨r, old⟩) := by
  unfold wideField readInt scanWindow
  cases hsz : sp.size with
  | none =>
    have hw := scanWidth_none hsz
    simp only [hw, ne_eq, not_true_eq_false, if_false]
    have := number_exact t wf hal h
    cases hn : fieldNumber t sp s with
    | undefined => rw [hn] at this; simp only [NumEnd.Is] at this; rw [this]; rfl
    | error e =>
      rw [hn] at this
      obtain ⟨r', hr'⟩ := this
      rw [hr']
      exact ⟨r, rfl, h.front⟩
    | value rest v =>
      rw [hn] at this
      obtain ⟨r', hr', hf⟩ := this
      rw [hr']
      exact ⟨r', rfl, hf⟩
  | some w =>
    obtain ⟨hw, hw'⟩ := scanWidth_some hsz
    obtain ⟨_, hlt⟩ := fits w (by rw [hsz]; rfl)
    have hts : toSize sp.meaning.width = w := by rw [hw]; exact toSize_nat w hlt
    have hcnt : r.cntRemaining = s.length := by
      have := h.pos
      unfold cntRemaining
      omega
    simp only [hw', ne_eq, not_false_eq_true, if_true, hts, hcnt]
    by_cases hl : s.length < w
    · rw [if_pos hl, if_pos hl]
      exact ⟨r, rfl, h.front⟩
    · rw [if_neg hl, if_neg hl, h.2]
      simp only
      have := number_exact t wf hal (at_ofStr (s.take w))
      cases hn : fieldNumber t sp (s.take w) with
      | undefined => rw [hn] at this; simp only [NumEnd.Is] at this; rw [this]; rfl
      | error e =>
        rw [hn] at this
        obtain ⟨r', hr'⟩ := this
        rw [hr']
        exact ⟨r, rfl, h.front⟩
      | value rest v =>
        rw [hn] at this
        obtain ⟨r', hr', hf⟩ := this
        rw [hr']
        simp only
        have he : r'.eof = decide (rest = []) := by
          have h1 := hf.2.pos
          unfold Reader.eof
          cases rest with
          | nil => simp at h1 ⊢; omega
          | cons a l => simp at h1 ⊢; omega
        rw [he]
        by_cases hr : rest = []
        · simp only [hr, decide_true, Bool.not_true, Bool.false_eq_true, if_false, not_true_eq_false]
          refine ⟨_, rfl, ?_⟩
          have hpop : r.pop w = r.adv w := by
            have h' : r.At (s.take w ++ s.drop w) := by rwa [List.take_append_drop]
            exact pop_at h' (by simp; omega)
          rw [hpop]
          exact h.front_drop (by omega)
        · simp only [hr, decide_false, Bool.not_false, if_true, not_false_eq_true]
          exact ⟨_, rfl, h.front⟩

theorem readDigits_holds {t : IntTy} {b : Nat} {neg : Bool} {s rest : Str} {v : Int}
    (h : readDigits t b neg s = .value rest v) : t.Holds v := by
  unfold readDigits at h
  simp only at h
  generalize (if neg = true then -(denote b (leadingDigits b s) : Int) else (denote b (leadingDigits b s) : Int)) = v' at h
  split at h
  · simp at h
  · split at h
    · simp at h
    · split at h
      · split at h
        · rename_i hh
          simp only [NumEnd.value.injEq] at h
          rw [← h.2]; exact hh
        · simp at h
      · rename_i hs
        split at h
        · simp at h
        · simp only [NumEnd.value.injEq] at h
          rw [← h.2]
          have hs' : t.signed = false := by simpa using hs
          have := Nat.mod_lt (denote b (leadingDigits b s)) (Nat.two_pow_pos t.bits)
          simp only [IntTy.Holds, IntTy.min, IntTy.max, hs', Bool.false_eq_true, if_false]
          constructor
          · exact Int.natCast_nonneg _
          · have : ((denote b (leadingDigits b s) % 2 ^ t.bits : Nat) : Int) < ((2 ^ t.bits : Nat) : Int) := Int.ofNat_lt.2 this
            push_cast at this ⊢
            omega

theorem fieldNumber_holds {t : IntTy} {sp : ScanSpec} {s rest : Str} {v : Int}
    (h : fieldNumber t sp s = .value rest v) : t.Holds v := by
  unfold fieldNumber at h
  split at h
  · simp at h
  · split at h
    · simp at h
    · exact readDigits_holds h

theorem integer_exact (t : IntTy) {sp : ScanSpec} (wf : sp.WellFormed) (fits : sp.Fits)
    (hal : ∀ c ∈ sp.type, c ∈ ['b', 'd', 'o', 'x']) {r : Reader} {s : Str} (old : ScanVal) (h : r.At s) :
    (integerField t sp old s).Is r (readInteger t sp.meaning ⟨r, old⟩) := by
  unfold readInteger
  by_cases hup : t.upcast = t
  · rw [if_pos hup]
    have := int_exact t wf fits hal old h
    have he : integerField t sp old s = wideField t sp old s := by
      unfold integerField wideField
      rw [hup]
      cases sp.size with
      | none =>
        cases hn : fieldNumber t sp s with
        | value rest v => simp only [if_pos (fieldNumber_holds hn)]
        | error e => rfl
        | undefined => rfl
      | some w =>
        simp only
        split
        · rfl
        · cases hn : fieldNumber t sp (s.take w) with
          | value rest v => simp only [if_pos (fieldNumber_holds hn), if_true]
          | error e => rfl
          | undefined => rfl
    rwa [he]
  · rw [if_neg hup]
    have := int_exact t.upcast wf fits hal (.int 0) h
    simp only
    have hchk : ∀ v : Int, (v < t.min ∨ v > t.max) ↔ ¬ t.Holds v := by
      intro v; unfold IntTy.Holds; omega
    unfold integerField
    unfold wideField at this
    cases hsz : sp.size with
    | none =>
      simp only [hsz] at this ⊢
      cases hn : fieldNumber t.upcast sp s with
      | undefined => rw [hn] at this; simp only [ScanEnd.Is] at this; rw [this]; rfl
      | error e =>
        rw [hn] at this
        obtain ⟨r', hr', hf⟩ := this
        rw [hr']
        exact ⟨r', rfl, hf⟩
      | value rest v =>
        rw [hn] at this
        obtain ⟨r', hr', hf⟩ := this
        rw [hr']
        simp only [hchk]
        by_cases hv : t.Holds v
        · rw [if_neg (by simpa using hv), if_pos hv]; exact ⟨r', rfl, hf⟩
        · rw [if_pos hv, if_neg hv]; exact ⟨r', rfl, hf⟩
    | some w =>
      simp only [hsz] at this ⊢
      by_cases hl : s.length < w
      · rw [if_pos hl] at this ⊢
        obtain ⟨r', hr', hf⟩ := this
        rw [hr']
        exact ⟨r', rfl, hf⟩
      · rw [if_neg hl] at this ⊢
        cases hn : fieldNumber t.upcast sp (s.take w) with
        | undefined => rw [hn] at this; simp only [ScanEnd.Is] at this; rw [this]; rfl
        | error e =>
          rw [hn] at this
          obtain ⟨r', hr', hf⟩ := this
          rw [hr']
          exact ⟨r', rfl, hf⟩
        | value rest v =>
          rw [hn] at this
          simp only [if_neg hup] at this ⊢
          by_cases hr : rest ≠ []
          · rw [if_pos hr] at this ⊢
            obtain ⟨r', hr', hf⟩ := this
            rw [hr']
            exact ⟨r', rfl, hf⟩
          · rw [if_neg hr] at this ⊢
            obtain ⟨r', hr', hf⟩ := this
            rw [hr']
            simp only [hchk]
            by_cases hv : t.Holds v
            · rw [if_neg (by simpa using hv), if_pos hv]; exact ⟨r', rfl, hf⟩
            · rw [if_pos hv, if_neg hv]; exact ⟨r', rfl, hf⟩

theorem char_exact {r : Reader} {s : Str} (old : ScanVal) (h : r.At s) :
    (charField old s).Is r (readCharArg ⟨r, old⟩) := by
  unfold readCharArg
  cases s with
  | nil => simp only [h.readChar_nil]; exact ⟨r, rfl, h.front⟩
  | cons c s => simp only [h.readChar]; exact ⟨_, rfl, rfl, h.adv1⟩

/-! ### Strings -/

theorem firstOccurrence_eq (lit s : Str) : firstOccurrence lit s = findStr lit s := by
  unfold firstOccurrence
  cases hf : findStr lit s with
  | none =>
    rw [findStr_none] at hf
    rw [List.find?_eq_none]
    intro k hk
    rw [List.mem_range] at hk
    have := hf k (by omega)
    simpa using this
  | some i =>
    obtain ⟨⟨h1, h2⟩, h3⟩ := (findStr_some _ _ _).1 hf
    rw [List.find?_range_eq_some]
    refine ⟨by simpa using h2, by simp; omega, fun j hj => ?_⟩
    have := h3 j hj
    rw [← List.isPrefixOf_iff_prefix] at this
    rw [Bool.not_eq_true', Bool.eq_false_iff]
    exact this

theorem until_exact {r : Reader} {s : Str} (h : r.At s) (d : Str) :
    if s = [] then readUntilStr d { keepDelimiter := true } r = .err r .eof
    else (firstOccurrence d s).getD s.length ≤ s.length ∧ readUntilStr d { keepDelimiter := true } r =
      .ok (r.adv ((firstOccurrence d s).getD s.length)) (s.take ((firstOccurrence d s).getD s.length)) := by
  unfold readUntilStr
  rw [readUntilPos_eq _ _ d.length r h.1 (findStr_hyp d r), h.2, firstOccurrence_eq]
  by_cases hs : s = []
  · rw [if_pos hs, if_pos hs]
  · rw [if_neg hs, if_neg hs]
    cases hf : findStr d s with
    | none =>
      simp only [Option.getD_none, Bool.false_eq_true, if_false, le_refl, true_and, List.take_length]
      have := h.pos
      unfold adv
      rw [this]
    | some i =>
      obtain ⟨⟨h1, h2⟩, h3⟩ := (findStr_some _ _ _).1 hf
      simp only [Option.getD_some, if_true, Bool.false_eq_true, if_false, Nat.add_zero]
      exact ⟨h1, rfl⟩

theorem escBraces_split (x : Char) (nd behind : Str) :
    ∃ y f, escBraces (x :: nd) ++ behind = y :: f ∧ nextLiteral y f = some (some (x, escBraces nd ++ behind)) := by
  rw [escBraces_cons]
  split
  · rename_i hx
    subst hx
    exact ⟨'{', '{' :: (escBraces nd ++ behind), by simp, by simp [nextLiteral]⟩
  · rename_i hx
    split
    · rename_i hx'
      subst hx'
      exact ⟨'}', '}' :: (escBraces nd ++ behind), by simp, by simp [nextLiteral]⟩
    · rename_i hx'
      exact ⟨x, escBraces nd ++ behind, by simp, by simp [nextLiteral, hx, hx']⟩

theorem complexLoop_run (fmt : Str) {behind : Str} (hst : Stop behind) : ∀ (nd inp : Str) (k m : Nat),
    complexLoop fmt inp (escBraces nd ++ behind) k m =
      if nd <+: inp then if behind ≠ [] ∧ nd.length = inp.length then .err () .invalidData else .ok () (k - m)
      else if agreeing nd inp = inp.length then .err () .invalidData
      else complexLoop fmt (inp.drop (agreeing nd inp + 1)) fmt (k + agreeing nd inp + 1) 0 := by
  intro nd
  induction nd with
  | nil =>
    intro inp k m
    rw [if_pos List.nil_prefix, show escBraces [] = [] from rfl, List.nil_append]
    rcases hst with rfl | ⟨d, tl, rfl, hd⟩
    · rw [if_neg (by simp)]
      unfold complexLoop
      rfl
    · cases inp with
      | nil => rw [if_pos (by simp)]; unfold complexLoop; rfl
      | cons c cs =>
        rw [if_neg (by simp)]
        unfold complexLoop
        simp [nextLiteral, hd]
  | cons x nd ih =>
    intro inp k m
    obtain ⟨y, f, h1, h2⟩ := escBraces_split x nd behind
    rw [h1]
    cases inp with
    | nil =>
      rw [if_neg (by simp), if_pos (by simp [agreeing])]
      unfold complexLoop
      rfl
    | cons c cs =>
      conv_lhs => unfold complexLoop
      rw [h2]
      simp only
      by_cases hc : c = x
      · subst hc
        rw [if_pos rfl, ih, agreeing, if_pos rfl]
        simp only [List.cons_prefix_cons, true_and, List.length_cons, Nat.add_right_cancel_iff, List.drop_succ_cons]
        rw [show k + 1 - (m + 1) = k - m by omega,
          show k + 1 + agreeing nd cs + 1 = k + (agreeing nd cs + 1) + 1 by omega]
      · have hc' : ¬ x = c := fun h => hc h.symm
        rw [if_neg hc, if_neg (by simp [hc']), agreeing, if_neg hc', if_neg (by simp)]
        rfl

theorem hunt_skip (lit : Str) (more : Bool) : ∀ (s : Str) (n : Nat),
    hunt lit more n s = (hunt lit more 0 (s.drop n)).map (· + n) := by
  intro s
  induction s with
  | nil => intro n; simp [hunt]
  | cons c s ih =>
    intro n
    cases n with
    | zero => simp
    | succ n =>
      rw [hunt, ih n, List.drop_succ_cons, Option.map_map]
      congr 1

theorem agreeing_le : ∀ a b : Str, agreeing a b ≤ b.length := by
  intro a
  induction a with
  | nil => intro b; simp [agreeing]
  | cons x a ih =>
    intro b
    cases b with
    | nil => simp [agreeing]
    | cons y b =>
      rw [agreeing]
      split
      · have := ih b; simp; omega
      · simp

theorem hunt_exact {lit behind : Str} (hne : lit ≠ []) (hst : Stop behind) (more : Bool) (hm : more = true ↔ behind ≠ []) :
    ∀ (n : Nat) (s : Str) (k : Nat), s.length ≤ n →
      complexLoop (escBraces lit ++ behind) s (escBraces lit ++ behind) k 0 =
        match hunt lit more 0 s with
        | some i => .ok () (k + i)
        | none => .err () .invalidData := by
  intro n
  induction n with
  | zero =>
    intro s k hs
    have : s = [] := List.length_eq_zero_iff.1 (by omega)
    subst this
    have hl : agreeing lit [] = 0 := by have := agreeing_le lit []; simpa using this
    rw [complexLoop_run _ hst, if_neg (by simpa using hne), if_pos (by simpa using hl)]
    rfl
  | succ n ih =>
    intro s k hs
    rw [complexLoop_run _ hst]
    cases s with
    | nil =>
      have hl : agreeing lit [] = 0 := by have := agreeing_le lit []; simpa using this
      rw [if_neg (by simpa using hne), if_pos (by simpa using hl)]
      rfl
    | cons c s =>
      rw [hunt]
      by_cases hp : lit <+: c :: s
      · rw [if_pos hp, if_pos hp]
        by_cases he : behind ≠ [] ∧ lit.length = (c :: s).length
        · rw [if_pos he, if_pos ⟨hm.2 he.1, he.2⟩]
        · rw [if_neg he, if_neg fun h => he ⟨hm.1 h.1, h.2⟩]
          rfl
      · rw [if_neg hp, if_neg hp, hunt_skip]
        by_cases ha : agreeing lit (c :: s) = (c :: s).length
        · rw [if_pos ha, ha, List.drop_eq_nil_of_le (by simp)]
          rfl
        · rw [if_neg ha, List.drop_succ_cons, ih _ _ (by simp at hs ⊢; omega)]
          cases hunt lit more 0 (s.drop (agreeing lit (c :: s))) with
          | none => rfl
          | some i =>
            simp only [Option.map_some]
            congr 1
            omega

theorem complex_exact {lit behind : Str} (hne : lit ≠ []) (hst : Stop behind) (more : Bool) (hm : more = true ↔ behind ≠ [])
    {r : Reader} {s : Str} (h : r.At s) : match hunt lit more 0 s with
      | some k => k ≤ s.length ∧ readStringComplex (escBraces lit ++ behind) r = .ok (r.adv k) (s.take k)
      | none => readStringComplex (escBraces lit ++ behind) r = .err r .invalidData := by
  unfold readStringComplex
  rw [h.2]
  have key := hunt_exact hne hst more hm s.length s 0 le_rfl
  cases hh : hunt lit more 0 s with
  | none => rw [hh] at key; rw [key]
  | some k =>
    rw [hh] at key
    simp only [Nat.zero_add] at key
    have hle := complexLoop_le _ _ _ _ _ _ key
    rw [key]
    refine ⟨by omega, ?_⟩
    have hpop : r.pop k = r.adv k := by
      have h' : r.At (s.take k ++ s.drop k) := by rwa [List.take_append_drop]
      exact pop_at h' (by simp; omega)
    simp only [hpop]

theorem text_split (segs : List (Str × ScanHole)) (last tail : Str) (hd : ∀ s ∈ segs, ∀ c ∈ s.2.idx, isDigit c = true)
    (ht : Stop tail) : ∃ behind, ScanTemplate.text ⟨segs, last⟩ ++ tail = escBraces (following last segs) ++ behind ∧
      Stop behind ∧ (behind ≠ [] ↔ segs ≠ [] ∨ tail ≠ []) := by
  cases segs with
  | nil =>
    rw [scanTemplate_text_nil]
    exact ⟨tail, rfl, ht, by simp⟩
  | cons s segs =>
    obtain ⟨lit, hole⟩ := s
    rw [scanTemplate_text_cons, hole_sp_text]
    have hb : hole.spec.isSome = false →
        (hole.sp.text ++ '}' :: (ScanTemplate.text ⟨segs, last⟩ ++ tail)).head? = some '}' := by
      intro h
      have : hole.spec = none := by cases hh : hole.spec <;> simp_all
      simp [ScanHole.sp, this, ScanSpec.text]
    obtain ⟨d, tl, hdt, hne⟩ := field_head (hd (lit, hole) (by simp)) hb
    simp only [List.append_assoc, List.cons_append]
    rw [hdt]
    exact ⟨_, rfl, Or.inr ⟨d, tl, rfl, hne⟩, by simp⟩

/-- What `readStringArg` does with the result. -/
theorem stringArg_exact {r : Reader} {s : Str} (h : r.At s) {sp : ScanSpecs} {fmt : Reader} (old : ScanVal) :
    (∀ k, k ≤ s.length → readString sp fmt r = .ok (r.adv k) (s.take k) →
      (ScanEnd.done (s.drop k) (.str (s.take k))).Is r (readStringArg sp fmt ⟨r, old⟩)) ∧
    (∀ e, readString sp fmt r = .err r e → (ScanEnd.stop s e old).Is r (readStringArg sp fmt ⟨r, old⟩)) := by
  refine ⟨fun k hk hr => ?_, fun e hr => ?_⟩
  · unfold readStringArg
    simp only [hr]
    exact ⟨_, rfl, h.front_drop hk⟩
  · unfold readStringArg
    simp only [hr]
    exact ⟨_, rfl, h.front⟩

theorem string_exact {sp : ScanSpec} (fits : sp.Fits) (segs : List (Str × ScanHole)) (last : Str) {tail : Str}
    (ht : Stop tail) (hd : ∀ s ∈ segs, ∀ c ∈ s.2.idx, isDigit c = true) {r : Reader} {s : Str} (old : ScanVal) (h : r.At s) :
    (stringField sp (following last segs) (segs ≠ [] ∨ tail ≠ []) old s).Is r
      (readStringArg sp.meaning (.ofStr (ScanTemplate.text ⟨segs, last⟩ ++ tail)) ⟨r, old⟩) := by
  obtain ⟨hok, herr⟩ := stringArg_exact h (sp := sp.meaning) (fmt := .ofStr (ScanTemplate.text ⟨segs, last⟩ ++ tail)) old
  obtain ⟨hw, hn⟩ := readString_at sp.meaning (at_ofStr (ScanTemplate.text ⟨segs, last⟩ ++ tail)) r
  obtain ⟨behind, htx, hst, hbe⟩ := text_split segs last tail hd ht
  unfold stringField
  generalize hmore : decide (segs ≠ [] ∨ tail ≠ []) = more
  have hm : more = true ↔ behind ≠ [] := by rw [hbe, ← hmore]; simp
  generalize following last segs = lit at *
  cases hsz : sp.size with
  | some w =>
    obtain ⟨hwid, hwid'⟩ := scanWidth_some hsz
    obtain ⟨_, hlt⟩ := fits w (by rw [hsz]; rfl)
    have hr := hw hwid'
    rw [hwid, toSize_nat w hlt] at hr
    unfold readNChars at hr
    have hp := h.pos
    simp only
    by_cases hl : s.length < w
    · rw [if_pos hl]
      rw [if_neg (by omega)] at hr
      exact herr _ hr
    · rw [if_neg hl]
      rw [if_pos (by omega), h.2] at hr
      exact hok w (by omega) hr
  | none =>
    obtain ⟨b1, b2, b3⟩ := hn (scanWidth_none hsz)
    simp only
    by_cases hnone : lit = [] ∧ more = false
    · rw [if_pos hnone]
      have hb : behind = [] := by
        by_contra hb
        have := hm.2 hb
        rw [hnone.2] at this
        simp at this
      have : ScanTemplate.text ⟨segs, last⟩ ++ tail = [] := by rw [htx, hnone.1, hb]; rfl
      refine hok s.length le_rfl ?_
      rw [b1 this]
      have hp := h.pos
      unfold readRemaining
      rw [h.2, List.take_length]
      unfold adv
      rw [hp]
    · rw [if_neg hnone]
      have hbr : ∀ l : Str, l.any isBrace = false ↔ '{' ∉ l ∧ '}' ∉ l := by
        intro l
        rw [List.any_eq_false]
        constructor
        · intro hh
          exact ⟨fun hx => hh _ hx (by decide), fun hx => hh _ hx (by decide)⟩
        · rintro ⟨h1, h2⟩ x hx hb
          simp only [isBrace, Bool.or_eq_true, decide_eq_true_eq] at hb
          rcases hb with rfl | rfl
          · exact h1 hx
          · exact h2 hx
      have hun := until_exact h lit
      by_cases hnb : lit.any isBrace = false
      · rw [if_pos hnb]
        obtain ⟨n1, n2⟩ := (hbr lit).1 hnb
        rw [escBraces_plain n1 n2] at htx
        have hr : readString sp.meaning (.ofStr (ScanTemplate.text ⟨segs, last⟩ ++ tail)) r =
            readUntilStr lit { keepDelimiter := true } r := by
          rcases hst with rfl | ⟨d, tl, rfl, hdn⟩
          · rw [List.append_nil] at htx
            have hl : lit ≠ [] := by
              intro hl
              refine hnone ⟨hl, ?_⟩
              rw [Bool.eq_false_iff]
              intro hh
              exact absurd rfl (hm.1 hh)
            rw [b2 (by rw [htx]; exact hl) (by rw [htx]; exact n1) (by rw [htx]; exact n2), htx]
          · rw [b3 lit '{' (d :: tl) htx n1 n2 (Or.inl rfl)]
            simp [hdn]
        by_cases hs : s = []
        · rw [if_pos hs] at hun ⊢
          exact herr _ (hr.trans hun)
        · rw [if_neg hs] at hun ⊢
          exact hok _ hun.1 (hr.trans hun.2)
      · rw [if_neg hnb]
        rcases brace_split lit with hno | ⟨a, c, b, rfl, g1, g2, g3⟩
        · exact absurd ((hbr lit).2 hno) hnb
        · have hdw : (a ++ c :: b).dropWhile (fun c => !isBrace c) = c :: b := by
            have ha : ∀ x ∈ a, isBrace x = false := by
              intro x hx
              have := List.any_eq_false.1 ((hbr a).2 ⟨g1, g2⟩) x hx
              simpa using this
            have hc : isBrace c = true := by rcases g3 with rfl | rfl <;> decide
            rw [List.dropWhile_append_of_pos (by intro x hx; simp [ha x hx])]
            rw [List.dropWhile_cons_of_neg (by simp [hc])]
          rw [hdw]
          have he : escBraces (c :: b) = c :: c :: escBraces b := by
            rcases g3 with rfl | rfl <;> rw [escBraces_cons] <;> simp
          have htx' : ScanTemplate.text ⟨segs, last⟩ ++ tail = a ++ c :: (c :: (escBraces b ++ behind)) := by
            rw [htx, show escBraces (a ++ c :: b) = escBraces a ++ escBraces (c :: b) by simp [escBraces],
              escBraces_plain g1 g2, he]
            simp
          have hr : readString sp.meaning (.ofStr (ScanTemplate.text ⟨segs, last⟩ ++ tail)) r =
              readStringComplex (escBraces (c :: b) ++ behind) r := by
            rw [b3 a c _ htx' g1 g2 g3]
            simp only
            rw [if_neg fun hh => hh.2 hh.1, he]
            rfl
          have hcx := complex_exact (lit := c :: b) (by simp) hst more hm h
          cases hh : hunt (c :: b) more 0 s with
          | none => rw [hh] at hcx; exact herr _ (hr.trans hcx)
          | some k => rw [hh] at hcx; exact hok k hcx.1 (hr.trans hcx.2)

/-! ### Scan strings -/

theorem textPieces_eq : ∀ (l pend : Str), textPieces pend l = litPieces pend l := by
  intro l
  induction l with
  | nil => intro pend; unfold textPieces litPieces; by_cases h : pend = [] <;> simp [h]
  | cons c l ih =>
    intro pend
    unfold textPieces litPieces
    simp only [isBrace, Bool.or_eq_true, decide_eq_true_eq, ih]

theorem pieces_exact : ∀ (ps : List Str) {r : Reader} {s : Str}, r.At s →
    match matchPieces ps s with
    | .done rest _ => ∃ r', matchAll ps r = .ok r' () ∧ r.Front rest r'
    | .stop rest e _ => ∃ r', matchAll ps r = .err r' e ∧ r.Front rest r'
    | .undefined => False := by
  intro ps
  induction ps with
  | nil => intro r s h; exact ⟨r, rfl, h.front⟩
  | cons p ps ih =>
    intro r s h
    rw [matchPieces]
    by_cases hp : p <+: s
    · rw [if_pos hp]
      obtain ⟨u, rfl⟩ := hp
      have hm : readIfMatchStr p r = .ok (r.adv p.length) p := by
        rw [C06_read_if_match_str, h.2, if_pos (List.prefix_append _ _)]; rfl
      have := ih h.adv
      rw [List.drop_left]
      unfold matchAll
      rw [M.bind_ok hm]
      cases hmp : matchPieces ps u with
      | done rest _ => rw [hmp] at this; obtain ⟨r', h1, h2⟩ := this; exact ⟨r', h1, h2.1, h2.2⟩
      | stop rest e _ => rw [hmp] at this; obtain ⟨r', h1, h2⟩ := this; exact ⟨r', h1, h2.1, h2.2⟩
      | undefined => rw [hmp] at this; exact this
    · rw [if_neg hp]
      refine ⟨r, ?_, h.front⟩
      unfold matchAll
      by_cases hl : s.length < p.length
      · rw [if_pos hl]
        have hm : readIfMatchStr p r = .err r .eof := by
          rw [C06_read_if_match_str, h.2, if_neg hp, if_pos hl]
        rw [M.bind_err hm]
      · rw [if_neg hl]
        have hm : readIfMatchStr p r = .err r .invalidData := by
          rw [C06_read_if_match_str, h.2, if_neg hp, if_neg hl]
        rw [M.bind_err hm]

theorem scanField_exact (ty : ScanTy) {sp : ScanSpec} (wf : sp.WellFormed) (fits : sp.Fits) (hal : ScanTy.Allows ty sp)
    (segs : List (Str × ScanHole)) (last : Str) {tail : Str} (ht : Stop tail)
    (hd : ∀ s ∈ segs, ∀ c ∈ s.2.idx, isDigit c = true) {r : Reader} {s : Str} (old : ScanVal) (h : r.At s) :
    (readField ty sp (following last segs) (segs ≠ [] ∨ tail ≠ []) old s).Is r
      (ty.scan sp.meaning (.ofStr (ScanTemplate.text ⟨segs, last⟩ ++ tail)) ⟨r, old⟩) := by
  cases ty with
  | char => exact char_exact old h
  | int t => exact integer_exact t wf fits hal old h
  | string => exact string_exact fits segs last ht hd old h

theorem segs_exact (tys : List ScanTy) (last : Str) {tail : Str} (ht : Stop tail) :
    ∀ (segs : List (Str × ScanHole)) (i : Nat) (io : ScanIO) (s : Str), SegsOk tys i segs → io.inp.At s →
      tys.length ≤ io.vars.length →
      scanSegs tys last tail i segs io = (scanReference tys last tail i segs s io.vars).run io.inp.src := by
  intro segs
  induction segs with
  | nil =>
    intro i io s _ h _
    have := pieces_exact (textPieces [] last) h
    rw [scanReference]
    unfold scanSegs ScanIO.onInp matchLit
    rw [← textPieces_eq]
    cases hm : matchPieces (textPieces [] last) s with
    | done rest _ => rw [hm] at this; obtain ⟨r', h1, h2⟩ := this; rw [h1, h2.eq]; rfl
    | stop rest e _ => rw [hm] at this; obtain ⟨r', h1, h2⟩ := this; rw [h1, h2.eq]; rfl
    | undefined => rw [hm] at this; exact this.elim
  | cons sg segs ih =>
    intro i io s hok h hl
    obtain ⟨lit, hole⟩ := sg
    obtain ⟨⟨ty, hn, hal⟩, wf, fits, hok'⟩ := hok.cons
    have := pieces_exact (textPieces [] lit) h
    rw [scanReference]
    unfold scanSegs
    cases hm : matchPieces (textPieces [] lit) s with
    | undefined => rw [hm] at this; exact this.elim
    | stop rest e _ =>
      rw [hm] at this
      obtain ⟨r', h1, h2⟩ := this
      have ho : ScanIO.onInp (matchLit lit) io = .err ⟨r', io.vars⟩ e := by
        unfold ScanIO.onInp matchLit; rw [← textPieces_eq, h1]
      rw [M.bind_err ho, h2.eq]
      rfl
    | done s1 _ =>
      rw [hm] at this
      obtain ⟨r', h1, h2⟩ := this
      have ho : ScanIO.onInp (matchLit lit) io = .ok ⟨r', io.vars⟩ () := by
        unfold ScanIO.onInp matchLit; rw [← textPieces_eq, h1]
      rw [M.bind_ok ho]
      have hlt : hole.field.argument i < io.vars.length := by
        have := (List.getElem?_eq_some_iff.1 hn).1
        omega
      have hv : io.vars[hole.field.argument i]? = some io.vars[hole.field.argument i] := List.getElem?_eq_getElem hlt
      simp only [hn, hv, (scan_fits_pass fits).2]
      have hf := scanField_exact ty wf fits hal segs last ht hok'.digits io.vars[hole.field.argument i] h2.2
      cases hr : readField ty hole.sp (following last segs) (segs ≠ [] ∨ tail ≠ []) io.vars[hole.field.argument i] s1 with
      | undefined =>
        rw [hr] at hf
        simp only [ScanEnd.Is] at hf
        have hov : ScanIO.onVar (hole.field.argument i)
            (ty.scan hole.sp.meaning (.ofStr (ScanTemplate.text ⟨segs, last⟩ ++ tail))) ⟨r', io.vars⟩ = .bad .ub := by
          unfold ScanIO.onVar
          simp only [hv, hf]
        rw [M.bind_bad hov]
        rfl
      | stop rest e v =>
        rw [hr] at hf
        obtain ⟨r2, g1, g2⟩ := hf
        have hov : ScanIO.onVar (hole.field.argument i)
            (ty.scan hole.sp.meaning (.ofStr (ScanTemplate.text ⟨segs, last⟩ ++ tail))) ⟨r', io.vars⟩ =
            .err ⟨r2, io.vars.set (hole.field.argument i) v⟩ e := by
          unfold ScanIO.onVar
          simp only [hv, g1]
        rw [M.bind_err hov, g2.eq, h2.1]
        rfl
      | done rest v =>
        rw [hr] at hf
        obtain ⟨r2, g1, g2⟩ := hf
        have hov : ScanIO.onVar (hole.field.argument i)
            (ty.scan hole.sp.meaning (.ofStr (ScanTemplate.text ⟨segs, last⟩ ++ tail))) ⟨r', io.vars⟩ =
            .ok ⟨r2, io.vars.set (hole.field.argument i) v⟩ () := by
          unfold ScanIO.onVar
          simp only [hv, g1]
        rw [M.bind_ok hov]
        simp only
        rw [ih (i + 1) ⟨r2, io.vars.set (hole.field.argument i) v⟩ rest hok' g2.2 (by simpa using hl)]
        simp only [g2.1, h2.1]

/-! ### What is left is the end of the input -/

theorem splitSign_suffix (s : Str) : (splitSign s).2 <:+ s := by
  unfold splitSign
  split <;> first | exact List.suffix_refl _ | exact List.suffix_cons _ _

theorem behindMark_suffix {b b' : Nat} {s s' : Str} (h : behindMark b s = .ok (b', s')) : s' <:+ s := by
  unfold behindMark at h
  split at h
  · cases h
  · split at h
    · cases h
    · cases h; exact List.suffix_refl _

theorem anyMark_suffix {b' : Nat} {s s' : Str} (h : anyMark s = .ok (b', s')) : s' <:+ s := by
  unfold anyMark at h
  split at h
  · cases h
  · split at h
    · exact (behindMark_suffix h).trans ((List.suffix_cons _ _).trans (List.suffix_cons _ _))
    · split at h
      · exact (behindMark_suffix h).trans ((List.suffix_cons _ _).trans (List.suffix_cons _ _))
      · exact (behindMark_suffix h).trans (List.suffix_cons _ _)
  · cases h; exact List.suffix_refl _

theorem requiredMark_suffix {b b' : Nat} {s s' : Str} (h : requiredMark b s = .ok (b', s')) : s' <:+ s := by
  unfold requiredMark at h
  split at h
  · cases h
  · cases h
  · split at h
    · exact (behindMark_suffix h).trans (List.suffix_cons _ _)
    · generalize (if b = 2 then ['b', 'B'] else ['x', 'X']) = l at h
      split at h
      · exact (behindMark_suffix h).trans ((List.suffix_cons _ _).trans (List.suffix_cons _ _))
      · cases h
  · cases h

theorem fieldBase_suffix {sp : ScanSpec} {b' : Nat} {s s' : Str} (h : fieldBase sp s = .ok (b', s')) : s' <:+ s := by
  unfold fieldBase at h
  split at h
  · exact anyMark_suffix h
  · split at h
    · exact requiredMark_suffix h
    · cases h; exact List.suffix_refl _

theorem readDigits_suffix {t : IntTy} {b : Nat} {neg : Bool} {s rest : Str} {v : Int}
    (h : readDigits t b neg s = .value rest v) : rest <:+ s := by
  unfold readDigits at h
  simp only at h
  repeat' split at h
  all_goals first | cases h; done | (cases h; exact List.drop_suffix _ _)

theorem fieldNumber_suffix {t : IntTy} {sp : ScanSpec} {s rest : Str} {v : Int}
    (h : fieldNumber t sp s = .value rest v) : rest <:+ s := by
  unfold fieldNumber at h
  split at h
  · cases h
  · split at h
    · cases h
    · next b s' hb => exact (readDigits_suffix h).trans ((fieldBase_suffix hb).trans (splitSign_suffix s))

theorem readField_suffix {ty : ScanTy} {sp : ScanSpec} {lit : Str} {more : Bool} {old v : ScanVal} {s rest : Str}
    (h : readField ty sp lit more old s = .done rest v) : rest <:+ s := by
  unfold readField at h
  split at h
  · unfold charField at h
    split at h
    · cases h
    · cases h; exact List.suffix_cons _ _
  · unfold integerField at h
    split at h
    · split at h
      · cases h
      · cases h
      · next hn =>
        split at h
        · cases h; exact fieldNumber_suffix hn
        · cases h
    · split at h
      · cases h
      · split at h
        · cases h
        · cases h
        · split at h
          · cases h
          · split at h
            · cases h; exact List.drop_suffix _ _
            · cases h
  · unfold stringField at h
    simp only at h
    repeat' split at h
    all_goals first | cases h; done | (cases h; exact List.drop_suffix _ _)

theorem matchPieces_suffix : ∀ {ps : List Str} {s rest : Str}, matchPieces ps s = .done rest () → rest <:+ s := by
  intro ps
  induction ps with
  | nil => intro s rest h; cases h; exact List.suffix_refl _
  | cons p ps ih =>
    intro s rest h
    rw [matchPieces] at h
    split at h
    · exact (ih h).trans (List.drop_suffix _ _)
    · cases h

theorem scanReference_suffix {tys : List ScanTy} {last tail : Str} : ∀ {segs : List (Str × ScanHole)} {i : Nat} {s rest : Str}
    {vars vars' : List ScanVal}, scanReference tys last tail i segs s vars = .done rest vars' → rest <:+ s := by
  intro segs
  induction segs with
  | nil =>
    intro i s rest vars vars' h
    rw [scanReference] at h
    split at h
    · next hm => cases h; exact matchPieces_suffix hm
    · cases h
    · cases h
  | cons seg segs ih =>
    intro i s rest vars vars' h
    obtain ⟨lit, hole⟩ := seg
    rw [scanReference] at h
    split at h
    · cases h
    · cases h
    · next s' _ hm =>
      simp only at h
      split at h
      · split at h
        · next hf => exact (ih h).trans ((readField_suffix hf).trans (matchPieces_suffix hm))
        · cases h
        · cases h
      · cases h

end Emio
