import Verif.Lemmas.Settled
import Verif.Lemmas.Dynamic
import Verif.Spec.UserFormatter
/-
Whatever is formatted, and however it was specified: the calls made to the writer are in order, or there is undefined
behaviour before them.
-/
namespace Emio
open Reader Spec BufferImpl

/-- All calls are in order. -/
def AllFine (ops : List WOp) : Prop := ∀ op ∈ ops, op.Fine

/-- The calls made by `m` are in order, and it yields `Q`. -/
def Clean {α : Type} (m : Fmt α) (Q : α → Prop) : Prop :=
  ∀ ops, AllFine ops → match m ops with
    | .ok ops' a => AllFine ops' ∧ Q a
    | .err ops' _ => AllFine ops'
    | .bad _ => True

/-- Any value. -/
def anyValue {α : Type} (_ : α) : Prop := True

theorem clean_pure {α : Type} {a : α} {Q : α → Prop} (h : Q a) : Clean (pure a) Q := fun _ ho => ⟨ho, h⟩
theorem clean_throw {α : Type} {e : Err} {Q : α → Prop} : Clean (M.throw e) Q := fun _ ho => ho
theorem clean_bad {α : Type} {b : Bad} {Q : α → Prop} : Clean (M.bad b) Q := fun _ _ => trivial

theorem clean_emit {op : WOp} (h : op.Fine) : Clean (emit op) anyValue := by
  intro ops ho
  refine ⟨?_, trivial⟩
  intro x hx
  rcases List.mem_append.1 hx with hx | hx
  · exact ho x hx
  · obtain rfl := List.mem_singleton.1 hx
    exact h

theorem Clean.bind {α β : Type} {m : Fmt α} {f : α → Fmt β} {Q : α → Prop} {R : β → Prop} (hm : Clean m Q)
    (hf : ∀ a, Q a → Clean (f a) R) : Clean (m >>= f) R := by
  intro ops ho
  have h := hm ops ho
  rw [M.bind_run]
  cases hx : m ops with
  | ok s a => rw [hx] at h; exact hf a h.2 s h.1
  | err s e => rw [hx] at h; exact h
  | bad b => trivial

theorem clean_ite {α : Type} {c : Prop} [Decidable c] {x y : Fmt α} {Q : α → Prop} (hx : c → Clean x Q)
    (hy : ¬ c → Clean y Q) : Clean (if c then x else y) Q := by
  split
  · exact hx ‹_›
  · exact hy ‹_›

theorem clean_liftPure {α : Type} {m : Pure' α} {Q : α → Prop} (h : ∀ a, m () = .ok () a → Q a) : Clean (liftPure m) Q := by
  intro ops ho
  unfold liftPure
  cases hm : m () with
  | ok u a => exact ⟨ho, h a hm⟩
  | err u e => exact ho
  | bad b => trivial

/-! ### Core types -/

theorem clean_padded {d : Align} {s : Specs} {w : Nat} {func : Fmt Unit} (h : Clean func anyValue) :
    Clean (writePadded d s w func) anyValue := by
  unfold writePadded
  refine Clean.bind (Q := anyValue) ?_ fun x _ => h.bind fun _ _ => ?_
  · unfold writePaddingLeft
    refine clean_ite (fun _ => clean_pure trivial) fun _ => clean_ite (fun _ => clean_bad) fun _ =>
      clean_ite (fun _ => clean_pure trivial) fun _ => ?_
    exact (clean_emit (by exact trivial)).bind fun _ _ => clean_pure trivial
  · unfold writePaddingRight
    exact clean_ite (fun _ => clean_pure trivial) fun _ => clean_emit (by exact trivial)

theorem clean_sign (s : Specs) (n : Bool) : Clean (tryWriteSign s n) anyValue := by
  unfold tryWriteSign
  exact clean_ite (fun _ => (clean_emit (by exact trivial)).bind fun _ _ => clean_pure trivial) fun _ => clean_pure trivial

theorem clean_prefix (s : Specs) (p : Str) : Clean (tryWritePrefix s p) anyValue := by
  unfold tryWritePrefix
  exact clean_ite (fun _ => (clean_emit (by exact trivial)).bind fun _ _ => clean_pure trivial) fun _ =>
    clean_ite (fun _ => clean_pure trivial) fun _ => clean_pure trivial

theorem clean_intOptions (c : Char) : Clean (makeWriteIntOptions c) (fun x => 2 ≤ x.2.1 ∧ x.2.1 ≤ 36) := by
  unfold makeWriteIntOptions
  repeat' first
    | exact clean_pure (by decide)
    | exact clean_throw
    | refine clean_ite (fun _ => ?_) fun _ => ?_

theorem clean_int (s : Specs) (t : IntTy) (n : Int) : Clean (writeArgInt s t n) anyValue := by
  unfold writeArgInt
  refine clean_ite (fun _ => clean_padded (clean_emit (by exact trivial))) fun _ => (clean_intOptions _).bind fun x hx => ?_
  obtain ⟨pfx, base, upper⟩ := x
  refine (clean_sign _ _).bind fun _ _ => (clean_prefix _ _).bind fun _ _ => clean_padded (clean_emit ?_)
  show List.length _ = _
  rw [List.length_append, List.length_append, signText_length, writeNumber_eq _ _ _ _ hx.1 hx.2, List.append_nil,
    getNumberOfDigits_eq _ _ upper hx.1]
  omega

/-! ### Floating-point numbers -/

/-- What a computation without errors yields. -/
def Gives {α : Type} (m : Pure' α) (Q : α → Prop) : Prop := ∀ a, m () = .ok () a → Q a

theorem gives_pure {α : Type} {a : α} {Q : α → Prop} (h : Q a) : Gives (pure a) Q := by
  intro x hx
  cases hx
  exact h

theorem gives_bad {α : Type} {b : Bad} {Q : α → Prop} : Gives (M.bad b) Q := fun _ h => by cases h

theorem Gives.bind {α β : Type} {m : Pure' α} {f : α → Pure' β} {Q : α → Prop} {R : β → Prop} (hm : Gives m Q)
    (hf : ∀ a, Q a → Gives (f a) R) : Gives (m >>= f) R := by
  intro b hb
  rw [M.bind_run] at hb
  cases hx : m () with
  | ok u a => rw [hx] at hb; exact hf a (hm a hx) b hb
  | err u e => rw [hx] at hb; cases hb
  | bad b => rw [hx] at hb; cases hb

theorem gives_any {α : Type} (m : Pure' α) : Gives m anyValue := fun _ _ => trivial

theorem gives_ite {α : Type} {c : Prop} [Decidable c] {x y : Pure' α} {Q : α → Prop} (hx : c → Gives x Q)
    (hy : ¬ c → Gives y Q) : Gives (if c then x else y) Q := by
  split
  · exact hx ‹_›
  · exact hy ‹_›

theorem gives_copyN (input : Str) (off count : Int) :
    Gives (copyN input off count) (fun t => 0 ≤ count ∧ (t.length : Int) = count) := by
  unfold copyN
  refine gives_ite (fun _ => gives_bad) fun h => gives_pure ?_
  simp only [List.length_take, List.length_drop]
  omega

theorem gives_fillZeros (count : Int) : Gives (fillZeros count) (fun t => 0 ≤ count ∧ (t.length : Int) = count) := by
  unfold fillZeros
  refine gives_ite (fun _ => gives_bad) fun h => gives_pure ?_
  simp only [List.length_replicate]
  omega

theorem gives_significand (sig : Str) (size integral : Int) (point : Bool) : Gives (writeSignificand sig size integral point)
    (fun t => 0 ≤ integral ∧ if point then integral ≤ size ∧ (t.length : Int) = size + 1 else (t.length : Int) = integral) := by
  unfold writeSignificand
  refine (gives_copyN _ _ _).bind fun a ha => gives_ite (fun h => gives_pure ?_) fun h =>
    (gives_copyN _ _ _).bind fun b hb => gives_pure ?_
  · have : point = false := by simpa using h
    subst this
    simpa using ha
  · have : point = true := by simpa using h
    subst this
    simp only [List.length_append, List.length_cons, if_true]
    omega

theorem exponent_length (x : Int) (h : x.natAbs < 1000) :
    (writeExponent x).length = 1 + if x.natAbs ≥ 100 then 3 else 2 := by
  unfold writeExponent
  simp only [writeDecimal_eq false, List.append_nil]
  have h1 : ∀ n, n < 10 → (numeral false 10 n).length = 1 := fun n hn => length_numeral_lt false 10 n (by decide) hn
  have h2 : ∀ n, 10 ≤ n → n < 100 → (numeral false 10 n).length = 2 := fun n hn hn' => by
    rw [length_numeral_ge false 10 n (by decide) hn, h1 _ (by omega)]
  have h3 : ∀ n, 100 ≤ n → n < 1000 → (numeral false 10 n).length = 3 := fun n hn hn' => by
    rw [length_numeral_ge false 10 n (by decide) (by omega), h2 _ (by omega) (by omega)]
  split
  · simp [h3 _ ‹_› h]
  · split
    · simp [h1 _ ‹_›]
    · simp [h2 x.natAbs (by omega) (by omega)]

theorem size_nonneg (fp : FpSpecs) (digits : Str) : 0 ≤ significandSize fp digits := by
  unfold significandSize
  have := (List.takeWhile_prefix (· == '0') (l := digits.reverse)).length_le
  rw [List.length_reverse] at this
  split <;> omega

theorem clean_decimalExp (s : Specs) (fp : FpSpecs) (d : Str) (e : Int) (h : Bool) (c : Char) (he : e.natAbs < 1000) :
    Clean (writeDecimalExp s fp d e h c) anyValue := by
  unfold writeDecimalExp
  have hs := size_nonneg fp d
  refine clean_padded ((clean_liftPure (gives_significand _ _ _ _)).bind fun a ha =>
    (clean_liftPure (gives_fillZeros _)).bind fun z hz => clean_emit ?_)
  show List.length _ = _
  simp only [List.length_append, List.length_cons, signText_length, exponent_length _ he]
  generalize significandSize fp d = size at *
  obtain ⟨_, ha⟩ := ha
  obtain ⟨_, hz⟩ := hz
  by_cases hp : (!fp.showpoint && decide (size = 1)) = true
  · rw [hp] at ha
    simp at hp ha
    obtain ⟨hp1, rfl⟩ := hp
    simp only [hp1, Bool.false_eq_true, if_false] at hz ⊢
    simp
    split <;> omega
  · have hp' : (!fp.showpoint && decide (size = 1)) = false := by simpa using hp
    rw [hp'] at ha
    rw [hp']
    simp at ha
    simp only [Bool.not_false, if_true]
    omega

theorem gives_fixedText (s : Specs) (fp : FpSpecs) (d : Str) (size e : Int) (hs : 0 ≤ size) :
    Gives (fixedText (fixedLayout s fp size e) d size e)
      (fun t => t.length = (fixedLayout s fp size e).numDigits.toNat) := by
  unfold fixedText
  refine gives_ite (fun h => ?_) fun h => gives_ite (fun h' => ?_) fun h' => ?_
  · refine gives_ite (fun hp => ?_) fun hp => ?_
    · refine (gives_fillZeros _).bind fun z hz => (gives_copyN _ _ _).bind fun a ha => (gives_fillZeros _).bind fun z2 hz2 =>
        gives_pure ?_
      simp only [List.length_append, List.length_cons]
      unfold fixedLayout at hz hz2 ⊢
      simp only [if_pos h] at hz hz2 ⊢
      omega
    · unfold fixedLayout at hp
      simp [if_pos h] at hp
  · refine (gives_copyN _ _ _).bind fun a ha => (gives_fillZeros _).bind fun z hz => gives_ite (fun hp => ?_) fun hp => ?_
    · refine (gives_fillZeros _).bind fun z2 hz2 => gives_pure ?_
      simp only [List.length_append, List.length_cons]
      unfold fixedLayout at ha hz hz2 hp ⊢
      simp only [if_neg h, if_pos h'] at ha hz hz2 hp ⊢
      split at ha <;> simp_all <;> omega
    · refine gives_pure ?_
      simp only [List.length_append]
      unfold fixedLayout at ha hz hp ⊢
      simp only [if_neg h, if_pos h'] at ha hz hp ⊢
      split at ha <;> simp_all <;> omega
  · refine (gives_significand _ _ _ _).bind fun a ha => (gives_fillZeros _).bind fun z hz => gives_pure ?_
    simp only [List.length_append]
    unfold fixedLayout at ha hz ⊢
    simp only [if_neg h, if_neg h', if_true] at ha hz ⊢
    omega

theorem clean_decimalFixed (s : Specs) (fp : FpSpecs) (d : Str) (e : Int) (h : Bool) (c : Char) :
    Clean (writeDecimalFixed s fp d e h c) anyValue := by
  unfold writeDecimalFixed
  refine clean_padded ((clean_liftPure (gives_fixedText s fp d _ e (size_nonneg fp d))).bind fun a ha => clean_emit ?_)
  show List.length _ = _
  rw [List.length_append, signText_length, ha]
  omega

/-! The exponent is that of a double. -/

/-- An exponent that can be. -/
def Small (x : Int) : Prop := -500 ≤ x ∧ x ≤ 500

theorem gives_exactRound (mant scale : Bignum) (dst : Str) (k n : Int) (hk : -450 ≤ k ∧ k ≤ 450) :
    Gives (exactRound mant scale dst k n) (fun x => Small x.2) := by
  unfold exactRound
  refine (gives_any _).bind fun _ _ => (gives_any _).bind fun _ _ => gives_ite (fun _ => ?_) fun _ => gives_pure ?_
  · rcases roundUp dst with ⟨d, c⟩
    cases c with
    | none => exact gives_pure ⟨by simp only; omega, by simp only; omega⟩
    | some c =>
      refine gives_ite (fun _ => gives_ite (fun _ => ?_) fun _ => gives_ite (fun _ => ?_) fun _ => ?_) fun _ => ?_ <;>
      exact gives_pure ⟨by simp only; omega, by simp only; omega⟩
  · exact ⟨by simp only; omega, by simp only; omega⟩

theorem gives_formatExact (dec : Finite) (mode : ExactMode) (n : Int)
    (hk : -400 ≤ estimateScalingFactor dec.mant dec.exp ∧ estimateScalingFactor dec.mant dec.exp ≤ 400) :
    Gives (formatExact dec mode n) (fun x => Small x.2) := by
  unfold formatExact
  generalize estimateScalingFactor dec.mant dec.exp = k at hk
  rcases scaling dec.exp k with ⟨s2, s5, m2, m5⟩
  refine (gives_any _).bind fun _ _ => (gives_any _).bind fun _ _ => (gives_any _).bind fun x _ => ?_
  rcases x with ⟨len, extra⟩
  refine (gives_any _).bind fun geq _ => ?_
  have hk' : -450 ≤ (if geq = true then k + 1 else k) ∧ (if geq = true then k + 1 else k) ≤ 450 := by split <;> omega
  simp only
  generalize (if geq = true then k + 1 else k) = k' at hk'
  refine gives_ite (fun _ => (gives_any _).bind fun _ _ => ?_) fun _ => (gives_any _).bind fun _ _ => ?_
  all_goals
    refine gives_ite (fun _ => ?_) fun _ => gives_exactRound _ _ _ _ _ hk'
    refine (gives_any _).bind fun _ _ => (gives_any _).bind fun _ _ => (gives_any _).bind fun _ _ =>
      (gives_any _).bind fun x _ => ?_
    rcases x with ⟨dst, rest⟩
    cases rest with
    | none => exact gives_pure ⟨by simp only; omega, by simp only; omega⟩
    | some m => exact gives_exactRound _ _ _ _ _ hk'

theorem gives_formatShortest (dec : Finite) (hk : -400 ≤ estimateScalingFactor (dec.mant + dec.plus) dec.exp ∧
    estimateScalingFactor (dec.mant + dec.plus) dec.exp ≤ 400) : Gives (formatShortest dec) (fun x => Small x.2) := by
  unfold formatShortest
  generalize estimateScalingFactor (dec.mant + dec.plus) dec.exp = k at hk
  rcases scaling dec.exp k with ⟨s2, s5, m2, m5⟩
  refine (gives_any _).bind fun _ _ => (gives_any _).bind fun _ _ => (gives_any _).bind fun _ _ => (gives_any _).bind fun _ _ =>
    (gives_any _).bind fun _ _ => (gives_any _).bind fun o _ => ?_
  have hk' : -450 ≤ (if roundingOf dec.inclusive o = true then k + 1 else k) ∧
      (if roundingOf dec.inclusive o = true then k + 1 else k) ≤ 450 := by split <;> omega
  simp only
  generalize (if roundingOf dec.inclusive o = true then k + 1 else k) = k' at hk'
  have hround : ∀ ds b, Gives (shortestRound ds k' b) (fun x => Small x.2) := by
    intro ds b
    unfold shortestRound
    refine gives_ite (fun _ => ?_) fun _ => gives_pure ⟨by simp only; omega, by simp only; omega⟩
    rcases roundUp ds with ⟨d, c⟩
    cases c with
    | none => exact gives_pure ⟨by simp only; omega, by simp only; omega⟩
    | some c => exact gives_ite (fun _ => gives_pure ⟨by simp only; omega, by simp only; omega⟩) fun _ => gives_bad
  refine gives_ite (fun _ => (gives_any _).bind fun _ _ => ?_) fun _ => (gives_any _).bind fun _ _ => ?_
  all_goals
    refine gives_ite (fun _ => (gives_any _).bind fun _ _ => ?_) fun _ => (gives_any _).bind fun _ _ => ?_
  all_goals
    refine gives_ite (fun _ => (gives_any _).bind fun _ _ => ?_) fun _ => (gives_any _).bind fun _ _ => ?_
  all_goals
    refine (gives_any _).bind fun _ _ => (gives_any _).bind fun _ _ => (gives_any _).bind fun _ _ =>
      (gives_any _).bind fun x _ => ?_
    rcases x with ⟨ds, m, down, up⟩
    simp only
    repeat' first
      | exact hround _ _
      | refine gives_ite (fun _ => ?_) fun _ => ?_
      | refine (gives_any _).bind fun _ _ => ?_

theorem estimate_small {mant : Nat} {exp : Int} (h1 : mant < 2 ^ 56) (h2 : -1100 ≤ exp) (h3 : exp ≤ 1000) :
    -400 ≤ estimateScalingFactor mant exp ∧ estimateScalingFactor mant exp ≤ 400 := by
  have hb : bitWidth (mant - 1) ≤ 56 := by
    unfold bitWidth
    split
    · omega
    · rename_i h
      have := (Nat.log2_lt h).2 (show mant - 1 < 2 ^ 56 by omega)
      omega
  unfold estimateScalingFactor
  omega

theorem decode_small (bits : Nat) (h1 : (decode bits).category ≠ .infinity) (h2 : (decode bits).category ≠ .nan) :
    (decode bits).finite.mant + (decode bits).finite.plus < 2 ^ 56 ∧ -1100 ≤ (decode bits).finite.exp ∧
      (decode bits).finite.exp ≤ 1000 := by
  unfold decode at h1 h2 ⊢
  simp only at h1 h2 ⊢
  have hm : bits % 2 ^ 52 < 2 ^ 52 := Nat.mod_lt _ (by decide)
  have he : bits / 2 ^ 52 % 2 ^ 11 < 2 ^ 11 := Nat.mod_lt _ (by decide)
  generalize bits % 2 ^ 52 = m at *
  generalize bits / 2 ^ 52 % 2 ^ 11 = x at *
  split
  · simp
  · split
    · exfalso
      rw [if_neg ‹_›, if_pos ‹_›] at h1 h2
      simp only at h1 h2
      split at h1 <;> simp_all
    · split
      · rename_i hx
        rw [if_neg hx] at *
        split <;> simp only <;> omega
      · simp only
        split <;> omega

theorem clean_double (s : Specs) (bits : Nat) : Clean (formatAndWriteDecimal s (decode bits)) anyValue := by
  unfold formatAndWriteDecimal
  refine clean_ite (fun _ => (clean_sign _ _).bind fun _ _ => clean_padded ?_) fun hc => ?_
  · have h : ∀ a b, Clean (writeNonFinite a b) anyValue := fun a b => by
      unfold writeNonFinite
      exact clean_ite (fun _ => clean_emit (by exact trivial)) fun _ => clean_emit (by exact trivial)
    exact clean_ite (fun _ => (clean_emit (by exact trivial)).bind fun _ _ => h _ _) fun _ => h _ _
  · have hd := decode_small bits (fun h => hc (Or.inl h)) (fun h => hc (Or.inr h))
    have k1 := estimate_small (mant := (decode bits).finite.mant) (by omega) hd.2.1 hd.2.2
    have k2 := estimate_small hd.1 hd.2.1 hd.2.2
    refine (clean_liftPure (Q := fun x => Small x.2) ?_).bind fun x hx => ?_
    · show Gives _ _
      unfold formatDecimal
      refine gives_ite (fun _ => gives_pure ⟨by decide, by decide⟩) fun _ => ?_
      cases (parseFpSpecs s).format with
      | general => exact gives_ite (fun _ => gives_formatShortest _ k2) fun _ => gives_formatExact _ _ _ k1
      | exp => exact gives_formatExact _ _ _ k1
      | fixed =>
        refine (gives_formatExact _ _ _ k1).bind fun x hx => ?_
        rcases x with ⟨digits, exp⟩
        exact gives_ite (fun _ => gives_pure ⟨by decide, by decide⟩) fun _ => gives_pure hx
      | hex => exact gives_bad
    · show Clean (writeDecimalFp s _ _ x.1 x.2) _
      unfold writeDecimalFp
      obtain ⟨x1, x2⟩ := hx
      exact (clean_sign _ _).bind fun _ _ => clean_ite (fun _ => clean_decimalExp _ _ _ _ _ _ (by omega)) fun _ =>
        clean_decimalFixed _ _ _ _ _ _

theorem clean_write (s : Specs) (a : CoreArg) : Clean (a.write s) anyValue := by
  cases a with
  | bool b =>
    show Clean (writeArgBool s b) _
    unfold writeArgBool
    exact clean_ite (fun _ => clean_int _ _ _) fun _ => clean_ite (fun _ => clean_padded (clean_emit (by exact trivial))) fun _ =>
      clean_padded (clean_emit (by exact trivial))
  | char c =>
    show Clean (writeArgChar s c) _
    unfold writeArgChar
    exact clean_ite (fun _ => clean_int _ _ _) fun _ => clean_ite (fun _ => clean_padded (clean_emit (by exact trivial))) fun _ =>
      clean_padded (clean_emit (by exact trivial))
  | int t n => exact clean_int _ _ _
  | double bits => exact clean_double _ _
  | pointer p => exact clean_int { s with alternateForm := true, type := 'x' } u64 p
  | string str =>
    show Clean (writeArgStr s str) _
    unfold writeArgStr
    exact clean_ite (fun _ => clean_padded (clean_emit (by exact trivial))) fun _ => clean_padded (clean_emit (by exact trivial))

/-! ### All types -/

mutual
theorem clean_format : ∀ (v : FVal) (f : Fmtr), Clean (v.format f) anyValue
  | .core a, f => by
    cases f with
    | core t s => rw [FVal.format.eq_def]; exact clean_write s a
    | _ => rw [FVal.format.eq_def]; exact clean_bad
  | .range vs, f => by
    cases f with
    | range o c sep f =>
      rw [FVal.format.eq_def]
      exact (clean_emit (by exact trivial)).bind fun _ _ => (clean_formatRange sep f true vs).bind fun _ _ => clean_emit (by exact trivial)
    | _ => rw [FVal.format.eq_def]; exact clean_bad
  | .tuple vs, f => by
    cases f with
    | tuple o c sep fs =>
      rw [FVal.format.eq_def]
      exact (clean_emit (by exact trivial)).bind fun _ _ => (clean_formatTuple sep true vs fs).bind fun _ _ => clean_emit (by exact trivial)
    | _ => rw [FVal.format.eq_def]; exact clean_bad
  | .none, f => by
    cases f with
    | optional f => rw [FVal.format.eq_def]; exact clean_emit (by exact trivial)
    | _ => rw [FVal.format.eq_def]; exact clean_bad
  | .some v, f => by
    cases f with
    | optional f =>
      rw [FVal.format.eq_def]
      exact (clean_emit (by exact trivial)).bind fun _ _ => (clean_format v f).bind fun _ _ => clean_emit (by exact trivial)
    | _ => rw [FVal.format.eq_def]; exact clean_bad
  | .monostate, f => by
    cases f with
    | monostate => rw [FVal.format.eq_def]; exact clean_emit (by exact trivial)
    | _ => rw [FVal.format.eq_def]; exact clean_bad
  | .variant t v, f => by
    cases f with
    | variant =>
      have hgen : Clean (fun ops : List WOp =>
          match t.fresh.parse (Reader.ofStr ['}']) with
          | .ok _ f => v.format f ops
          | .err _ e => .err ops e
          | .bad b => .bad b) anyValue := by
        cases hp : t.fresh.parse (Reader.ofStr ['}']) with
        | ok r f => exact clean_format v f
        | err r e => exact clean_throw
        | bad b => exact clean_bad
      rw [FVal.format.eq_def]
      refine (clean_emit (by exact trivial)).bind fun _ _ => Clean.bind (Q := anyValue) ?_ fun _ _ => clean_emit (by exact trivial)
      cases v with
      | core a =>
        cases a with
        | char c => exact clean_emit (by exact trivial)
        | string s => exact clean_emit (by exact trivial)
        | _ => exact hgen
      | _ => exact hgen
    | _ => rw [FVal.format.eq_def]; exact clean_bad
  | .valueless, f => by
    cases f with
    | variant =>
      rw [FVal.format.eq_def]
      exact (clean_emit (by exact trivial)).bind fun _ _ => (clean_emit (by exact trivial)).bind fun _ _ => clean_emit (by exact trivial)
    | _ => rw [FVal.format.eq_def]; exact clean_bad

theorem clean_formatRange : ∀ (sep : Str) (f : Fmtr) (first : Bool) (vs : List FVal),
    Clean (FVal.formatRange sep f first vs) anyValue
  | sep, f, first, [] => by rw [FVal.formatRange.eq_def]; exact clean_pure trivial
  | sep, f, first, v :: vs => by
    rw [FVal.formatRange.eq_def]
    have h := (clean_format v f).bind fun _ _ => clean_formatRange sep f false vs
    exact clean_ite (fun _ => (clean_emit (by exact trivial)).bind fun _ _ => h) fun _ => h

theorem clean_formatTuple : ∀ (sep : Str) (first : Bool) (vs : List FVal) (fs : List Fmtr),
    Clean (FVal.formatTuple sep first vs fs) anyValue
  | sep, first, [], [] => by rw [FVal.formatTuple.eq_def]; exact clean_pure trivial
  | sep, first, [], f :: fs => by rw [FVal.formatTuple.eq_def]; exact clean_bad
  | sep, first, v :: vs, [] => by rw [FVal.formatTuple.eq_def]; exact clean_bad
  | sep, first, v :: vs, f :: fs => by
    rw [FVal.formatTuple.eq_def]
    have h := (clean_format v f).bind fun _ _ => clean_formatTuple sep false vs fs
    exact clean_ite (fun _ => (clean_emit (by exact trivial)).bind fun _ _ => h) fun _ => h
end

/-! ### Arguments -/

/-- Whatever specification an argument is given, its calls to the writer are in order. -/
def FArg.Clean (a : FArg) : Prop := ∀ r r' act, a.parse r = .ok r' act → Emio.Clean act anyValue

theorem value_clean (ty : FTy) (v : FVal) : (v.farg ty).Clean := by
  intro r r' act h
  obtain ⟨f, r1, h1, h2⟩ := bind_ok_inv h
  cases h2
  exact clean_format v _

theorem dynamic_clean (ty : FTy) (v : FVal) (w p : Int) : (v.dynamic ty w p).Clean := by
  intro r r' act h
  obtain ⟨f, r1, h1, h2⟩ := bind_ok_inv h
  cases h2
  exact clean_format v _

theorem allFine_str (ps : List Str) : AllFine (ps.map WOp.str) := fun op ho => (map_str_fine ps op ho).1

theorem AllFine.append {a b : List WOp} (ha : AllFine a) (hb : AllFine b) : AllFine (a ++ b) := by
  intro op ho
  rcases List.mem_append.1 ho with h | h
  · exact ha op h
  · exact hb op h

/-- The calls of a run are in order. -/
def FineRun (x : Run FSt Unit) : Prop :=
  match x with
  | .ok s _ => AllFine s.ops
  | .err s _ => AllFine s.ops
  | .bad _ => True

theorem loop_fine (args : List FArg) (h : ∀ a ∈ args, a.Clean) : ∀ (fuel : Nat) (s : FSt), AllFine s.ops →
    FineRun (formatLoop args fuel s) := by
  intro fuel
  induction fuel with
  | zero => intro s _; trivial
  | succ fuel ih =>
    intro s hs
    have hp : match Unchecked.parse s with
        | .ok s' _ => AllFine s'.ops
        | .err s' _ => AllFine s'.ops
        | .bad _ => True := by
      unfold Unchecked.parse
      cases Unchecked.scan [] s.p.rdr.rest 0 with
      | none => trivial
      | some x =>
        obtain ⟨n, field, pieces⟩ := x
        have ho : AllFine (s.ops ++ pieces.map WOp.str) := hs.append (allFine_str _)
        simp only
        cases field with
        | false => exact ho
        | true =>
          simp only [Bool.not_true, Bool.false_eq_true, if_false]
          cases Unchecked.replacementField _ with
          | ok p k => exact ho
          | err p e => exact ho
          | bad b => trivial
    rw [formatLoop, M.bind_run]
    cases hx : Unchecked.parse s with
    | bad b => trivial
    | err s' e => rw [hx] at hp; exact hp
    | ok s' n =>
      rw [hx] at hp
      simp only
      split
      · exact hp
      · cases ha : args[n]? with
        | none => trivial
        | some a =>
          simp only
          have hq : match processArg a s' with
              | .ok s' _ => AllFine s'.ops
              | .err s' _ => AllFine s'.ops
              | .bad _ => True := by
            unfold processArg
            cases hpa : a.parse s'.p.rdr with
            | bad b => trivial
            | err r e => exact hp
            | ok r act =>
              have hc := h a (List.mem_of_getElem? ha) _ _ _ hpa _ hp
              simp only
              cases hact : act s'.ops with
              | ok ops u => rw [hact] at hc; exact hc.1
              | err ops e => rw [hact] at hc; exact hc
              | bad b => trivial
          rw [M.bind_run]
          cases hy : processArg a s' with
          | bad b => trivial
          | err s2 e => rw [hy] at hq; exact hq
          | ok s2 u => rw [hy] at hq; exact ih s2 hq

theorem run_fine (str : Str) (args : List FArg) (h : ∀ a ∈ args, a.Clean) : FineRun (formatRun str args) :=
  loop_fine args h _ _ (by intro op ho; cases ho)

theorem nested_clean (str : Str) (args : List FArg) (h : ∀ a ∈ args, a.Clean) : (formatArgs str args).Clean := by
  intro r r' act ha
  obtain ⟨c, r1, h1, h2⟩ := bind_ok_inv ha
  cases h2
  intro ops ho
  simp only
  cases VStr.make str args with
  | bad b => trivial
  | err u e => exact ho
  | ok u vs =>
    simp only
    cases vs.str with
    | none => exact ho
    | some s =>
      simp only
      by_cases hp : vs.plain = true
      · simp only [hp, if_true]
        exact clean_emit (op := .str s) trivial ops ho
      · simp only [hp, Bool.false_eq_true, if_false]
        have hr := run_fine s args h
        cases hx : formatRun s args with
        | ok f u => rw [hx] at hr; exact ⟨ho.append hr, trivial⟩
        | err f e => rw [hx] at hr; exact ho.append hr
        | bad b => trivial

theorem any_clean (a : AnyArg) : a.farg.Clean := by
  cases a with
  | value ty v => exact value_clean ty v
  | dynamic ty v w p => exact dynamic_clean ty v _ _
  | nested str args =>
    refine nested_clean str _ fun a ha => ?_
    obtain ⟨c, _, rfl⟩ := List.mem_map.1 ha
    exact value_clean _ _

/-! ### All strings -/

theorem settled_or_bad (str : Str) (args : List FArg) (h : ∀ a ∈ args, a.Clean) :
    (∃ b, ∀ {σ : Type} [BufferImpl σ] (s : σ), formatTo str args s = .bad b) ∨
      ∃ text fail, Settled str args text fail := by
  cases hm : VStr.make str args with
  | bad b =>
    refine Or.inl ⟨b, fun s => ?_⟩
    unfold formatTo
    rw [hm]
  | err u e =>
    refine Or.inr ⟨[], some e, [], rfl, by simp, fun s => ?_⟩
    unfold formatTo
    rw [hm]
    rfl
  | ok u vs =>
    cases hs : vs.str with
    | none =>
      refine Or.inr ⟨[], some .invalidFormat, [], rfl, by simp, fun s => ?_⟩
      unfold formatTo vformatTo
      rw [hm]
      simp only [hs]
      rfl
    | some t =>
      by_cases hp : vs.plain = true
      · refine Or.inr ⟨t, none, [.str t], by simp [WOp.text], by simp [WOp.Fine], fun s => ?_⟩
        unfold formatTo vformatTo
        rw [hm]
        simp only [hs, hp, if_true]
        show writeStr t s = M.bind (M.bind (writeStr t) fun _ => pure ()) _ s
        unfold M.bind
        cases writeStr t s <;> rfl
      · have hr := run_fine t args h
        cases hx : formatRun t args with
        | bad b =>
          refine Or.inl ⟨b, fun s => ?_⟩
          unfold formatTo vformatTo
          rw [hm]
          simp only [hs, hp]
          rw [hx]
          rfl
        | ok f u =>
          rw [hx] at hr
          refine Or.inr ⟨_, none, f.ops, rfl, hr, fun s => ?_⟩
          unfold formatTo vformatTo
          rw [hm]
          simp only [hs, hp]
          rw [hx]
          show execAll f.ops s = M.bind (execAll f.ops) _ s
          unfold M.bind
          cases execAll f.ops s <;> rfl
        | err f e =>
          rw [hx] at hr
          refine Or.inr ⟨_, some e, f.ops, rfl, hr, fun s => ?_⟩
          unfold formatTo vformatTo
          rw [hm]
          simp only [hs, hp]
          rw [hx]
          show runOn (.err f e) s = M.bind (execAll f.ops) _ s
          unfold M.bind runOn
          simp only
          generalize execAll f.ops s = y
          cases y <;> rfl

end Emio
