import Verif.Model.CompileTime
import Verif.Props.Values
import Verif.Props.Scan
/-
Property C69: constant expressions.
-/
namespace Emio
open Spec BufferImpl

theorem apply_eq {α σ β : Type} (f : α → M σ β) (n : Nat) (as : List α) :
    CompileTime.apply f n as = match as[n]? with
      | none => M.throw .invalidFormat
      | some a => f a := by
  induction as generalizing n with
  | nil => cases n <;> rfl
  | cons a as ih =>
    cases n with
    | zero => rfl
    | succ n => simpa [CompileTime.apply] using ih n

theorem plain_eq (s : Str) : CompileTime.checkIfPlainString s = checkIfPlainString s := by
  unfold CompileTime.checkIfPlainString checkIfPlainString
  rw [Bool.eq_iff_iff]
  simp [List.any_eq_true, List.contains_iff_mem]
  constructor
  · intro h
    exact ⟨fun h1 => (h _ h1).1 rfl, fun h1 => (h _ h1).2 rfl⟩
  · rintro ⟨h1, h2⟩ c hc
    exact ⟨fun e => h1 (e ▸ hc), fun e => h2 (e ▸ hc)⟩

theorem validateLoop_eq (args : List FArg) (fuel : Nat) (p : PSt) (m : Bitset) :
    CompileTime.validateLoop args fuel p m = validateLoop args fuel p m := by
  induction fuel generalizing p m with
  | zero => rfl
  | succ fuel ih =>
    unfold CompileTime.validateLoop validateLoop
    cases Checked.parse p with
    | bad b => rfl
    | err p e => rfl
    | ok p n =>
      simp only
      split
      · rfl
      · split
        · rfl
        · rename_i hn
          cases m.set n with
          | none => rfl
          | some m =>
            simp only [apply_eq]
            obtain ⟨a, ha⟩ : ∃ a, args[n]? = some a := ⟨_, List.getElem?_eq_getElem (by omega)⟩
            simp only [ha]
            cases a.validate p.rdr with
            | bad b => rfl
            | err r e => rfl
            | ok r u => exact ih _ _

/-! ### C69 the same at compile time as at run time -/

/-- Format and scan strings are accepted at compile time iff they are at run time. -/
theorem C69_validation (str : Str) (args : List FArg) : CompileTime.validateStr str args = validateStr str args :=
  validateLoop_eq _ _ _ _

theorem make_eq (str : Str) (args : List FArg) : CompileTime.make str args = VStr.make str args := by
  unfold CompileTime.make VStr.make
  rw [plain_eq, C69_validation]
  split
  · rfl
  · cases validateStr str args with
    | ok u b => cases b <;> rfl
    | err u e => rfl
    | bad b => rfl

theorem formatLoop_eq (args : List FArg) (fuel : Nat) (s : FSt) (h : formatLoop args fuel s ≠ .bad .ub) :
    CompileTime.formatLoop args fuel s = formatLoop args fuel s := by
  induction fuel generalizing s with
  | zero => rfl
  | succ fuel ih =>
    unfold CompileTime.formatLoop
    unfold formatLoop at h ⊢
    simp only [bind, M.bind] at h ⊢
    cases hp : Unchecked.parse s with
    | bad b => rfl
    | err s e => rfl
    | ok s n =>
      simp only [hp] at h
      simp only
      split
      · rfl
      · rename_i hn
        rw [if_neg hn] at h
        rw [apply_eq]
        cases ha : args[n]? with
        | none => simp only [ha] at h; exact absurd rfl h
        | some a =>
          simp only [ha] at h
          simp only
          cases hx : processArg a s with
          | bad b => simp [M.bind, hx]
          | err s e => simp [M.bind, hx]
          | ok s u =>
            simp only [M.bind, hx] at h ⊢
            exact ih _ h

/-- Formatting into any buffer does the same at compile time as at run time, unless it is undefined behaviour. -/
theorem C69_format (str : Str) (args : List FArg) {σ : Type} [BufferImpl σ] (b : σ) (h : formatTo str args b ≠ .bad .ub) :
    CompileTime.formatTo str args b = formatTo str args b := by
  unfold CompileTime.formatTo formatTo at *
  rw [make_eq]
  cases hm : VStr.make str args with
  | bad x => rfl
  | err u e => rfl
  | ok u vs =>
    simp only [hm] at h
    simp only
    unfold vformatTo at *
    cases hs : vs.str with
    | none => rfl
    | some t =>
      simp only [hs] at h
      simp only
      split
      · rfl
      · rename_i hp
        rw [if_neg hp] at h
        have : CompileTime.formatRun t args = formatRun t args := by
          refine formatLoop_eq _ _ _ fun hb => h ?_
          have hb' : formatRun t args = .bad .ub := hb
          rw [hb']
          rfl
        rw [this]

/-- Arguments of all types but tuples, any string: it never is. -/
theorem C69_format_values (str : Str) (args : List (FTy × FVal)) (hlen : args.length ≤ 128)
    (hn : ∀ a ∈ args, NoTuple a.1) (hv : ∀ a ∈ args, HasType a.2 a.1) (n : Nat) (s : MemBuf) (t : Str)
    (hr : MemReach n s t) :
    CompileTime.formatTo str (vargs args) s = formatTo str (vargs args) s := by
  refine C69_format _ _ _ fun hb => ?_
  obtain ⟨s', h, _⟩ := (C61_no_undefined_behaviour_partial str args hlen hn hv).1 n s t hr
  rw [hb] at h
  cases h

theorem scanArgAt_eq (n k : Nat) (tys : List ScanTy) :
    CompileTime.scanArgAt n k tys = match tys[k]? with
      | none => M.throw .invalidFormat
      | some ty => scanArg n ty := by
  induction tys generalizing k with
  | nil => cases k <;> rfl
  | cons a as ih =>
    cases k with
    | zero => rfl
    | succ k => simpa [CompileTime.scanArgAt] using ih k

theorem scanLoop_ct (tys : List ScanTy) (fuel : Nat) (s : SSt) (h : scanLoop tys fuel s ≠ .bad .ub) :
    CompileTime.scanLoop tys fuel s = scanLoop tys fuel s := by
  induction fuel generalizing s with
  | zero => rfl
  | succ fuel ih =>
    unfold CompileTime.scanLoop
    unfold scanLoop at h ⊢
    simp only [bind, M.bind] at h ⊢
    cases hp : scanParse s with
    | bad b => rfl
    | err s e => rfl
    | ok s n =>
      simp only [hp] at h
      simp only
      split
      · rfl
      · rename_i hn
        rw [if_neg hn] at h
        rw [scanArgAt_eq]
        cases ha : tys[n]? with
        | none => simp only [ha] at h; exact absurd rfl h
        | some a =>
          simp only [ha] at h
          simp only
          cases hx : scanArg n a s with
          | bad b => simp [M.bind, hx]
          | err s e => simp [M.bind, hx]
          | ok s u =>
            simp only [M.bind, hx] at h ⊢
            exact ih _ h

/-- Scanning does the same at compile time as at run time, unless it is undefined behaviour. -/
theorem C69_scan (str : Str) (tys : List ScanTy) (io : ScanIO) (h : scanFrom str tys io ≠ .bad .ub) :
    CompileTime.scanFrom str tys io = scanFrom str tys io := by
  unfold CompileTime.scanFrom scanFrom at *
  rw [make_eq]
  cases hm : VStr.make str (tys.map ScanTy.farg) with
  | bad x => rfl
  | err u e => rfl
  | ok u vs =>
    simp only [hm] at h
    simp only
    unfold vscanFrom at *
    cases hs : vs.str with
    | none => rfl
    | some t =>
      simp only [hs] at h
      simp only
      split
      · cases Reader.readIfMatchStr t io.inp <;> rfl
      · rename_i hp
        rw [if_neg hp] at h
        rw [scanLoop_ct]
        · cases scanLoop tys (List.length t + 1) ⟨⟨Reader.ofStr t, none, 0⟩, io.inp, io.vars⟩ <;> rfl
        · intro hb
          rw [hb] at h
          exact h rfl

/-! The loops that stand for library functions. -/

theorem set_eq_store (mem : Str) (p : Nat) (c : Char) (h : p < mem.length) :
    mem.set p c = mem.take p ++ c :: mem.drop (p + 1) := List.set_eq_take_append_cons_drop .. |>.trans (if_pos h)

theorem copyN_all (src : Str) (p : Nat) (mem : Str) (h : p ≤ mem.length) :
    CompileTime.copyN src.length src p mem = memStore src p mem := by
  induction src generalizing p mem with
  | nil => simp [CompileTime.copyN, memStore, h]
  | cons c src ih =>
    rw [List.length_cons]
    unfold CompileTime.copyN
    split
    · rename_i hp
      rw [ih _ _ (by simpa using hp)]
      unfold memStore
      simp only [List.length_set, List.length_cons]
      have e : p + 1 + src.length = p + (src.length + 1) := by omega
      rw [e]
      split
      · congr 1
        have e1 : (mem.set p c).take (p + 1) = mem.take p ++ [c] := by
          rw [set_eq_store mem p c hp, List.take_append, List.take_take, List.length_take]
          rw [Nat.min_eq_right (by omega), Nat.min_eq_left (by omega)]
          simp
        have e2 : (mem.set p c).drop (p + (src.length + 1)) = mem.drop (p + (src.length + 1)) :=
          List.drop_set_of_lt (by omega)
        rw [e1, e2]
        simp
      · rfl
    · rename_i hp
      unfold memStore
      rw [if_neg]
      simp
      omega

theorem fillN_eq (c : Char) (n p : Nat) (mem : Str) :
    CompileTime.fillN c n p mem = CompileTime.copyN n (List.replicate n c) p mem := by
  induction n generalizing p mem with
  | zero => rfl
  | succ n ih =>
    rw [List.replicate_succ]
    unfold CompileTime.fillN CompileTime.copyN
    split
    · exact ih _ _
    · rfl

/-- `fill_n` stores a character as often as `memset` does. -/
theorem C69_fill_n (c : Char) (n p : Nat) (mem : Str) (h : p ≤ mem.length) :
    CompileTime.fillN c n p mem = memStore (List.replicate n c) p mem := by
  rw [fillN_eq, ← copyN_all _ _ _ h, List.length_replicate]

/-- `copy_n` stores the characters as `memcpy` does, and both leave the memory or none; what is not there is not copied. -/
theorem C69_copy_n (n : Nat) (src : Str) (p : Nat) (mem : Str) (h : p ≤ mem.length) :
    CompileTime.copyN n src p mem = if n ≤ src.length then memStore (src.take n) p mem else none := by
  split
  · rename_i hn
    have : ∀ (n : Nat) (src : Str) (p : Nat) (mem : Str), CompileTime.copyN n src p mem = CompileTime.copyN n (src.take n) p mem := by
      intro n
      induction n with
      | zero => intros; simp [CompileTime.copyN]
      | succ n ih =>
        intro src p mem
        cases src with
        | nil => simp [CompileTime.copyN]
        | cons c src =>
          rw [List.take_succ_cons]
          unfold CompileTime.copyN
          rw [ih]
    rw [this]
    conv => lhs; rw [show n = (src.take n).length by simp; omega]
    simp only [List.length_take, Nat.min_eq_left hn]
    have h2 := copyN_all (src.take n) p mem h
    rwa [List.length_take, Nat.min_eq_left hn] at h2
  · rename_i hn
    induction n generalizing src p mem with
    | zero => omega
    | succ n ih =>
      cases src with
      | nil => simp [CompileTime.copyN]
      | cons c src =>
        unfold CompileTime.copyN
        split
        · rename_i hp
          exact ih src (p + 1) _ (by simpa using hp) (by simpa using hn)
        · rfl

/-- `equal_n` compares as `memcmp` does, whenever that is defined. -/
theorem C69_equal_n (n : Nat) (a b : Str) (x : Bool) (h : memEqual n a b = some x) : CompileTime.equalN n a b = some x := by
  unfold memEqual at h
  split at h
  · rename_i hn
    cases h
    induction n generalizing a b with
    | zero => simp [CompileTime.equalN]
    | succ n ih =>
      cases a with
      | nil => simp at hn
      | cons c a =>
        cases b with
        | nil => simp at hn
        | cons d b =>
          unfold CompileTime.equalN
          by_cases hc : c = d
          · subst hc
            simp only [ne_eq, not_true_eq_false, if_false]
            rw [ih a b (by simpa using hn)]
            simp
          · simp [hc]
  · cases h

/-- `equal_n` exactly: it compares up to the first difference, and no further than there are characters. -/
theorem C69_equal_n_exactly (n : Nat) (a b : Str) : CompileTime.equalN n a b =
    if n ≤ min a.length b.length then some (decide (a.take n = b.take n))
    else if a.take (min a.length b.length) = b.take (min a.length b.length) then none else some false := by
  induction n generalizing a b with
  | zero => simp [CompileTime.equalN]
  | succ n ih =>
    cases a with
    | nil => simp [CompileTime.equalN]
    | cons c a =>
      cases b with
      | nil => simp [CompileTime.equalN]
      | cons d b =>
        unfold CompileTime.equalN
        have e : min (c :: a).length (d :: b).length = min a.length b.length + 1 := by
          simp only [List.length_cons]
          omega
        rw [e]
        by_cases hc : c = d
        · subst hc
          simp only [ne_eq, not_true_eq_false, if_false]
          rw [ih a b]
          simp only [List.take_succ_cons, List.cons.injEq, true_and, Nat.add_le_add_iff_right]
        · simp [hc]

/-- A pair of numbers is scanned, and a number is formatted, at compile time as at run time. -/
example : CompileTime.scanFrom "{}, {}".toList [.int i32, .int i32] ⟨Reader.ofStr "1, -2".toList, [.int 0, .int 0]⟩ =
      .ok ⟨⟨"1, -2".toList, 5⟩, [.int 1, .int (-2)]⟩ () ∧
    scanFrom "{}, {}".toList [.int i32, .int i32] ⟨Reader.ofStr "1, -2".toList, [.int 0, .int 0]⟩ ≠ .bad .ub ∧
    (CompileTime.formatTo "{1}{0:>3}".toList (fargs [.int i32 42, .char 'x']) (SpanBuf.new "......".toList)).state?.map
      SpanBuf.view = some "x 42".toList := by decide +kernel

/-- The difference: at compile time a number without an argument is an error, at run time it would be undefined
behaviour; but such a string is not accepted. -/
example : CompileTime.formatRun "{}".toList [] = .err ⟨⟨⟨"{}".toList, 1⟩, some false, 1⟩, []⟩ .invalidFormat ∧
    (formatRun "{}".toList []).val? = none ∧ validateStr "{}".toList [] = .ok () false := by
  refine ⟨rfl, rfl, by decide +kernel⟩

end Emio
