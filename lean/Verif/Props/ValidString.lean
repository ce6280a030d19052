import Verif.Model.ValidString
import Verif.Props.Outputs
/-
Properties C67 and C68: valid format strings.
-/
namespace Emio
open Spec BufferImpl

/-! ### C67 a valid format string is accepted -/

/-- What a format string object for these arguments may hold; with `true`: a `valid_format_string`. -/
inductive StringObject (args : List FArg) : Bool → VStr → Prop
  | runtime {s : Str} {v : VStr} (made : VStr.make s args = .ok () v) : StringObject args false v
  | literal {s : Str} {v : VStr} (made : VStr.literal s args = .ok () v) : StringObject args true v
  | validFrom {s : Str} {v : VStr} (made : VStr.validFrom s args = .ok () v) : StringObject args true v
  | asValid {b : Bool} {v w : VStr} (of : StringObject args b v) (made : v.asValid = Res.ofValue w) :
      StringObject args true w
  | base {v : VStr} (of : StringObject args true v) : StringObject args false v

theorem make_str {s : Str} {args : List FArg} {v : VStr} (h : VStr.make s args = .ok () v) : v.str = some s ∨ v.str = none := by
  unfold VStr.make at h
  split at h
  · cases h; exact Or.inl rfl
  · split at h
    · cases h; exact Or.inl rfl
    · cases h; exact Or.inr rfl
    · cases h
    · cases h

theorem get_hasValue (v : VStr) : v.get.hasValue = v.str.isSome := by
  unfold VStr.get
  cases v.str <;> rfl

/-- Every object comes from a string. -/
theorem stringObject_made {args : List FArg} {b : Bool} {v : VStr} (h : StringObject args b v) :
    (∃ s, VStr.make s args = .ok () v) ∧ (b = true → v.str.isSome = true) := by
  induction h with
  | runtime made => exact ⟨⟨_, made⟩, by simp⟩
  | literal made =>
    unfold VStr.literal at made
    split at made
    · rename_i v' hm
      split at made
      · cases made
      · rename_i he
        cases made
        refine ⟨⟨_, hm⟩, fun _ => ?_⟩
        rw [← get_hasValue]
        simpa [Res.hasError] using he
    · cases made
    · cases made
  | validFrom made =>
    unfold VStr.validFrom at made
    split at made
    · rename_i v' hm
      split at made
      · rename_i he
        cases made
        exact ⟨⟨_, hm⟩, fun _ => by rw [← get_hasValue]; exact he⟩
      · cases made
    · cases made
    · cases made
  | @asValid b v w of made ih =>
    unfold VStr.asValid at made
    split at made
    · rename_i he
      have : v = w := by
        simp only [Res.ofValue, Res.mk.injEq, Option.some.injEq, and_true] at made
        exact made
      subst this
      exact ⟨ih.1, fun _ => by rw [← get_hasValue]; exact he⟩
    · cases made
  | base of ih => exact ⟨ih.1, by simp⟩

theorem make_accepted {s t : Str} {args : List FArg} {v : VStr} (h : VStr.make s args = .ok () v) (ht : v.str = some t) :
    t = s ∧ validateStr s args = .ok () true := by
  unfold VStr.make at h
  split at h
  · rename_i hp
    cases h
    cases ht
    have h0 : args = [] := List.eq_nil_of_length_eq_zero hp.1
    subst h0
    exact ⟨rfl, plain_validates _ hp.2⟩
  · split at h
    · rename_i hx
      cases h; cases ht
      exact ⟨rfl, hx⟩
    · cases h; cases ht
    · cases h
    · cases h

/-- However a valid format string was obtained (from a literal, with `valid_format_string::from`, or with `as_valid` from
any other format string object): it holds a string that is accepted for its arguments, and formatting it is formatting
that string. -/
theorem C67_valid_is_accepted (args : List FArg) (v : VStr) (h : StringObject args true v) :
    ∃ s, v.get = Res.ofValue s ∧ validateStr s args = .ok () true ∧
      ∀ {σ : Type} [BufferImpl σ] (b : σ), vformatTo v args b = formatTo s args b := by
  obtain ⟨⟨s, hm⟩, hs⟩ := stringObject_made h
  obtain ⟨t, ht⟩ := Option.isSome_iff_exists.1 (hs rfl)
  obtain ⟨rfl, hv⟩ := make_accepted hm ht
  refine ⟨t, by simp [VStr.get, ht], hv, fun b => ?_⟩
  unfold formatTo
  rw [hm]

/-- A format string object gives a valid one iff its string is accepted; otherwise `as_valid` and `get` are
`invalid_format`, and so is formatting. -/
theorem C67_as_valid (args : List FArg) (s : Str) (v : VStr) (h : VStr.make s args = .ok () v) :
    (validateStr s args = .ok () true ∧ v.asValid = Res.ofValue v ∧ v.get = Res.ofValue s ∧ StringObject args true v) ∨
    (validateStr s args = .ok () false ∧ v.asValid = Res.ofError (some .invalidFormat) ∧
      v.get = Res.ofError (some .invalidFormat) ∧
      ∀ {σ : Type} [BufferImpl σ] (b : σ), vformatTo v args b = .err b .invalidFormat) := by
  cases hs : v.str with
  | some t =>
    obtain ⟨rfl, hv⟩ := make_accepted h hs
    have ha : v.asValid = Res.ofValue v := by simp [VStr.asValid, get_hasValue, hs]
    exact Or.inl ⟨hv, ha, by simp [VStr.get, hs], .asValid (.runtime h) ha⟩
  | none =>
    refine Or.inr ⟨?_, by simp [VStr.asValid, get_hasValue, hs], by simp [VStr.get, hs], fun b => ?_⟩
    · unfold VStr.make at h
      split at h
      · cases h; cases hs
      · split at h
        · cases h; cases hs
        · assumption
        · cases h
        · cases h
    · unfold vformatTo
      rw [hs]
      rfl

/-- `valid_format_string::from` gives a valid string iff the string is accepted. -/
theorem C67_from (args : List FArg) (s : Str) (b : Bool) (h : validateStr s args = .ok () b) :
    if b then ∃ v, VStr.validFrom s args = .ok () v ∧ v.get = Res.ofValue s
    else VStr.validFrom s args = .err () .invalidFormat := by
  have hm : ∃ v, VStr.make s args = .ok () v := by
    unfold VStr.make
    split
    · exact ⟨_, rfl⟩
    · rw [h]; cases b <;> exact ⟨_, rfl⟩
  obtain ⟨v, hm⟩ := hm
  unfold VStr.validFrom
  rcases C67_as_valid args s v hm with ⟨h1, _, h2, _⟩ | ⟨h1, _, h2, _⟩
  · rw [h] at h1
    cases h1
    simp only [hm, h2]
    exact ⟨v, rfl, h2⟩
  · rw [h] at h1
    cases h1
    simp only [hm, h2]
    rfl

theorem allFirst_new (n : Nat) (h : (Bitset.new 128).allFirst n = true) : n = 0 := by
  cases n with
  | zero => rfl
  | succ n =>
    exfalso
    have e : Bitset.new 128 = ⟨128, [0, 0]⟩ := by decide
    rw [e] at h
    unfold Bitset.allFirst at h
    simp only [OfNat.ofNat_ne_zero, if_false] at h
    split at h
    · cases h
    · unfold Bitset.allFirstLoop at h
      split at h
      · simp [Bitset.allOnes] at h
      · simp [Bitset.lowBits] at h

/-- A format string object is empty iff its string is the empty one; asking never is undefined behaviour. -/
theorem C67_empty (args : List FArg) (b : Bool) (v : VStr) (h : StringObject args b v) :
    v.empty = .returns (decide (v.get = Res.ofValue [])) := by
  obtain ⟨⟨s, hm⟩, _⟩ := stringObject_made h
  unfold VStr.make at hm
  split at hm
  · cases hm
    cases s <;> rfl
  · rename_i hp
    split at hm
    · rename_i hx
      cases hm
      unfold VStr.empty
      simp only [Bool.false_eq_true, if_false, Access.returns.injEq]
      symm
      rw [decide_eq_false_iff_not]
      intro he
      have hs : s = [] := by simpa [VStr.get, Res.ofValue] using he
      subst hs
      have : (Bitset.new 128).allFirst args.length = true := by
        have e : validateStr [] args = .ok () ((Bitset.new 128).allFirst args.length) := rfl
        rw [e] at hx
        simpa using hx
      exact hp ⟨allFirst_new _ this, rfl⟩
    · cases hm
      rfl
    · cases hm
    · cases hm

/-- `{}` is valid for a number, `{` is not. -/
example : (∃ v, StringObject (fargs [.int i32 1]) true v) ∧
    VStr.validFrom "{".toList (fargs [.int i32 1]) = .err () .invalidFormat :=
  ⟨⟨⟨false, some "{}".toList⟩, .validFrom (s := "{}".toList) (by decide +kernel)⟩, by decide +kernel⟩

/-! ### C68 functions with a valid format string never fail -/

theorem formatValid_eq (args : List FArg) (v : VStr) (s : Str)
    (h : ∀ {σ : Type} [BufferImpl σ] (b : σ), vformatTo v args b = formatTo s args b) :
    formatValid v args = (formatStr s args).access := by
  unfold formatValid formatStr
  generalize MemBuf.new defaultCacheSize 0 = m
  cases m with
  | ok m u =>
    simp only [h]
    generalize formatTo s args m = x
    cases x <;> rfl
  | err m e => rfl
  | bad b => rfl

theorem formattedSizeValid_eq (cache : Str) (args : List FArg) (v : VStr) (s : Str)
    (h : ∀ {σ : Type} [BufferImpl σ] (b : σ), vformatTo v args b = formatTo s args b) :
    formattedSizeValid cache v args = (formattedSize cache s args).access := by
  unfold formattedSizeValid formattedSize
  rw [h]
  cases formatTo s args (CountBuf.new cache) <;> rfl

/-- The property, for `format`: with a valid format string it returns. -/
def ValidFormatReturns : Prop :=
  ∀ (args : List CoreArg) (v : VStr), (∀ a ∈ args, ValidArg a) → StringObject (fargs args) true v →
    ∃ text, formatValid v (fargs args) = .returns text

/-- It does not hold: `{:O}` throws. -/
theorem C68_format_violated : ¬ ValidFormatReturns := by
  intro h
  obtain ⟨text, ht⟩ := h [.int i32 1] ⟨false, some "{:O}".toList⟩ (by simp [ValidArg]; decide)
    (.literal (s := "{:O}".toList) (by decide +kernel))
  have : formatValid ⟨false, some "{:O}".toList⟩ (fargs [.int i32 1]) = .throws "invalid format" := by decide +kernel
  rw [ht] at this
  cases this

/-- For strings without the letter `O`, and for arguments of all types without tuples, `format` returns. -/
theorem C68_format_partial (args : List (FTy × FVal)) (hn : ∀ a ∈ args, NoTuple a.1) (hv : ∀ a ∈ args, HasType a.2 a.1)
    (v : VStr) (h : StringObject (vargs args) true v) (hO : ∀ s, v.get = Res.ofValue s → 'O' ∉ s) :
    ∃ text, formatValid v (vargs args) = .returns text := by
  obtain ⟨s, h1, h2, h3⟩ := C67_valid_is_accepted _ v h
  obtain ⟨text, ht⟩ := C61_accepted_succeeds_partial s args hn hv (hO s h1) h2
  refine ⟨text, ?_⟩
  rw [formatValid_eq _ _ _ h3, ht]
  rfl

/-- The property, for `formatted_size`: it returns the number of characters of what `format` returns. -/
def ValidSizeReturns : Prop :=
  ∀ (args : List CoreArg) (v : VStr) (cache text : Str), (∀ a ∈ args, ValidArg a) → StringObject (fargs args) true v →
    cache.length = defaultCacheSize → formatValid v (fargs args) = .returns text →
    formattedSizeValid cache v (fargs args) = .returns text.length

/-- `{:f}` of 1e300 is valid and can be formatted. -/
theorem long_number_returns : StringObject (fargs [.double 0x7E37E43C8800759C]) true ⟨false, some "{:f}".toList⟩ ∧
    ∃ text, formatValid ⟨false, some "{:f}".toList⟩ (fargs [.double 0x7E37E43C8800759C]) = .returns text := by
  have h0 : StringObject (fargs [.double 0x7E37E43C8800759C]) true ⟨false, some "{:f}".toList⟩ :=
    .literal (s := "{:f}".toList) (by decide +kernel)
  have h1 : ∃ text, formatValid ⟨false, some "{:f}".toList⟩ (fargs [.double 0x7E37E43C8800759C]) = .returns text := by
    obtain ⟨s, g1, g2, g3⟩ := C67_valid_is_accepted _ _ h0
    have : s = "{:f}".toList := by simpa [VStr.get, Res.ofValue] using g1.symm
    subst this
    obtain ⟨text, ht⟩ := C22_accepted_formats_succeed_partial "{:f}".toList [.double 0x7E37E43C8800759C]
      (by simp [ValidArg]) (by decide) g2
    refine ⟨text, ?_⟩
    rw [formatValid_eq _ _ _ g3, ht]
    rfl
  exact ⟨h0, h1⟩

/-- It does not hold: with `{:f}` of 1e300 it throws. -/
theorem C68_formatted_size_violated : ¬ ValidSizeReturns := by
  intro h
  obtain ⟨h0, text, ht⟩ := long_number_returns
  have h2 := h _ _ (List.replicate 128 '-') text (by simp [ValidArg]) h0 rfl ht
  have h3 : formattedSizeValid (List.replicate 128 '-') ⟨false, some "{:f}".toList⟩ (fargs [.double 0x7E37E43C8800759C]) =
      .throws "eof" := by decide +kernel
  rw [h2] at h3
  cases h3

/-- Without long floating-point numbers it does. -/
theorem C68_formatted_size_partial (args : List CoreArg) (hn : args.length ≤ 128) (hv : ∀ a ∈ args, ValidArg a)
    (v : VStr) (h : StringObject (fargs args) true v) (short : ∀ s, v.get = Res.ofValue s → ShortFloats s args)
    (cache text : Str) (hc : cache.length = defaultCacheSize) (ht : formatValid v (fargs args) = .returns text) :
    formattedSizeValid cache v (fargs args) = .returns text.length := by
  obtain ⟨s, h1, h2, h3⟩ := C67_valid_is_accepted _ v h
  rw [formatValid_eq _ _ _ h3] at ht
  rw [formattedSizeValid_eq _ _ _ _ h3]
  have ht' : formatStr s (fargs args) = .ok () text := by
    cases hx : formatStr s (fargs args) with
    | ok u t => rw [hx] at ht; cases ht; rfl
    | err u e => rw [hx] at ht; cases ht
    | bad b => rw [hx] at ht; cases ht
  rw [((C34_same_text_partial s args hv cache hc text ht' hn).2.2 (short s h1)).1]
  rfl

/-- `print` and `println` to a standard output that takes everything return, without long floating-point numbers, and have
sent the text. -/
theorem C68_print_partial (args : List CoreArg) (hn : args.length ≤ 128) (hv : ∀ a ∈ args, ValidArg a)
    (v : VStr) (h : StringObject (fargs args) true v) (short : ∀ s, v.get = Res.ofValue s → ShortFloats s args)
    (cache text : Str) (hc : cache.length = defaultCacheSize) (ht : formatValid v (fargs args) = .returns text) :
    printRun cache [] v (fargs args) = .ok text () ∧ printValid cache [] v (fargs args) = .returns () ∧
    printlnRun cache [] v (fargs args) = .ok (text ++ ['\n']) () ∧ printlnValid cache [] v (fargs args) = .returns () := by
  obtain ⟨s, h1, h2, h3⟩ := C67_valid_is_accepted _ v h
  rw [formatValid_eq _ _ _ h3] at ht
  have ht' : formatStr s (fargs args) = .ok () text := by
    cases hx : formatStr s (fargs args) with
    | ok u t => rw [hx] at ht; cases ht; rfl
    | err u e => rw [hx] at ht; cases ht
    | bad b => rw [hx] at ht; cases ht
  obtain ⟨p1, p2⟩ := C37_print_text s args hn hv (short s h1) text ht' cache hc
  have e : (vformatTo v (fargs args) : M FileBuf Unit) = formatTo s (fargs args) := funext fun b => h3 b
  have q1 : printRun cache [] v (fargs args) = .ok text () := by
    rw [← p1]
    unfold printRun vprint
    rw [e]
    simp only
    generalize formatTo s (fargs args) (FileBuf.new cache []) = x
    rcases x with ⟨b, u⟩ | ⟨b, u⟩ | b
    · simp only
      generalize b.flush = y
      rcases y with ⟨b, u⟩ | ⟨b, u⟩ | b <;> rfl
    · rfl
    · rfl
  have q2 : printlnRun cache [] v (fargs args) = .ok (text ++ ['\n']) () := by
    rw [← p2]
    unfold printlnRun vprintln
    rw [e]
    simp only
    generalize (formatTo s (fargs args) >>= fun _ => (do writeArea 1 ['\n']; FileBuf.flush : M FileBuf Unit))
      (FileBuf.new cache []) = x
    rcases x with ⟨b, u⟩ | ⟨b, u⟩ | b <;> rfl
  refine ⟨q1, ?_, q2, ?_⟩
  · unfold printValid; rw [q1]; rfl
  · unfold printlnValid; rw [q2]; rfl

/-- The property, for `print`: what `format` returns is printed. -/
def ValidPrintReturns : Prop :=
  ∀ (args : List CoreArg) (v : VStr) (cache text : Str), (∀ a ∈ args, ValidArg a) → StringObject (fargs args) true v →
    cache.length = defaultCacheSize → formatValid v (fargs args) = .returns text →
    printValid cache [] v (fargs args) = .returns ()

/-- It does not hold either. -/
theorem C68_print_violated : ¬ ValidPrintReturns := by
  intro h
  obtain ⟨h0, text, ht⟩ := long_number_returns
  have h2 := h _ _ (List.replicate 128 '-') text (by simp [ValidArg]) h0 rfl ht
  have h3 : printValid (List.replicate 128 '-') [] ⟨false, some "{:f}".toList⟩ (fargs [.double 0x7E37E43C8800759C]) =
      .throws "eof" := by decide +kernel
  rw [h2] at h3
  cases h3

example : formatValid ⟨false, some "{:>4}".toList⟩ (fargs [.int i32 42]) = .returns "  42".toList ∧
    formattedSizeValid (List.replicate 128 '-') ⟨false, some "{:>4}".toList⟩ (fargs [.int i32 42]) = .returns 4 ∧
    StringObject (fargs [.int i32 42]) true ⟨false, some "{:>4}".toList⟩ ∧ ShortFloats "{:>4}".toList [.int i32 42] :=
  ⟨by decide +kernel, by decide +kernel, .literal (s := "{:>4}".toList) (by decide +kernel),
    shortFloats_of_none (by simp)⟩

end Emio
