import Verif.Props.Format
import Verif.Props.Dynamic
import Verif.Props.Values
/-
Property C64: all the formatting functions agree, for arguments of any type.
-/
namespace Emio
open Spec BufferImpl

/-! ### The functions -/

/-- The functions that format into memory produce the text: `format`; `format_to` on a memory buffer with any past and
on a span buffer with any past (which gets a prefix if there is no room for all of it), and to a pointer. -/
structure InMemory (str : Str) (args : List FArg) (text : Str) : Prop where
  format : formatStr str args = .ok () text
  memory : ∀ n (s : MemBuf) (t : Str), MemReach n s t → ∃ s', formatTo str args s = .ok s' () ∧ s'.view = t ++ text
  span : ∀ (mem : Str) (ops : List ClientOp) (s : SpanBuf) (t : Str),
    client spanReset ops (SpanBuf.new mem, []) = some (s, t) →
    if t.length + text.length ≤ mem.length then ∃ s', formatTo str args s = .ok s' () ∧ s'.view = t ++ text
    else ∃ s' p, formatTo str args s = .err s' .eof ∧ p <+: text ∧ s'.view = t ++ p
  pointer : ∀ mem p, text.length ≤ 2 ^ 64 - 1 → ∃ s', formatToPtr mem str args p = .ok s' text.length ∧ s'.view = text

/-- The functions with a cache produce the text as well: `formatted_size`, `format_to` to an iterator, `format_to_n`,
`print` and `println`. -/
structure ThroughCache (str : Str) (args : List FArg) (text : Str) : Prop where
  size : ∀ cache : Str, cache.length = defaultCacheSize → formattedSize cache str args = .ok () text.length
  iterator : ∀ cache : Str, cache.length = defaultCacheSize → formatToIter cache str args = .ok text ()
  firstN : ∀ cache : Str, cache.length = defaultCacheSize → ∀ limit n (s : MemBuf) (t : Str), MemReach n s t →
    ∃ s', formatToN cache limit str args s = .ok s' text.length ∧ s'.view = t ++ text.take limit
  /-- A span buffer needs room for the first characters only. -/
  firstNSpan : ∀ cache : Str, cache.length = defaultCacheSize → ∀ limit (mem : Str) (ops : List ClientOp) (s : SpanBuf) (t : Str),
    client spanReset ops (SpanBuf.new mem, []) = some (s, t) →
    if t.length + min limit text.length ≤ mem.length then
      ∃ s', formatToN cache limit str args s = .ok s' text.length ∧ s'.view = t ++ text.take limit
    else ∃ s' p, formatToN cache limit str args s = .err s' .eof ∧ p <+: text.take limit ∧ s'.view = t ++ p
  firstNIterator : ∀ cache : Str, cache.length = defaultCacheSize → ∀ n : Int,
    ∃ it, formatToNIter cache n str args = .ok () it ∧ it.out = text.take n.toNat ∧ it.count = text.length
  firstNPointer : ∀ cache : Str, cache.length = defaultCacheSize → ∀ (n : Int) (mem : Str), min n.toNat text.length ≤ mem.length →
    ∃ it, formatToNPtr cache mem n str args = .ok () it ∧ it.count = text.length ∧ it.pos = min n.toNat text.length ∧
      it.mem = text.take n.toNat ++ mem.drop (min n.toNat text.length)
  print : ∀ cache : Str, cache.length = defaultCacheSize → vprint cache (some []) str args = .ok text ()
  println : ∀ cache : Str, cache.length = defaultCacheSize → vprintln cache (some []) str args = .ok (text ++ ['\n']) ()

theorem Formats.inMemory {str : Str} {args : List FArg} {text : Str} {k : Nat} (hf : Formats str args text k) :
    InMemory str args text := by
  refine ⟨hf.str, fun n s t hr => ?_, fun mem ops s t hs => ?_, fun mem p hl => hf.ptr mem hl p⟩
  · obtain ⟨s', h1, h2⟩ := hf.accepted (MemBuf.accepts n) trivial hr.rep trivial
    exact ⟨s', h1, h2.2.2.2.2.2.2.2⟩
  · have hr := span_reach hs
    split
    · rename_i hle
      obtain ⟨s', h1, h2⟩ := hf.accepted (SpanBuf.accepts mem.length) trivial hr hle
      exact ⟨s', h1, h2.2.2.2.2.2⟩
    · rename_i hgt
      have hw := hf.wrote (SpanBuf.lawful mem.length) hr
      cases hx : formatTo str args s with
      | ok s' u =>
        rw [hx] at hw
        have hw' : SpanBuf.Rep mem.length s' (t ++ text) := hw
        have := SpanBuf.Rep.length hw'
        have := hw'.2.2.2.2.1
        simp at *
        omega
      | err s' e =>
        rw [hx] at hw
        obtain ⟨rfl, p, hp, hf'⟩ := hw
        exact ⟨s', p, rfl, hp, hf'.2.2.2.2.2⟩
      | bad b => rw [hx] at hw; exact hw.elim

theorem Formats.throughCache {str : Str} {args : List FArg} {text : Str} (hf : Formats str args text 128) :
    ThroughCache str args text := by
  have hne : ∀ cache : Str, cache.length = defaultCacheSize → cache ≠ [] := by
    intro cache hc h0
    rw [h0] at hc
    cases hc
  have hk : ∀ cache : Str, cache.length = defaultCacheSize → 128 ≤ cache.length := fun cache hc => by rw [hc]; decide
  refine ⟨fun c hc => hf.size c (hne c hc) (hk c hc), fun c hc => hf.iter c (hne c hc) (hk c hc),
    fun c hc limit n s t hr => ?_, fun c hc limit mem ops s t hs => ?_, fun c hc n => hf.toNIter c (hne c hc) (hk c hc) n,
    fun c hc n mem hm => hf.toNPtr c (hne c hc) (hk c hc) n mem hm,
    fun c hc => hf.print c (hne c hc) (hk c hc), fun c hc => hf.println c (hne c hc) (hk c hc)⟩
  · obtain ⟨s', h1, h2⟩ := hf.toN (MemBuf.lawful n) c (hne c hc) (hk c hc) s t hr.rep limit
      ((MemBuf.accepts n).unsplit trivial) ((MemBuf.accepts n).takes trivial)
    exact ⟨s', h1, h2.2.2.2.2.2.2.2⟩
  · have hr := span_reach hs
    split
    · rename_i hle
      obtain ⟨s', h1, h2⟩ := hf.toNRoom (SpanBuf.lawful mem.length) c (hne c hc) (hk c hc) s t hr limit
        (SpanBuf.unsplit _ _) ((SpanBuf.accepts mem.length).takes hle)
      exact ⟨s', h1, h2.2.2.2.2.2⟩
    · rename_i hgt
      rcases hf.toNWrote (SpanBuf.lawful mem.length) c (hne c hc) s t hr limit (SpanBuf.unsplit _ _) with
        ⟨s', h1, h2⟩ | ⟨s', q, h1, h2, h3⟩
      · have h2' : SpanBuf.Rep mem.length s' (t ++ text.take limit) := h2
        have := SpanBuf.Rep.length h2'
        have := h2'.2.2.2.2.1
        simp at *
        omega
      · exact ⟨s', q, h1, h2, h3.2.2.2.2.2⟩

/-! ### Long floating-point numbers -/

/-- A floating-point number somewhere in a value. -/
inductive HasFloat (bits : Nat) : FVal → Prop
  | core : HasFloat bits (.core (.double bits))
  | range {vs : List FVal} {v : FVal} (mem : v ∈ vs) (inside : HasFloat bits v) : HasFloat bits (.range vs)
  | tuple {vs : List FVal} {v : FVal} (mem : v ∈ vs) (inside : HasFloat bits v) : HasFloat bits (.tuple vs)
  | some {v : FVal} (inside : HasFloat bits v) : HasFloat bits (.some v)
  | variant {t : FTy} {v : FVal} (inside : HasFloat bits v) : HasFloat bits (.variant t v)

/-- No floating-point number in the value has more than 127 characters (without padding) under a specification that is
the end of `s`. -/
def ShortUnder (s : Str) (v : FVal) : Prop :=
  ∀ bits, HasFloat bits v → IsFinite bits → ∀ sp : SpecText, sp.WellFormed → sp.Fits → CoreTy.Allows .double sp →
    sp.text <:+ s → (finiteText sp.meaning bits).length ≤ 127

/-- Without a specification numbers are short. -/
theorem shortUnder_nil (v : FVal) : ShortUnder [] v := by
  intro bits _ hf sp _ _ _ hs
  have : sp.text = [] := by simpa using hs
  obtain rfl := spec_text_nil this
  exact le_trans (finiteText_short (by decide) (by decide) hf) (by decide)

theorem emits_short {a : CoreArg} {sp : SpecText} {text : Str} (wf : sp.WellFormed) (fits : sp.Fits)
    (allows : CoreTy.Allows a.ty sp) (valid : ValidArg a) (h : Emits (a.write sp.meaning) text 1421)
    (hs : ∀ bits, a = .double bits → IsFinite bits → (finiteText sp.meaning bits).length ≤ 127) :
    Emits (a.write sp.meaning) text 128 := by
  have hO : ¬ OctalO a sp.meaning := by
    intro hO
    obtain ⟨new, e, h1, _⟩ := core_octal a _ hO []
    obtain ⟨new', h2, _⟩ := h []
    rw [h1] at h2
    cases h2
  obtain ⟨text', h'⟩ := core_emits_some a _ (meaning_ok fits) valid ((allows_iff a.ty wf).2 allows) hO (k := 128)
    ⟨by decide, by decide, fun bits hb hf => by have := hs bits hb hf; omega⟩
  rw [h.unique h']
  exact h'

/-- Rendering with calls that need at most 128 characters at once. -/
def WrittenShort (a : CoreArg) (sp : SpecText) (text : Str) : Prop := Emits (a.write sp.meaning) text 128

theorem elem_suffix (n : Bool) (elem : Option Str) : elem.getD [] <:+ rangeSpec n elem := by
  cases elem with
  | none => exact List.nil_suffix
  | some e => exact ⟨(if n then ['n'] else []) ++ [':'], by simp [rangeSpec]⟩

theorem renders_short {ty : FTy} {v : FVal} {q : Bool} {s text : Str} (h : Renders Written ty v q s text) :
    HasType v ty → ShortUnder s v → Renders WrittenShort ty v q s text := by
  induction h with
  | @core a sp text wf fits allows h =>
    intro hty hs
    obtain ⟨b, hb, _, valid⟩ := hasType_core hty _ rfl
    cases hb
    refine .core wf fits allows (emits_short wf fits allows valid h fun bits hb hf => ?_)
    subst hb
    exact hs bits .core hf sp wf fits allows (List.suffix_refl _)
  | @quoted a text h =>
    intro hty hs
    obtain ⟨b, hb, _, valid⟩ := hasType_core hty _ rfl
    cases hb
    obtain ⟨h1, h2, h3⟩ := quotedSpec_ok a.ty
    refine .quoted (emits_short h1 h2 h3 valid h fun bits hb hf => ?_)
    subst hb
    exact hs bits .core hf _ h1 h2 h3 (by simp [quotedSpec, CoreArg.ty, SpecText.text])
  | @range curly t vs texts q n elem number each ih =>
    intro hty hs
    refine .range number fun i v text hv ht => ih i v text hv ht ?_ ?_
    · cases hty with
      | range each => exact each v (List.mem_of_getElem? hv)
    · exact fun bits hb hf sp h1 h2 h3 h4 => hs bits (.range (List.mem_of_getElem? hv) hb) hf sp h1 h2 h3
        (h4.trans (elem_suffix n elem))
  | @tuple ts vs texts q n elem number each ih =>
    intro hty hs
    refine .tuple number fun i t v text ht hv hx => ih i t v text ht hv hx ?_ ?_
    · cases hty with
      | tuple _ each => exact each i v t hv ht
    · exact fun bits hb hf sp h1 h2 h3 h4 => hs bits (.tuple (List.mem_of_getElem? hv) hb) hf sp h1 h2 h3
        (h4.trans (elem_suffix n elem))
  | @entry ts vs texts q n elem number each ih =>
    intro hty hs
    refine .entry number fun i t v text ht hv hx => ih i t v text ht hv hx ?_ ?_
    · cases hty with
      | tuple _ each => exact each i v t hv ht
    · exact fun bits hb hf sp h1 h2 h3 h4 => hs bits (.tuple (List.mem_of_getElem? hv) hb) hf sp h1 h2 h3
        (h4.trans (elem_suffix n elem))
  | none => intro _ _; exact .none
  | some content ih =>
    intro hty hs
    refine .some (ih ?_ fun bits hb => hs bits (.some hb))
    cases hty with
    | some h => exact h
  | monostate => intro _ _; exact .monostate
  | variant mem content ih =>
    intro hty hs
    refine .variant mem (ih ?_ fun bits hb => hs bits (.variant hb))
    cases hty with
    | variant _ h => exact h
  | valueless => intro _ _; exact .valueless

theorem coreEmits_short : CoreEmits WrittenShort 128 := fun _ _ _ _ _ _ _ h => h

theorem values_format_short {t : FormatText} {args : List (FTy × FVal)} {texts : List Str} (suits : t.SuitsValues args)
    (alone : t.AloneTexts args texts) (last : t.TuplesLast args)
    (short : ∀ (i : Nat) (f : Field) (a : FTy × FVal) (s : Str), t.fields[i]? = some f → args[f.argument i]? = some a →
      f.body = s ++ ['}'] → ShortUnder s a.2) :
    Formats t.text (vargs args) (t.output texts) 128 := by
  refine formats_segs t _ texts 128 (by simpa [vargs] using suits.number) ?_ suits.mode
    (by simpa [vargs] using suits.arguments) ?_
  · intro f hf
    refine ⟨suits.digits f hf, fun hc => ?_⟩
    obtain ⟨i, hi⟩ := List.getElem?_of_mem hf
    obtain ⟨a, _, s, hb, hs, _⟩ := suits.taken i f hi
    rw [hb, hs hc]
    rfl
  · have hlen : t.fields.length = t.segs.length := by simp [FormatText.fields]
    refine readsSegs_of _ _ _ (by rw [alone.1, hlen]) ?_
    intro j sg text hj htext
    have hf : t.fields[j]? = some sg.2 := by simp [FormatText.fields, hj]
    obtain ⟨a, ha, s, hb, hs, hta⟩ := suits.taken j sg.2 hf
    obtain ⟨a', ha', hal⟩ := alone.2 j sg.2 text hf htext
    rw [ha] at ha'
    obtain rfl := Option.some.inj ha'
    have hty := suits.typed a (List.mem_of_getElem? ha)
    refine ⟨a.2.farg a.1, by simp [vargs, ha], ?_⟩
    rw [hb] at hal ⊢
    refine value_readsBefore coreEmits_short (by decide) hty hta
      (renders_short ((alone_iff hty hta).1 hal) hty (short j sg.2 a s hf ha hb)) ?_
    by_cases hn : NoTuple a.1
    · exact Or.inl hn
    · right
      obtain ⟨h1, h2⟩ := last j sg.2 a hf ha hn
      rw [h2, List.drop_eq_nil_of_le (by omega)]
      rfl

/-! ### C64 -/

/-- Any string and any values without tuples: if `format` gives a text, so do all functions that format into memory. -/
theorem C64_in_memory (str : Str) (args : List (FTy × FVal)) (hn : ∀ a ∈ args, NoTuple a.1)
    (hv : ∀ a ∈ args, HasType a.2 a.1) (text : Str) (h : formatStr str (vargs args) = .ok () text) :
    InMemory str (vargs args) text :=
  (formats_of_ok (vargs_sound hn hv str) (vargs_tame hn) (formatStr_accepted h) h).inMemory

/-- Any arguments, with widths and precisions given at run time and nested format strings among them, and with tuples at
the end: the fields are replaced by what they are formatted as alone, by all functions that format into memory. -/
theorem C64_any_arguments (t : FormatText) (args : List AnyArg) (texts : List Str) (suits : t.Suits args)
    (alone : t.Alone args texts) (last : t.TupleArgsLast args) :
    InMemory t.text (args.map AnyArg.farg) (t.output texts) :=
  (any_format suits alone last).inMemory

/-- The functions with a cache give the same text, unless a floating-point number has more than 127 characters (see
C34). -/
theorem C64_through_cache_partial (t : FormatText) (args : List (FTy × FVal)) (texts : List Str)
    (suits : t.SuitsValues args) (alone : t.AloneTexts args texts) (last : t.TuplesLast args)
    (short : ∀ (i : Nat) (f : Field) (a : FTy × FVal) (s : Str), t.fields[i]? = some f → args[f.argument i]? = some a →
      f.body = s ++ ['}'] → ShortUnder s a.2) :
    InMemory t.text (vargs args) (t.output texts) ∧ ThroughCache t.text (vargs args) (t.output texts) := by
  have hf := values_format_short suits alone last short
  exact ⟨hf.inMemory, hf.throughCache⟩

/-- The property: every function gives the text that `format` gives. -/
def AllAgree : Prop :=
  ∀ (str : Str) (args : List (FTy × FVal)) (text : Str), (∀ a ∈ args, HasType a.2 a.1) → args.length ≤ 128 →
    formatStr str (vargs args) = .ok () text → InMemory str (vargs args) text ∧ ThroughCache str (vargs args) text

/-- 1e300. -/
def aLongNumber : FTy × FVal := (.core .double, .core (.double 0x7E37E43C8800759C))

/-- It does not hold: `{:f}` of 1e300. -/
theorem C64_long_float_violated : ¬ AllAgree := by
  intro h
  have h1 : ∃ text, formatStr "{:f}".toList (vargs [aLongNumber]) = .ok () text := by
    have hl : (formatStr "{:f}".toList (vargs [aLongNumber])).val?.map List.length = some 308 := by decide +kernel
    cases hx : formatStr "{:f}".toList (vargs [aLongNumber]) with
    | ok s t => exact ⟨t, rfl⟩
    | err s e => rw [hx] at hl; cases hl
    | bad b => rw [hx] at hl; cases hl
  obtain ⟨text, ht⟩ := h1
  have h2 := (h _ _ text (by
    intro a ha
    simp only [List.mem_cons, List.not_mem_nil, or_false] at ha
    subst ha
    exact HasType.core (by simp [ValidArg])) (by simp) ht).2.size (List.replicate 128 '-') rfl
  have h3 : (formattedSize (List.replicate 128 '-') "{:f}".toList (vargs [aLongNumber])).err? = some .eof := by
    decide +kernel
  rw [h2] at h3
  cases h3

/-- A sequence of sequences. -/
example : InMemory "<{:n::x}>".toList (vargs [(.seq (.seq .int), .range [.range [.int 10], .range []])])
    "<[a], []>".toList :=
  C64_in_memory _ _ (by simp [NoTuple, FTy.seq, FTy.int]) (by
    intro a ha
    simp only [List.mem_cons, List.not_mem_nil, or_false] at ha
    subst ha
    refine HasType.range (fun v hv => ?_)
    simp only [List.mem_cons, List.not_mem_nil, or_false] at hv
    rcases hv with rfl | rfl
    · refine HasType.range (fun v hv => ?_)
      simp only [List.mem_cons, List.not_mem_nil, or_false] at hv
      subst hv
      exact HasType.core ⟨by decide, by decide⟩
    · exact HasType.range (by simp)) _ (by decide +kernel)

/-- `!{}` of a pair, with all functions. -/
example : InMemory "!{}".toList (vargs [aPair]) "!(1, 2)".toList ∧ ThroughCache "!{}".toList (vargs [aPair]) "!(1, 2)".toList := by
  refine C64_through_cache_partial ⟨[(['!'], ⟨[], false, ['}']⟩)], []⟩ [aPair] ["(1, 2)".toList] ?_ ?_ ?_ ?_
  · refine ⟨by decide, ?_, ?_, ?_, ?_, ?_⟩
    · intro a ha; simp at ha; subst ha; exact aPair_typed
    · intro f hf; simp [FormatText.fields] at hf; subst hf; simp
    · exact Or.inl (by intro f hf; simp [FormatText.fields] at hf; subst hf; rfl)
    · intro k; simp [FormatText.arguments, FormatText.fields, Field.argument]
    · intro i f hf
      rcases i with _ | i
      · simp [FormatText.fields] at hf
        subst hf
        exact ⟨aPair, rfl, [], rfl, fun _ => rfl, takes_nil _⟩
      · simp [FormatText.fields] at hf
  · refine ⟨rfl, ?_⟩
    intro i f text hf ht
    rcases i with _ | i
    · simp [FormatText.fields] at hf
      subst hf; cases ht
      exact ⟨aPair, rfl, by decide +kernel⟩
    · simp [FormatText.fields] at hf
  · intro i f a hf _ _
    rcases i with _ | i
    · exact ⟨rfl, rfl⟩
    · simp [FormatText.fields] at hf
  · intro i f a s hf ha hb
    rcases i with _ | i
    · simp [FormatText.fields] at hf
      subst hf
      have : s = [] := by simpa using hb
      subst this
      exact shortUnder_nil _
    · simp [FormatText.fields] at hf

/-- `{:>3}{}`: a number with width 5 given at run time and a nested format string. -/
example : InMemory "{:>3}{}".toList [(AnyArg.dynamic .int (.int 7) (some 5) none).farg,
    (AnyArg.nested "{}!".toList [(.int, .int 1)]).farg] "    71!".toList := by
  refine C64_any_arguments ⟨[([], ⟨[], true, ['>', '3', '}']⟩), ([], ⟨[], false, ['}']⟩)], []⟩
    [.dynamic .int (.int 7) (some 5) none, .nested "{}!".toList [(.int, .int 1)]] ["    7".toList, "1!".toList]
    ⟨by decide, ?_, ?_, ?_, ?_, ?_⟩ ⟨rfl, ?_⟩ ?_
  · intro a ha
    simp only [List.mem_cons, List.not_mem_nil, or_false] at ha
    rcases ha with rfl | rfl
    · exact ⟨HasType.core ⟨by decide, by decide⟩, by simp [Given], by simp [Given]⟩
    · refine ⟨?_, ?_⟩
      · intro a ha
        simp only [List.mem_cons, List.not_mem_nil, or_false] at ha
        subst ha
        exact HasType.core ⟨by decide, by decide⟩
      · intro a ha
        simp only [List.mem_cons, List.not_mem_nil, or_false] at ha
        subst ha
        trivial
  · intro f hf; simp [FormatText.fields] at hf; rcases hf with rfl | rfl <;> simp
  · exact Or.inl (by intro f hf; simp [FormatText.fields] at hf; rcases hf with rfl | rfl <;> rfl)
  · intro k; simp [FormatText.arguments, FormatText.fields, Field.argument]; omega
  · intro i f hf
    rcases i with _ | _ | i
    · simp [FormatText.fields] at hf
      subst hf
      refine ⟨_, rfl, ['>', '3'], rfl, by simp, ['>', '5'], ?_⟩
      exact Overwritten.core (width := some 5) (precision := none) (t := .int i32)
        (sp := { align := some '>', width := ['3'] })
        ⟨by simp, by simp, by simp, by simp, by simp, by simp, by simp⟩ ⟨by decide, by decide⟩
        ⟨⟨rfl, by simp⟩, Or.inl rfl⟩ ⟨by decide, by decide⟩ ⟨⟨rfl, by simp [SpecText.withNumbers]⟩, Or.inl rfl⟩
    · simp [FormatText.fields] at hf
      subst hf
      exact ⟨_, rfl, [], rfl, fun _ => rfl, rfl⟩
    · simp [FormatText.fields] at hf
  · intro i f text hf ht
    rcases i with _ | _ | i
    · simp [FormatText.fields] at hf
      subst hf; cases ht
      exact ⟨_, rfl, by decide +kernel⟩
    · simp [FormatText.fields] at hf
      subst hf; cases ht
      exact ⟨_, rfl, by decide +kernel⟩
    · simp [FormatText.fields] at hf
  · intro i f a hf ha hn
    rcases i with _ | _ | i
    · simp [FormatText.fields] at hf
      subst hf
      obtain rfl := Option.some.inj ha
      exact absurd hn id
    · simp [FormatText.fields] at hf
      subst hf
      obtain rfl := Option.some.inj ha
      exact absurd hn id
    · simp [FormatText.fields] at hf

end Emio
