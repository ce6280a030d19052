import Verif.Lemmas.CacheFields
/-
Properties C34, C36, C37 and C68: exactly when the functions with a cache fail.
-/
namespace Emio
open Spec BufferImpl

/-- The `j`-th field of the template is a finite floating-point number with more than 128 characters in one piece. -/
def TooLong (t : Template) (args : List CoreArg) (j : Nat) : Prop :=
  ∃ k s bits, t.format.arguments[j]? = some k ∧ t.segs[j]? = some s ∧ args[k]? = some (.double bits) ∧ IsFinite bits ∧
    128 < onePiece (s.2.spec.getD {}).taken bits

/-- The functions with a cache fail with end-of-file, having put out the beginning of the text: `formatted_size`,
`format_to` and `format_to_n` to an iterator, `print` and `println`, whatever the writes to the file manage to write. -/
structure CacheFails (str : Str) (args : List FArg) (text : Str) : Prop where
  size : ∀ cache : Str, cache.length = defaultCacheSize → formattedSize cache str args = .err () .eof
  iterator : ∀ cache : Str, cache.length = defaultCacheSize → ∃ out, formatToIter cache str args = .err out .eof ∧ out <+: text
  firstN : ∀ cache : Str, cache.length = defaultCacheSize → ∀ limit n (s : MemBuf) (t : Str), MemReach n s t →
    ∃ s' p, formatToN cache limit str args s = .err s' .eof ∧ p <+: text.take limit ∧ s'.view = t ++ p
  firstNSpan : ∀ cache : Str, cache.length = defaultCacheSize → ∀ limit (mem : Str) (ops : List ClientOp) (s : SpanBuf) (t : Str),
    client spanReset ops (SpanBuf.new mem, []) = some (s, t) →
    ∃ s' p, formatToN cache limit str args s = .err s' .eof ∧ p <+: text.take limit ∧ s'.view = t ++ p
  firstNIterator : ∀ cache : Str, cache.length = defaultCacheSize → ∀ n : Int, formatToNIter cache n str args = .err () .eof
  firstNPointer : ∀ cache : Str, cache.length = defaultCacheSize → ∀ (mem : Str) (n : Int),
    formatToNPtr cache mem n str args = .err () .eof
  print : ∀ cache : Str, cache.length = defaultCacheSize → ∀ io, ∃ out, vprint cache (some io) str args = .err out .eof ∧
    out <+: text
  println : ∀ cache : Str, cache.length = defaultCacheSize → ∀ io, ∃ out, vprintln cache (some io) str args = .err out .eof ∧
    out <+: text

theorem Overflows.fails {str : Str} {args : List FArg} {text : Str} {c : Nat} (h : Overflows str args text c)
    {σ : Type} [BufferImpl σ] (L : Lawful σ) (hL : AtMost L c) {s : σ} {t : Str} (hr : L.Rep s t) :
    ∃ s' p, formatTo str args s = .err s' .eof ∧ p <+: text ∧ L.Fail s' (t ++ p) := by
  obtain ⟨ops, rfl, h2, h3, h4⟩ := h
  have hw := execAll_wrote L ops h2 s t hr
  have ho := execAll_overflow hL ops h2 h3 s t hr
  rw [h4]
  cases hx : execAll ops s with
  | ok s' u => exact absurd hx (ho s')
  | err s' e =>
    rw [hx] at hw
    obtain ⟨rfl, p, hp, hf⟩ := hw
    exact ⟨s', p, rfl, hp, hf⟩
  | bad b => rw [hx] at hw; exact hw.elim

theorem Overflows.toN {str : Str} {args : List FArg} {text : Str} {k : Nat} (h : Overflows str args text k)
    {π : Type} [BufferImpl π] (L : Lawful π) (cache : Str) (hc : cache ≠ []) (hk : cache.length = k) (prim : π) (p0 : Str)
    (hp : L.Rep prim p0) (limit : Nat) (hU : Unsplit L cache.length) :
    ∃ prim' q, formatToN cache limit str args prim = .err prim' .eof ∧ q <+: text.take limit ∧ L.Fail prim' (p0 ++ q) := by
  obtain ⟨s', p, h1, hpt, q, hq, hf⟩ := h.fails (TruncBuf.lawful L cache.length limit p0 hU)
    (by rw [← hk]; exact TruncBuf.atMost L _ limit p0 hU) (TruncBuf.rep_new L cache prim limit p0 hc hp)
  unfold formatToN
  rw [h1]
  refine ⟨s'.prim, q, rfl, hq.trans ?_, hf⟩
  rw [List.nil_append]
  obtain ⟨r, rfl⟩ := hpt
  rw [List.take_append]
  exact List.prefix_append _ _

theorem Overflows.cacheFails {str : Str} {args : List FArg} {text : Str} (h : Overflows str args text 128) :
    CacheFails str args text := by
  have hne : ∀ cache : Str, cache.length = defaultCacheSize → cache ≠ [] := by
    intro cache hc h0
    rw [h0] at hc
    cases hc
  have hsz : ∀ cache : Str, cache.length = defaultCacheSize → cache.length = 128 := fun cache hc => by rw [hc]; decide
  refine ⟨fun c hc => ?_, fun c hc => ?_, fun c hc limit n s t hr => ?_, fun c hc limit mem ops s t hs => ?_,
    fun c hc n => ?_, fun c hc mem n => ?_, fun c hc io => ?_, fun c hc io => ?_⟩
  · obtain ⟨s', p, h1, _⟩ := h.fails (CountBuf.lawful c.length) (by rw [hsz c hc]; exact CountBuf.atMost _)
      (CountBuf.rep_new c (hne c hc))
    unfold formattedSize
    rw [h1]
  · obtain ⟨s', p, h1, hp, h2⟩ := h.fails (IterBuf.lawful c.length) (by rw [hsz c hc]; exact IterBuf.atMost _)
      (IterBuf.rep_new c (hne c hc))
    unfold formatToIter
    rw [h1]
    have h3 : s'.out ++ s'.cache.take s'.base.used = [] ++ p := h2.2.2.2.2.2.2
    exact ⟨_, rfl, List.IsPrefix.trans ⟨_, h3⟩ (by simpa using hp)⟩
  · obtain ⟨s', q, h1, h2, h3⟩ := h.toN (MemBuf.lawful n) c (hne c hc) (hsz c hc) s t hr.rep limit
      ((MemBuf.accepts n).unsplit trivial)
    exact ⟨s', q, h1, h2, h3.2.2.2.2.2.2.2⟩
  · obtain ⟨s', q, h1, h2, h3⟩ := h.toN (SpanBuf.lawful mem.length) c (hne c hc) (hsz c hc) s t (span_reach hs) limit
      (SpanBuf.unsplit _ _)
    exact ⟨s', q, h1, h2, h3.2.2.2.2.2⟩
  · obtain ⟨s', p, h1, _⟩ := h.fails (IterBuf.lawful c.length) (by rw [hsz c hc]; exact IterBuf.atMost _)
      (IterBuf.rep_new c (hne c hc))
    unfold formatToNIter
    rw [h1]
  · obtain ⟨s', p, h1, _⟩ := h.fails (IterBuf.lawful c.length) (by rw [hsz c hc]; exact IterBuf.atMost _)
      (IterBuf.rep_new c (hne c hc))
    unfold formatToNPtr
    rw [h1]
  · obtain ⟨s', p, h1, hp, h2⟩ := h.fails (FileBuf.lawful c.length false) (by rw [hsz c hc]; exact FileBuf.atMost _ _)
      (FileBuf.rep_new c io false (hne c hc) (fun h => by cases h))
    unfold vprint
    simp only
    rw [h1]
    exact ⟨_, rfl, List.IsPrefix.trans (show s'.file <+: p from h2) hp⟩
  · obtain ⟨s', p, h1, hp, h2⟩ := h.fails (FileBuf.lawful c.length false) (by rw [hsz c hc]; exact FileBuf.atMost _ _)
      (FileBuf.rep_new c io false (hne c hc) (fun h => by cases h))
    unfold vprintln
    simp only
    rw [M.bind_err h1]
    exact ⟨_, rfl, List.IsPrefix.trans (show s'.file <+: p from h2) hp⟩

/-- Every accepted format string that can be formatted: if a field is a number with more than 128 characters in one piece,
the functions with a cache fail; otherwise they all give the text. -/
theorem C34_through_cache_exactly (t : Template) (tail : Str) (args : List CoreArg) (pass : t.NumbersPass)
    (suits : t.reduced.Suits args) (htail : tail = [] ∨ Begins255 tail ∧ t.format.Explicit) (hv : ∀ a ∈ args, ValidArg a)
    (text : Str) (h : formatStr (t.text ++ tail) (fargs args) = .ok () text) :
    ((∀ j, ¬ TooLong t args j) → ThroughCache (t.text ++ tail) (fargs args) text) ∧
    ((∃ j, TooLong t args j) → CacheFails (t.text ++ tail) (fargs args) text) := by
  have hO : ∀ j, ¬ AsksO t args j := by
    classical
    by_contra hO
    simp only [not_forall, not_not] at hO
    obtain ⟨texts, _, _, hd⟩ := C22_accepted_with_O_fails t tail args pass suits htail hv (Nat.find hO) (Nat.find_spec hO)
      fun i hi => Nat.find_min hO hi
    rw [hd.format] at h
    cases h
  obtain ⟨texts, h1, h2⟩ := first_texts_wide pass suits hv t.segs.length (Nat.le_refl _) fun i _ => hO i
  have hwf : ∀ f ∈ t.format.fields, f.WellFormed := by
    intro f hf
    rw [template_fields, List.mem_map] at hf
    obtain ⟨s, hs, rfl⟩ := hf
    exact field_wellFormed (wide_digits suits s hs)
  have hall := readsAll_first h1 (Nat.le_refl _) h2
  rw [List.take_of_length_le (by simp [Template.format])] at hall
  have hnum : (fargs args).length ≤ 128 := by simpa [fargs] using suits.number
  have hargs : ∀ k, k ∈ t.format.arguments ↔ k < (fargs args).length := by simpa [fargs] using wide_arguments suits
  have htext : text = t.output texts := by
    have hf := (formats_tail t.format tail (fargs args) texts 1421 hnum hwf (wide_mode suits) hargs
      (readsSegs_of_all _ _ _ hall) htail).str
    have hf : formatStr (t.text ++ tail) (fargs args) = .ok () (t.output texts) := hf
    rw [hf] at h
    cases h
    rfl
  subst htext
  constructor
  · intro hs
    refine (formats_tail t.format tail (fargs args) texts 128 hnum hwf (wide_mode suits) hargs
      (readsSegs_of_all _ _ _ ?_) htail).throughCache
    have := readsAll_first (t := t) (args := args) (kk := 128) h1 (Nat.le_refl _) fun i k s x hk hsg hx => by
      obtain ⟨a, ha, hr⟩ := h2 i k s x hk hsg hx
      refine ⟨a, ha, ?_⟩
      obtain ⟨_, hg, b, hb, hal⟩ := wide_hole pass suits (mem_zip_get hk hsg)
      simp only at hb hg hal
      rw [ha] at hb
      cases hb
      rw [hole_body] at hr ⊢
      refine reads_128 hg.1 hg.2 hal (hv a (List.mem_of_getElem? ha)) hr ?_
      rintro ⟨bits, rfl, hf, hl⟩
      exact hs i ⟨k, s, bits, hk, hsg, ha, hf, hl⟩
    rwa [List.take_of_length_le (by simp [Template.format])] at this
  · rintro ⟨j, k, s, bits, hk, hsg, ha, hf, hl⟩
    refine (overflows_tail t.format tail (fargs args) texts 1421 128 hnum hwf (wide_mode suits) hargs hall htail
      (j := j) (f := s.2.field) (by rw [template_fields]; simp [hsg]) ⟨(CoreArg.double bits).farg, ?_, ?_⟩).cacheFails
    · have hkj : k = s.2.field.argument j := by
        rw [arguments_get, hsg] at hk
        simpa using hk.symm
      rw [← hkj]
      simp [fargs, ha]
    · obtain ⟨_, hg, b, hb, hal⟩ := wide_hole pass suits (mem_zip_get hk hsg)
      simp only at hb hg hal
      rw [ha] at hb
      cases hb
      rw [hole_body]
      exact long_field hg.1 hg.2 hal (hv _ (List.mem_of_getElem? ha)) ⟨bits, rfl, hf, hl⟩

/-- As one decision, for any string that `format` can format. -/
theorem C34_cache_decides (str : Str) (args : List CoreArg) (hn : args.length ≤ 128) (hv : ∀ a ∈ args, ValidArg a)
    (text : Str) (h : formatStr str (fargs args) = .ok () text) :
    ∃ (t : Template) (tail : Str), str = t.text ++ tail ∧ (tail = [] ∨ Begins255 tail ∧ t.format.Explicit) ∧
      ((∀ j, ¬ TooLong t args j) → ThroughCache str (fargs args) text) ∧
      ((∃ j, TooLong t args j) → CacheFails str (fargs args) text) := by
  obtain ⟨t, tail, rfl, pass, suits, htail⟩ := accepted_template_wide hn (accepted_of_str hn h)
  exact ⟨t, tail, rfl, htail, C34_through_cache_exactly t tail args pass suits htail hv text h⟩

/-- `format_to_n` to an iterator: the first characters and the size, or nothing but end-of-file if a number is too long. -/
theorem C36_first_n_decides (str : Str) (args : List CoreArg) (hn : args.length ≤ 128) (hv : ∀ a ∈ args, ValidArg a)
    (text : Str) (h : formatStr str (fargs args) = .ok () text) (cache : Str) (hc : cache.length = defaultCacheSize) (n : Int) :
    ∃ (t : Template) (tail : Str), str = t.text ++ tail ∧ (tail = [] ∨ Begins255 tail ∧ t.format.Explicit) ∧
      ((∀ j, ¬ TooLong t args j) →
        ∃ it, formatToNIter cache n str (fargs args) = .ok () it ∧ it.out = text.take n.toNat ∧ it.count = text.length) ∧
      ((∃ j, TooLong t args j) → formatToNIter cache n str (fargs args) = .err () .eof) := by
  obtain ⟨t, tail, h1, h2, h3, h4⟩ := C34_cache_decides str args hn hv text h
  exact ⟨t, tail, h1, h2, fun hs => (h3 hs).firstNIterator cache hc n, fun hl => (h4 hl).firstNIterator cache hc n⟩

/-- `format_to_n` into buffers and to a pointer, likewise.  A memory buffer with any past gets the first characters behind
what it has.  A span buffer needs room for these only: it succeeds exactly if there is, and has got a beginning of them
otherwise.  If a number is too long, both have got a beginning and the result is end-of-file. -/
theorem C36_buffers_decide (str : Str) (args : List CoreArg) (hn : args.length ≤ 128) (hv : ∀ a ∈ args, ValidArg a)
    (text : Str) (h : formatStr str (fargs args) = .ok () text) (cache : Str) (hc : cache.length = defaultCacheSize) (limit : Nat) :
    ∃ (t : Template) (tail : Str), str = t.text ++ tail ∧ (tail = [] ∨ Begins255 tail ∧ t.format.Explicit) ∧
      ((∀ j, ¬ TooLong t args j) →
        (∀ n (s : MemBuf) (old : Str), MemReach n s old →
          ∃ s', formatToN cache limit str (fargs args) s = .ok s' text.length ∧ s'.view = old ++ text.take limit) ∧
        (∀ (mem : Str) (ops : List ClientOp) (s : SpanBuf) (old : Str),
          client spanReset ops (SpanBuf.new mem, []) = some (s, old) →
          if old.length + min limit text.length ≤ mem.length then
            ∃ s', formatToN cache limit str (fargs args) s = .ok s' text.length ∧ s'.view = old ++ text.take limit
          else ∃ s' p, formatToN cache limit str (fargs args) s = .err s' .eof ∧ p <+: text.take limit ∧ s'.view = old ++ p) ∧
        (∀ mem : Str, min limit text.length ≤ mem.length →
          ∃ it, formatToNPtr cache mem limit str (fargs args) = .ok () it ∧ it.count = text.length ∧
            it.pos = min limit text.length ∧ it.mem = text.take limit ++ mem.drop (min limit text.length))) ∧
      ((∃ j, TooLong t args j) →
        (∀ n (s : MemBuf) (old : Str), MemReach n s old →
          ∃ s' p, formatToN cache limit str (fargs args) s = .err s' .eof ∧ p <+: text.take limit ∧ s'.view = old ++ p) ∧
        (∀ (mem : Str) (ops : List ClientOp) (s : SpanBuf) (old : Str),
          client spanReset ops (SpanBuf.new mem, []) = some (s, old) →
          ∃ s' p, formatToN cache limit str (fargs args) s = .err s' .eof ∧ p <+: text.take limit ∧ s'.view = old ++ p) ∧
        ∀ mem : Str, formatToNPtr cache mem limit str (fargs args) = .err () .eof) := by
  obtain ⟨t, tail, h1, h2, h3, h4⟩ := C34_cache_decides str args hn hv text h
  exact ⟨t, tail, h1, h2, fun hs => ⟨(h3 hs).firstN cache hc limit, (h3 hs).firstNSpan cache hc limit,
    (h3 hs).firstNPointer cache hc limit⟩, fun hl => ⟨(h4 hl).firstN cache hc limit, (h4 hl).firstNSpan cache hc limit,
    fun mem => (h4 hl).firstNPointer cache hc mem limit⟩⟩

/-- Three characters have room for `abc` of a longer text, not for `abcd`. -/
example : (formatToN (List.replicate 128 '-') 3 "abcd{}".toList (fargs [.int i32 1]) (SpanBuf.new "...".toList)).val? = some 5 ∧
    (formatToN (List.replicate 128 '-') 4 "abcd{}".toList (fargs [.int i32 1]) (SpanBuf.new "...".toList)).err? = some .eof := by
  decide +kernel

/-- `print` and `println` to a file that takes everything: the text (and a line feed), or end-of-file and the beginning of
the text if a number is too long. -/
theorem C37_print_decides (str : Str) (args : List CoreArg) (hn : args.length ≤ 128) (hv : ∀ a ∈ args, ValidArg a)
    (text : Str) (h : formatStr str (fargs args) = .ok () text) (cache : Str) (hc : cache.length = defaultCacheSize) :
    ∃ (t : Template) (tail : Str), str = t.text ++ tail ∧ (tail = [] ∨ Begins255 tail ∧ t.format.Explicit) ∧
      ((∀ j, ¬ TooLong t args j) → vprint cache (some []) str (fargs args) = .ok text () ∧
        vprintln cache (some []) str (fargs args) = .ok (text ++ ['\n']) ()) ∧
      ((∃ j, TooLong t args j) → ∃ out out', vprint cache (some []) str (fargs args) = .err out .eof ∧ out <+: text ∧
        vprintln cache (some []) str (fargs args) = .err out' .eof ∧ out' <+: text) := by
  obtain ⟨t, tail, h1, h2, h3, h4⟩ := C34_cache_decides str args hn hv text h
  refine ⟨t, tail, h1, h2, fun hs => ⟨(h3 hs).print cache hc, (h3 hs).println cache hc⟩, fun hl => ?_⟩
  obtain ⟨out, g1, g2⟩ := (h4 hl).print cache hc []
  obtain ⟨out', g3, g4⟩ := (h4 hl).println cache hc []
  exact ⟨out, out', g1, g2, g3, g4⟩

/-- 128 characters in one piece can be taken, 129 cannot; a sign counts, unless zeros are put behind it. -/
example : (formattedSize (List.replicate 128 '-') "{:.126f}".toList (fargs [.double 0x3FF0000000000000])).val? = some 128 ∧
    (formattedSize (List.replicate 128 '-') "{:.127f}".toList (fargs [.double 0x3FF0000000000000])).err? = some .eof ∧
    (formattedSize (List.replicate 128 '-') "{:+.126f}".toList (fargs [.double 0x3FF0000000000000])).err? = some .eof ∧
    (formattedSize (List.replicate 128 '-') "{:+0.126f}".toList (fargs [.double 0x3FF0000000000000])).val? = some 129 := by
  refine ⟨by decide +kernel, by decide +kernel, by decide +kernel, by decide +kernel⟩

/-- The template `{:f}`. -/
def fixedTemplate : Template := ⟨[([], ⟨[], some { type := some 'f' }⟩)], []⟩

/-- `{:f}` of 1e300 can be formatted, and it is too long for the cache. -/
example : fixedTemplate.NumbersPass ∧ fixedTemplate.reduced.Suits [.double 0x7E37E43C8800759C] ∧
    (∀ a ∈ [CoreArg.double 0x7E37E43C8800759C], ValidArg a) ∧ TooLong fixedTemplate [.double 0x7E37E43C8800759C] 0 ∧
    ∃ text, formatStr fixedTemplate.text (fargs [.double 0x7E37E43C8800759C]) = .ok () text := by
  have hv : ∀ a ∈ [CoreArg.double 0x7E37E43C8800759C], ValidArg a := by
    simp only [List.mem_singleton, forall_eq]; unfold ValidArg; decide
  have hp : fixedTemplate.NumbersPass := by
    intro s hs sp hsp
    simp only [fixedTemplate, List.mem_singleton] at hs
    subst hs
    cases hsp
    refine ⟨⟨by simp, by simp, by simp, by simp, by simp, by simp, by simp⟩, ?_⟩
    exact (fits_pass ⟨by decide, by decide⟩).1
  have hs : fixedTemplate.reduced.Suits [.double 0x7E37E43C8800759C] := by
    obtain ⟨h1, h2⟩ := hp _ (List.mem_singleton.2 rfl) _ rfl
    refine ⟨by decide, by simp [fixedTemplate, Template.reduced, Hole.reduced], ?_, ?_, ?_, ?_⟩
    · intro s hs sp hsp
      simp only [Template.reduced, fixedTemplate, List.map_cons, List.map_nil, List.mem_singleton] at hs
      subst hs
      simp only [Hole.reduced, Option.map_some, Option.mem_def, Option.some.injEq] at hsp
      subst hsp
      exact ⟨reduced_wellFormed h1, reduced_fits h2⟩
    · left
      simp [FormatText.Automatic, FormatText.fields, Template.format, fixedTemplate, Hole.field, Template.reduced, Hole.reduced]
    · intro k
      rw [reduced_arguments]
      simp [FormatText.arguments, FormatText.fields, Template.format, fixedTemplate, Hole.field, Field.argument]
    · rw [reduced_arguments]
      simp [FormatText.arguments, FormatText.fields, Template.format, fixedTemplate, Hole.field, Field.argument,
        Template.reduced, Hole.reduced, CoreArg.ty, CoreTy.Allows, SpecText.reduced, SpecText.precValue]
  have hl : (formatStr fixedTemplate.text (fargs [.double 0x7E37E43C8800759C])).val?.map List.length = some 308 := by
    decide +kernel
  obtain ⟨text, ht⟩ : ∃ text, formatStr fixedTemplate.text (fargs [.double 0x7E37E43C8800759C]) = .ok () text := by
    cases hx : formatStr fixedTemplate.text (fargs [.double 0x7E37E43C8800759C]) with
    | ok s t => exact ⟨t, rfl⟩
    | err s e => rw [hx] at hl; cases hl
    | bad b => rw [hx] at hl; cases hl
  refine ⟨hp, hs, hv, ?_, text, ht⟩
  by_contra hno
  have h0 : ∀ j, ¬ TooLong fixedTemplate [.double 0x7E37E43C8800759C] j := by
    rintro (_ | j)
    · exact hno
    · rintro ⟨k, s, bits, _, h, _⟩
      simp [fixedTemplate] at h
  have h1 := ((C34_through_cache_exactly fixedTemplate [] _ hp hs (Or.inl rfl) hv text (by simpa using ht)).1 h0).size
    (List.replicate 128 '-') rfl
  have h2 : (formattedSize (List.replicate 128 '-') (fixedTemplate.text ++ []) (fargs [.double 0x7E37E43C8800759C])).err? =
      some .eof := by decide +kernel
  rw [h1] at h2
  cases h2

end Emio
