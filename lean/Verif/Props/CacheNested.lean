import Verif.Lemmas.LongIn
import Verif.Props.ValidString
/-
Properties C64 and C68: exactly when the functions with a cache give what `format` gives, for arguments of any type but tuples.
-/
namespace Emio
open Reader Spec BufferImpl

/-- What a field that can be formatted does with a cache. -/
theorem field_fits {t : FormatText} {args : List (FTy × FVal)} (hn : ∀ a ∈ args, NoTuple a.1)
    (hv : ∀ a ∈ args, HasType a.2 a.1) (hs : t.SuitsTypes (args.map (·.1))) {i : Nat} {f : Field} (hf : t.fields[i]? = some f)
    {a : FTy × FVal} (ha : args[f.argument i]? = some a) {text : Str} (hr : (a.2.farg a.1).Reads f.body text 1421) :
    (t.AsksLong args i ∧ (a.2.farg a.1).Long f.body 128) ∨
      (¬ t.AsksLong args i ∧ (a.2.farg a.1).Reads f.body text 128) := by
  obtain ⟨ty, hty, s, hb, _, hacc⟩ := hs.taken i f hf
  rw [List.getElem?_map, ha] at hty
  obtain rfl := Option.some.inj hty
  have hmem := List.mem_of_getElem? ha
  obtain ⟨fm, h1, h2⟩ := accepts_sizes hacc (hn a hmem)
  have hl : f.body.length = s.length + 1 := by rw [hb]; simp
  have hasks : t.AsksLong args i ↔ LongIn a.2 s := by
    constructor
    · rintro ⟨f', a', s', g1, g2, g3, g4⟩
      rw [hf] at g1
      cases g1
      rw [ha] at g2
      cases g2
      rw [hb] at g3
      rw [List.append_cancel_right g3]
      exact g4
    · exact fun h => ⟨f, a, s, hf, ha, hb, h⟩
  have hparse : ∀ r tail, r.At (f.body ++ tail) →
      (a.2.farg a.1).parse r = .ok (r.adv f.body.length) (a.2.format fm) := by
    intro r tail hat
    have g2 := h2 r tail (by rw [hb] at hat; simpa using hat)
    rw [hl]
    show (do let f ← a.1.fresh.parse; return a.2.format f) r = _
    rw [Fmtr.parse, M.bind_ok g2]
    rfl
  have hem : Emits (a.2.format fm) text 1421 := by
    have hat := Reader.at_ofStr (f.body ++ [])
    obtain ⟨_, act, g1, g2⟩ := hr _ _ hat
    rw [hparse _ _ hat] at g1
    rw [(ok_inj g1).2]
    exact g2
  rw [hasks]
  rcases h1 a.2 (hv a hmem) text hem with ⟨hlong, hw⟩ | ⟨hshort, he⟩
  · refine Or.inl ⟨hlong, fun r tail hat r' act hp ops ops' hact => ?_⟩
    rw [hparse r tail hat] at hp
    obtain ⟨_, rfl⟩ := ok_inj hp
    exact hw ops ops' () hact
  · exact Or.inr ⟨hshort, fun r tail hat => ⟨(hr r tail hat).1, _, hparse r tail hat, he⟩⟩

/-- Every accepted format string that can be formatted: if a field asks for a number with more than 128 characters in one
piece, be it inside of ranges and optionals, the functions with a cache fail; otherwise they all give the text. -/
theorem C64_through_cache_exactly (t : FormatText) (tail : Str) (args : List (FTy × FVal)) (hn : ∀ a ∈ args, NoTuple a.1)
    (hv : ∀ a ∈ args, HasType a.2 a.1) (suits : t.SuitsTypes (args.map (·.1)))
    (htail : tail = [] ∨ Begins255 tail ∧ t.Explicit) (text : Str)
    (h : formatStr (t.text ++ tail) (vargs args) = .ok () text) :
    ((∀ j, ¬ t.AsksLong args j) → ThroughCache (t.text ++ tail) (vargs args) text) ∧
    ((∃ j, t.AsksLong args j) → CacheFails (t.text ++ tail) (vargs args) text) := by
  have hO : ∀ j, ¬ t.AsksOctal args j := by
    classical
    by_contra hO
    simp only [not_forall, not_not] at hO
    obtain ⟨_, _, _, _, hd⟩ := C61_with_O_fails t tail args hn hv suits htail (Nat.find hO) (Nat.find_spec hO)
      fun i hi => Nat.find_min hO hi
    rw [hd.format] at h
    cases h
  obtain ⟨texts, h1, h2⟩ := first_fields hn hv suits t.fields.length (Nat.le_refl _) fun i _ => hO i
  have hnum : (vargs args).length ≤ 128 := by simpa [vargs] using suits.number
  have hargs : ∀ k, k ∈ t.arguments ↔ k < (vargs args).length := by simpa [vargs] using suits.arguments
  have hall : ReadsAll (vargs args) 1421 0 t.fields texts := readsAll_fields h1 fun i f text hf ht => by
    obtain ⟨a, ha, hr⟩ := h2 i f text hf ht
    exact ⟨a.2.farg a.1, by simp [vargs, ha], hr⟩
  have htext : text = t.output texts := by
    have hf := (formats_tail t tail (vargs args) texts 1421 hnum (fields_wellFormed suits) suits.mode hargs
      (readsSegs_of_all _ _ _ hall) htail).str
    rw [hf] at h
    cases h
    rfl
  subst htext
  constructor
  · intro hs
    refine (formats_tail t tail (vargs args) texts 128 hnum (fields_wellFormed suits) suits.mode hargs
      (readsSegs_of_all _ _ _ (readsAll_fields h1 fun i f text hf ht => ?_)) htail).throughCache
    obtain ⟨a, ha, hr⟩ := h2 i f text hf ht
    refine ⟨a.2.farg a.1, by simp [vargs, ha], ?_⟩
    rcases field_fits hn hv suits hf ha hr with ⟨hl, _⟩ | ⟨_, hr⟩
    · exact absurd hl (hs i)
    · exact hr
  · rintro ⟨j, hj⟩
    obtain ⟨f, _, _, hf, _⟩ := id hj
    have hlt : j < texts.length := by rw [h1]; exact (List.getElem?_eq_some_iff.1 hf).1
    obtain ⟨a, ha, hr⟩ := h2 j f _ hf (List.getElem?_eq_getElem hlt)
    refine (overflows_tail t tail (vargs args) texts 1421 128 hnum (fields_wellFormed suits) suits.mode hargs hall htail
      hf ⟨a.2.farg a.1, by simp [vargs, ha], ?_⟩).cacheFails
    rcases field_fits hn hv suits hf ha hr with ⟨_, hl⟩ | ⟨hl, _⟩
    · exact hl
    · exact absurd hj hl

/-- As one decision, for any string that `format` can format. -/
theorem C64_cache_decides (str : Str) (args : List (FTy × FVal)) (hl : args.length ≤ 128) (hn : ∀ a ∈ args, NoTuple a.1)
    (hv : ∀ a ∈ args, HasType a.2 a.1) (text : Str) (h : formatStr str (vargs args) = .ok () text) :
    ∃ (t : FormatText) (tail : Str), str = t.text ++ tail ∧ (tail = [] ∨ Begins255 tail ∧ t.Explicit) ∧
      ((∀ j, ¬ t.AsksLong args j) → ThroughCache str (vargs args) text) ∧
      ((∃ j, t.AsksLong args j) → CacheFails str (vargs args) text) := by
  obtain ⟨t, tail, rfl, suits, htail⟩ := types_of_accepted hl hn (formatStr_accepted h)
  exact ⟨t, tail, rfl, htail, C64_through_cache_exactly t tail args hn hv suits htail text h⟩

theorem printRun_eq {v : VStr} {args : List FArg} {s : Str} (cache : Str) (io : List Nat)
    (h : ∀ {σ : Type} [BufferImpl σ] (b : σ), vformatTo v args b = formatTo s args b) :
    printRun cache io v args = vprint cache (some io) s args ∧ printlnRun cache io v args = vprintln cache (some io) s args := by
  have e : (vformatTo v args : M FileBuf Unit) = formatTo s args := funext fun b => h b
  constructor
  · unfold printRun vprint
    rw [e]
    simp only
    generalize formatTo s args (FileBuf.new cache io) = x
    rcases x with ⟨b, u⟩ | ⟨b, u⟩ | b
    · simp only
      generalize b.flush = y
      rcases y with ⟨b, u⟩ | ⟨b, u⟩ | b <;> rfl
    · rfl
    · rfl
  · unfold printlnRun vprintln
    rw [e]
    simp only
    generalize (formatTo s args >>= fun _ => (do writeArea 1 ['\n']; FileBuf.flush : M FileBuf Unit))
      (FileBuf.new cache io) = x
    rcases x with ⟨b, u⟩ | ⟨b, u⟩ | b <;> rfl

/-- Exactly what the functions with a valid format string do, for arguments of any type but tuples: `format` returns unless
the type `O` is asked for, and then it throws `invalid format`; if it returns, `formatted_size`, `print` and `println`
return as well, unless a field asks for a number with more than 128 characters in one piece, and then they throw `eof`. -/
theorem C68_exactly (args : List (FTy × FVal)) (hl : args.length ≤ 128) (hn : ∀ a ∈ args, NoTuple a.1)
    (hv : ∀ a ∈ args, HasType a.2 a.1) (v : VStr) (h : StringObject (vargs args) true v) :
    ∃ (t : FormatText) (tail : Str), v.get = Res.ofValue (t.text ++ tail) ∧ (tail = [] ∨ Begins255 tail ∧ t.Explicit) ∧
      ((∃ j, t.AsksOctal args j) → formatValid v (vargs args) = .throws "invalid format") ∧
      ((∀ j, ¬ t.AsksOctal args j) → ∃ text, formatValid v (vargs args) = .returns text ∧
        ∀ cache : Str, cache.length = defaultCacheSize →
          ((∀ j, ¬ t.AsksLong args j) → formattedSizeValid cache v (vargs args) = .returns text.length ∧
            printRun cache [] v (vargs args) = .ok text () ∧ printValid cache [] v (vargs args) = .returns () ∧
            printlnRun cache [] v (vargs args) = .ok (text ++ ['\n']) () ∧ printlnValid cache [] v (vargs args) = .returns ()) ∧
          ((∃ j, t.AsksLong args j) → formattedSizeValid cache v (vargs args) = .throws "eof" ∧
            ∀ io, printValid cache io v (vargs args) = .throws "eof" ∧ printlnValid cache io v (vargs args) = .throws "eof")) := by
  obtain ⟨s, h1, h2, h3⟩ := C67_valid_is_accepted _ v h
  obtain ⟨t, tail, rfl, suits, htail⟩ := types_of_accepted hl hn h2
  refine ⟨t, tail, h1, htail, ?_, ?_⟩
  · classical
    intro hO
    obtain ⟨_, _, _, _, hd⟩ := C61_with_O_fails t tail args hn hv suits htail (Nat.find hO) (Nat.find_spec hO)
      fun i hi => Nat.find_min hO hi
    rw [formatValid_eq _ _ _ h3, hd.format]
    rfl
  · intro hO
    obtain ⟨texts, _, _, hd⟩ := C61_without_O_succeeds t tail args hn hv suits htail hO
    have hf : formatStr (t.text ++ tail) (vargs args) = .ok () (t.output texts) := hd.format
    refine ⟨t.output texts, by rw [formatValid_eq _ _ _ h3, hf]; rfl, fun cache hc => ?_⟩
    obtain ⟨g1, g2⟩ := C64_through_cache_exactly t tail args hn hv suits htail _ hf
    constructor
    · intro hs
      obtain ⟨p1, p2⟩ := printRun_eq cache [] h3
      rw [(g1 hs).print cache hc] at p1
      rw [(g1 hs).println cache hc] at p2
      refine ⟨by rw [formattedSizeValid_eq _ _ _ _ h3, (g1 hs).size cache hc]; rfl, p1, ?_, p2, ?_⟩
      · unfold printValid; rw [p1]; rfl
      · unfold printlnValid; rw [p2]; rfl
    · intro hs
      refine ⟨by rw [formattedSizeValid_eq _ _ _ _ h3, (g2 hs).size cache hc]; rfl, fun io => ?_⟩
      obtain ⟨p1, p2⟩ := printRun_eq cache io h3
      obtain ⟨o1, q1, _⟩ := (g2 hs).print cache hc io
      obtain ⟨o2, q2, _⟩ := (g2 hs).println cache hc io
      rw [q1] at p1
      rw [q2] at p2
      constructor
      · unfold printValid; rw [p1]; rfl
      · unfold printlnValid; rw [p2]; rfl

/-- The sequence 1e300, 1. -/
def longAndShort : FTy × FVal :=
  (.seq (.core .double), .range [.core (.double 0x7E37E43C8800759C), .core (.double 0x3FF0000000000000)])

/-- The format string `{::f}`. -/
def eachFixed : FormatText := ⟨[([], ⟨[], true, [':', 'f', '}']⟩)], []⟩

theorem eachFixed_suits : eachFixed.SuitsTypes ([longAndShort].map (·.1)) := by
  refine ⟨by decide, by simp [eachFixed, FormatText.fields],
    Or.inl (by simp [FormatText.Automatic, FormatText.fields, eachFixed]), ?_, ?_⟩
  · intro k
    simp [FormatText.arguments, FormatText.fields, eachFixed, Field.argument]
  · intro i f hf
    rcases i with _ | i
    · simp only [eachFixed, FormatText.fields, List.map_cons, List.map_nil, List.getElem?_cons_zero, Option.some.injEq] at hf
      subst hf
      refine ⟨_, rfl, [':', 'f'], rfl, by simp, ?_⟩
      have h : TypeAccepts (.core .double) ({ type := some 'f' } : SpecText).text :=
        .core ⟨by simp, by simp, by simp, by simp, by simp, by simp, by simp⟩ (fits_pass ⟨by decide, by decide⟩).1
          (by simp [CoreTy.Allows, SpecText.reduced, SpecText.precValue])
      exact TypeAccepts.elements (curly := false) (n := false) h
    · simp [eachFixed, FormatText.fields] at hf

theorem longAndShort_typed : ∀ a ∈ [longAndShort], HasType a.2 a.1 := by
  intro a ha
  simp only [List.mem_singleton] at ha
  subst ha
  refine .range fun v hv => ?_
  simp only [List.mem_cons, List.not_mem_nil, or_false] at hv
  rcases hv with rfl | rfl <;> exact HasType.core (by simp [ValidArg])

/-- A sequence with a long number: `{::f}` is accepted and can be formatted, and asks for a long number; `formatted_size`
fails.  `{}` of it does not ask for one. -/
example : (∀ a ∈ [longAndShort], NoTuple a.1) ∧ (∃ j, eachFixed.AsksLong [longAndShort] j) ∧
    (∃ text, formatStr (eachFixed.text ++ []) (vargs [longAndShort]) = .ok () text ∧ text.length = 320) ∧
    formattedSize (List.replicate 128 '-') (eachFixed.text ++ []) (vargs [longAndShort]) = .err () .eof ∧
    formattedSize (List.replicate 128 '-') "{}".toList (vargs [longAndShort]) = .ok () 11 := by
  have hl : (formatStr (eachFixed.text ++ []) (vargs [longAndShort])).val?.map List.length = some 320 := by
    decide +kernel
  obtain ⟨text, ht⟩ : ∃ text, formatStr (eachFixed.text ++ []) (vargs [longAndShort]) = .ok () text := by
    cases hx : formatStr (eachFixed.text ++ []) (vargs [longAndShort]) with
    | ok s t => exact ⟨t, rfl⟩
    | err s e => rw [hx] at hl; cases hl
    | bad b => rw [hx] at hl; cases hl
  have hn : ∀ a ∈ [longAndShort], NoTuple a.1 := by
    intro t ht
    simp only [List.mem_singleton] at ht
    subst ht
    exact trivial
  have hs : formattedSize (List.replicate 128 '-') (eachFixed.text ++ []) (vargs [longAndShort]) = .err () .eof := by
    decide +kernel
  refine ⟨hn, ?_, ⟨text, ht, ?_⟩, hs, by decide +kernel⟩
  · by_contra hno
    have h1 := ((C64_through_cache_exactly eachFixed [] _ hn longAndShort_typed eachFixed_suits (Or.inl rfl) text ht).1
      (fun j hj => hno ⟨j, hj⟩)).size (List.replicate 128 '-') rfl
    rw [h1] at hs
    cases hs
  · rw [ht] at hl
    obtain ⟨_, h1, h2⟩ := Option.map_eq_some_iff.1 hl
    cases h1
    exact h2

end Emio
