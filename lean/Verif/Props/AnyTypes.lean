import Verif.Lemmas.AnyTypes
import Verif.Props.Accepted
import Verif.Props.Octal
/-
Properties C61 and C63 for arguments of any type but tuples: exactly which format strings are accepted, and exactly which
of them fail.
-/
namespace Emio
open Spec BufferImpl

/-- Same validation, nothing printed. -/
def FTy.silent (ty : FTy) : FArg := ⟨ty.validate, do let _ ← ty.validate; return (pure ())⟩

theorem type_silent_reads {ty : FTy} (hnt : NoTuple ty) {s : Str} (h : TypeAccepts ty s) : ty.silent.Reads (s ++ ['}']) [] 0 := by
  intro r tail hat
  have hat' : r.At (s ++ '}' :: tail) := by simpa using hat
  obtain ⟨_, _, h2⟩ := accepts_works h hnt
  have hv := (h2 r tail hat').1
  have hl : (s ++ ['}']).length = s.length + 1 := by simp
  rw [hl]
  refine ⟨hv, pure (), ?_, ?_⟩
  · show (ty.validate >>= fun _ => pure (pure ())) r = _
    rw [M.bind_ok hv]
    rfl
  · intro ops; exact ⟨[], by simp, rfl, by simp, by simp⟩

theorem fields_wellFormed {t : FormatText} {types : List FTy} (hs : t.SuitsTypes types) : ∀ f ∈ t.fields, f.WellFormed := by
  intro f hf
  refine ⟨hs.digits f hf, fun hc => ?_⟩
  obtain ⟨i, hi⟩ := List.getElem?_of_mem hf
  obtain ⟨_, _, s, hb, h0, _⟩ := hs.taken i f hi
  rw [hb, h0 hc]
  rfl

/-- All fields are read. -/
theorem readsAll_fields {args : List FArg} {kk : Nat} {fs : List Field} {texts : List Str} (hl : texts.length = fs.length)
    (h : ∀ (i : Nat) (f : Field) (text : Str), fs[i]? = some f → texts[i]? = some text →
      ∃ a, args[f.argument i]? = some a ∧ a.Reads f.body text kk) : ReadsAll args kk 0 fs texts := by
  apply readsAll_of _ _ _ hl
  intro x hx
  obtain ⟨i, hi⟩ := List.mem_iff_getElem?.1 hx
  rw [List.getElem?_zip_eq_some, List.getElem?_zip_eq_some, argsFrom_at] at hi
  obtain ⟨⟨h1, h2⟩, h3⟩ := hi
  rw [h2] at h1
  simp only [Option.map_some, Nat.zero_add, Option.some.injEq] at h1
  obtain ⟨a, ha, hr⟩ := h i x.1.2 x.2 h2 h3
  exact ⟨a, by rw [← h1]; exact ha, hr⟩

theorem types_validate {t : FormatText} {args : List (FTy × FVal)} (hn : ∀ a ∈ args, NoTuple a.1)
    (hs : t.SuitsTypes (args.map (·.1))) {tail : Str} (htail : tail = [] ∨ Begins255 tail ∧ t.Explicit) :
    validateStr (t.text ++ tail) (vargs args) = .ok () true := by
  unfold validateStr
  have hlen : (args.map fun a => a.1.silent).length = args.length := by simp
  rw [validateLoop_congr (args' := args.map fun a => a.1.silent) (by simp [vargs, FVal.farg, FTy.silent])]
  have hmode : ModeOk none t.fields := by
    rcases hs.mode with h | h
    · exact Or.inl ⟨h, by simp⟩
    · exact Or.inr ⟨h, by simp⟩
  have hreads : ReadsAll (args.map fun a => a.1.silent) 0 0 t.fields (t.fields.map fun _ => []) := by
    refine readsAll_fields (by simp) fun i f text hf htext => ?_
    obtain ⟨ty, hty, s, hb, _, hacc⟩ := hs.taken i f hf
    have : text = [] := by
      rw [List.getElem?_map, hf] at htext
      simpa using htext.symm
    subst this
    refine ⟨ty.silent, ?_, ?_⟩
    · rw [List.getElem?_map] at hty ⊢
      obtain ⟨a, ha, rfl⟩ := Option.map_eq_some_iff.1 hty
      rw [ha]; rfl
    · rw [hb]
      refine type_silent_reads ?_ hacc
      rw [List.getElem?_map] at hty
      obtain ⟨a, ha, rfl⟩ := Option.map_eq_some_iff.1 hty
      exact hn a (List.mem_of_getElem? ha)
  obtain ⟨⟨b, hb, hb'⟩, _⟩ := loop_forward_tail (args.map fun a => a.1.silent) (by simpa using hs.number) 0 t.last tail
    t.segs (t.fields.map fun _ => []) ((t.text ++ tail).length + 1) ⟨Reader.ofStr (t.text ++ tail), none, 0⟩
    (Bitset.new 128) [] [] (Bitset.rep_new 128) rfl
    (by
      have := Reader.at_ofStr (t.text ++ tail)
      unfold FormatText.text at this ⊢
      rw [List.append_assoc] at this ⊢
      exact this)
    (by have := segs_length_le t; simp only [List.length_append]; omega)
    (fun s h => fields_wellFormed hs _ (List.mem_map_of_mem h))
    hmode (by simp)
    (fun k hk => by rw [hlen]; simpa using (hs.arguments k).1 (by rw [argsFrom_eq]; exact hk))
    (readsSegs_of_all _ _ _ hreads) (htail.imp id fun h => ⟨h.1, h.2, by simp⟩)
  have : b = true := hb'.2 fun k hk => Or.inr (by
    have := (hs.arguments k).2 (by simpa using hk)
    rw [argsFrom_eq] at this
    exact this)
  subst this
  exact hb

theorem types_of_accepted {str : Str} {args : List (FTy × FVal)} (hlen : args.length ≤ 128) (hn : ∀ a ∈ args, NoTuple a.1)
    (hv : validateStr str (vargs args) = .ok () true) :
    ∃ (t : FormatText) (tail : Str), str = t.text ++ tail ∧ t.SuitsTypes (args.map (·.1)) ∧
      (tail = [] ∨ Begins255 tail ∧ t.Explicit) := by
  obtain ⟨t, tail, g1, g2, g3, g4, g5, g6, g7⟩ := loop_backward _ (vargs_tame hn) (str.length + 1)
    ⟨Reader.ofStr str, none, 0⟩ (Bitset.new 128) [] (Bitset.rep_new 128) rfl (Reader.at_ofStr _).1 (by simp) hv
  simp only [vargs, List.length_map, List.not_mem_nil, false_or] at g4 g5
  refine ⟨t, tail, by rw [← g1]; exact (Reader.at_ofStr _).2.symm, ⟨by simpa using hlen, fun f hf => (g2 f hf).idx, ?_, ?_, ?_⟩,
    g7.imp id fun h => ⟨h.1, h.2.1⟩⟩
  · rcases g3 with ⟨h, _⟩ | ⟨h, _⟩
    · exact Or.inl h
    · exact Or.inr h
  · intro k
    rw [argsFrom_eq, List.length_map]
    exact ⟨g4 k, g5 k⟩
  · intro i f hf
    obtain ⟨a, ha, ht⟩ := g6 (f.argument i, f) (mem_zip_get (i := i) (by rw [argsFrom_at, hf]; simp) hf)
    simp only [vargs, List.getElem?_map] at ha
    obtain ⟨b, hb, rfl⟩ := Option.map_eq_some_iff.1 ha
    refine ⟨b.1, by simp [hb], ?_⟩
    obtain ⟨s, h1, h2⟩ := accepts_of_takes (hn b (List.mem_of_getElem? hb)) ht
    refine ⟨s, h1, fun hc => ?_, h2⟩
    have := (g2 f (List.mem_of_getElem? hf)).body hc
    rw [h1] at this
    cases s with
    | nil => rfl
    | cons c l =>
      simp at this
      exact absurd (by simp [this]) (accepts_no_brace h2)

/-- For arguments of any types but tuples, a string is accepted exactly if it is a format string that suits the types,
perhaps followed by ignored text that begins with a field for argument number 255, in which case the numbering is
explicit.  All other strings are refused with `invalid_format`, and nothing is written. -/
theorem C63_accepted_strings_any_types (str : Str) (args : List (FTy × FVal)) (hlen : args.length ≤ 128)
    (hn : ∀ a ∈ args, NoTuple a.1) :
    ((∃ (t : FormatText) (tail : Str), str = t.text ++ tail ∧ t.SuitsTypes (args.map (·.1)) ∧
        (tail = [] ∨ Begins255 tail ∧ t.Explicit)) ↔ validateStr str (vargs args) = .ok () true) ∧
    ((¬ ∃ (t : FormatText) (tail : Str), str = t.text ++ tail ∧ t.SuitsTypes (args.map (·.1)) ∧
        (tail = [] ∨ Begins255 tail ∧ t.Explicit)) →
      formatStr str (vargs args) = .err () .invalidFormat ∧
      ∀ {σ : Type} [BufferImpl σ] (s : σ), formatTo str (vargs args) s = .err s .invalidFormat) := by
  have hiff : (∃ (t : FormatText) (tail : Str), str = t.text ++ tail ∧ t.SuitsTypes (args.map (·.1)) ∧
      (tail = [] ∨ Begins255 tail ∧ t.Explicit)) ↔ validateStr str (vargs args) = .ok () true := by
    constructor
    · rintro ⟨t, tail, rfl, hs, htail⟩
      exact types_validate hn hs htail
    · exact types_of_accepted hlen hn
  refine ⟨hiff, fun hno => ?_⟩
  obtain ⟨b, hb⟩ := C61_validation_total str args hlen hn
  cases b with
  | true => exact absurd (hiff.2 hb) hno
  | false =>
    have hp : ¬ ((vargs args).length = 0 ∧ checkIfPlainString str = true) := by
      intro hp
      have h0 : vargs args = [] := List.eq_nil_of_length_eq_zero hp.1
      rw [h0, plain_validates str hp.2] at hb
      cases hb
    refine ⟨(settled_of_refused hb hp).delivers.format, fun s => ?_⟩
    unfold formatTo VStr.make
    rw [if_neg hp, hb]
    rfl

/-- What a field of such a format string does. -/
theorem field_settles {t : FormatText} {args : List (FTy × FVal)} (hn : ∀ a ∈ args, NoTuple a.1)
    (hv : ∀ a ∈ args, HasType a.2 a.1) (hs : t.SuitsTypes (args.map (·.1))) {i : Nat} {f : Field} (hf : t.fields[i]? = some f) :
    ∃ a, args[f.argument i]? = some a ∧
      ((t.AsksOctal args i ∧ ∃ x, (a.2.farg a.1).Balks f.body x .invalidFormat) ∨
        (¬ t.AsksOctal args i ∧ ∃ text, (a.2.farg a.1).Reads f.body text 1421)) := by
  obtain ⟨ty, hty, s, hb, _, hacc⟩ := hs.taken i f hf
  rw [List.getElem?_map] at hty
  obtain ⟨a, ha, rfl⟩ := Option.map_eq_some_iff.1 hty
  have hmem := List.mem_of_getElem? ha
  obtain ⟨fm, h1, h2⟩ := accepts_works hacc (hn a hmem)
  have hl : f.body.length = s.length + 1 := by rw [hb]; simp
  have hasks : t.AsksOctal args i ↔ OctalIn a.2 s := by
    constructor
    · rintro ⟨f', a', s', g1, g2, g3, g4⟩
      rw [hf] at g1
      cases g1
      rw [ha] at g2
      cases g2
      rw [hb] at g3
      rw [List.append_cancel_right g3]
      exact g4
    · exact fun h => ⟨f, a, s, hf, ha, hb, h⟩
  have hparse : ∀ r tail, r.At (f.body ++ tail) → (a.2.farg a.1).validate r = .ok (r.adv f.body.length) () ∧
      (a.2.farg a.1).parse r = .ok (r.adv f.body.length) (a.2.format fm) := by
    intro r tail hat
    obtain ⟨g1, g2⟩ := h2 r tail (by rw [hb] at hat; simpa using hat)
    rw [hl]
    refine ⟨g1, ?_⟩
    show (do let f ← a.1.fresh.parse; return a.2.format f) r = _
    rw [Fmtr.parse, M.bind_ok g2]
    rfl
  refine ⟨a, ha, ?_⟩
  rw [hasks]
  rcases h1 a.2 (hv a hmem) with ⟨hO, x, hx⟩ | ⟨hO, text, hx⟩
  · exact Or.inl ⟨hO, x, fun r tail hat => ⟨_, (hparse r tail hat).2, hx⟩⟩
  · exact Or.inr ⟨hO, text, fun r tail hat => ⟨(hparse r tail hat).1, _, (hparse r tail hat).2, hx⟩⟩

theorem first_fields {t : FormatText} {args : List (FTy × FVal)} (hn : ∀ a ∈ args, NoTuple a.1)
    (hv : ∀ a ∈ args, HasType a.2 a.1) (hs : t.SuitsTypes (args.map (·.1))) :
    ∀ j, j ≤ t.fields.length → (∀ i < j, ¬ t.AsksOctal args i) → ∃ texts : List Str, texts.length = j ∧
      ∀ (i : Nat) (f : Field) (text : Str), t.fields[i]? = some f → texts[i]? = some text →
        ∃ a, args[f.argument i]? = some a ∧ (a.2.farg a.1).Reads f.body text 1421 := by
  intro j
  induction j with
  | zero => intro _ _; exact ⟨[], rfl, by simp⟩
  | succ j ih =>
    intro hj hno
    obtain ⟨texts, h1, h2⟩ := ih (by omega) fun i hi => hno i (by omega)
    have hlt : j < t.fields.length := by omega
    have hf : t.fields[j]? = some t.fields[j] := List.getElem?_eq_getElem hlt
    obtain ⟨a, ha, ⟨h, _⟩ | ⟨_, text, ht⟩⟩ := field_settles hn hv hs hf
    · exact absurd h (hno j (by omega))
    refine ⟨texts ++ [text], by simp [h1], fun i f x hif hix => ?_⟩
    by_cases hi : i < j
    · rw [List.getElem?_append_left (by omega)] at hix
      exact h2 i f x hif hix
    · have hij : i = j := by
        have := (List.getElem?_eq_some_iff.1 hix).1
        simp [h1] at this
        omega
      subst hij
      rw [hf] at hif
      rw [← h1, List.getElem?_append_right (Nat.le_refl _)] at hix
      simp at hix
      cases hif; subst hix
      exact ⟨a, ha, ht⟩

/-- A field alone. -/
theorem field_alone {a : FArg} {body text : Str} {k : Nat} (h : a.Reads body text k) :
    formatStr ('{' :: ':' :: body) [a] = .ok () text := by
  have := formats_text ⟨[([], ⟨[], true, body⟩)], []⟩ [a] [text] k (by simp)
    (by intro f hf; simp [FormatText.fields] at hf; subst hf; exact ⟨by simp, by simp⟩)
    (Or.inl (by intro f hf; simp [FormatText.fields] at hf; subst hf; rfl))
    (by intro k; simp [FormatText.arguments, FormatText.fields, Field.argument])
    ⟨⟨a, rfl, h⟩, trivial⟩
  have := this.str
  simpa [FormatText.text, FormatText.output, Field.text, escBraces] using this

/-- Which of the accepted format strings succeed: those that ask for the type `O` of nothing.  Every function then
delivers the text with the fields replaced by what they are alone; ignored text adds nothing. -/
theorem C61_without_O_succeeds (t : FormatText) (tail : Str) (args : List (FTy × FVal)) (hn : ∀ a ∈ args, NoTuple a.1)
    (hv : ∀ a ∈ args, HasType a.2 a.1) (suits : t.SuitsTypes (args.map (·.1)))
    (htail : tail = [] ∨ Begins255 tail ∧ t.Explicit) (hO : ∀ j, ¬ t.AsksOctal args j) :
    ∃ texts : List Str, texts.length = t.fields.length ∧ t.FirstAlone args texts ∧
      Delivers (t.text ++ tail) (vargs args) (t.output texts) none := by
  obtain ⟨texts, h1, h2⟩ := first_fields hn hv suits t.fields.length (Nat.le_refl _) fun i _ => hO i
  refine ⟨texts, h1, fun i f text hf ht => ?_, ?_⟩
  · obtain ⟨a, ha, hr⟩ := h2 i f text hf ht
    exact ⟨a, ha, field_alone hr⟩
  have hr : ReadsAll (vargs args) 1421 0 t.fields texts := readsAll_fields h1 fun i f text hf ht => by
    obtain ⟨a, ha, hr⟩ := h2 i f text hf ht
    exact ⟨a.2.farg a.1, by simp [vargs, ha], hr⟩
  exact (formats_tail t tail (vargs args) texts 1421 (by simpa [vargs] using suits.number) (fields_wellFormed suits) suits.mode
    (by simpa [vargs] using suits.arguments) (readsSegs_of_all _ _ _ hr) htail).settled.delivers

/-- Which of the accepted format strings fail: those that ask for the type `O` of something.  Every function then delivers
the text up to the first such field and perhaps a part of that field, and says `invalid_format`. -/
theorem C61_with_O_fails (t : FormatText) (tail : Str) (args : List (FTy × FVal)) (hn : ∀ a ∈ args, NoTuple a.1)
    (hv : ∀ a ∈ args, HasType a.2 a.1) (suits : t.SuitsTypes (args.map (·.1)))
    (htail : tail = [] ∨ Begins255 tail ∧ t.Explicit) (j : Nat) (hO : t.AsksOctal args j)
    (first : ∀ i < j, ¬ t.AsksOctal args i) :
    ∃ (texts : List Str) (part : Str), texts.length = j ∧ t.FirstAlone args texts ∧
      Delivers (t.text ++ tail) (vargs args) ((t.upTo j).output texts ++ part) (some .invalidFormat) := by
  obtain ⟨f, _, _, hf, _⟩ := id hO
  have hlt : j < t.fields.length := (List.getElem?_eq_some_iff.1 hf).1
  obtain ⟨a, ha, ⟨_, part, hbalk⟩ | ⟨h, _⟩⟩ := field_settles hn hv suits hf
  swap
  · exact absurd hO h
  obtain ⟨texts, h1, h2⟩ := first_fields hn hv suits j (by omega) first
  refine ⟨texts, part, h1, fun i f text hf ht => ?_, ?_⟩
  · obtain ⟨a, ha, hr⟩ := h2 i f text hf ht
    exact ⟨a, ha, field_alone hr⟩
  obtain ⟨s, hs, rfl⟩ : ∃ s, t.segs[j]? = some s ∧ s.2 = f := by
    unfold FormatText.fields at hf
    rw [List.getElem?_map] at hf
    exact Option.map_eq_some_iff.1 hf
  have hsplit : t.segs = t.segs.take j ++ [s] ++ t.segs.drop (j + 1) := by
    obtain ⟨hl, hj⟩ := List.getElem?_eq_some_iff.1 hs
    rw [← hj, List.append_assoc, List.singleton_append, List.getElem_cons_drop, List.take_append_drop]
  have hfields : t.fields = (t.segs.take j ++ [s]).map (·.2) ++ (t.segs.drop (j + 1)).map (·.2) := by
    show t.segs.map (·.2) = _
    rw [← List.map_append, ← hsplit]
  have htext : t.text ++ tail = segsText (t.segs.take j ++ [s]) ++
      (segsText (t.segs.drop (j + 1)) ++ (escBraces t.last ++ tail)) := by
    show segsText t.segs ++ escBraces t.last ++ tail = _
    rw [List.append_assoc, ← List.append_assoc (segsText _) (segsText _)]
    congr 1
    unfold segsText
    rw [← List.flatMap_append, ← hsplit]
  have hmode : ModeOk none t.fields := by
    rcases suits.mode with h | h
    · exact Or.inl ⟨h, by simp⟩
    · exact Or.inr ⟨h, by simp⟩
  have hsl : t.segs.length = t.fields.length := by simp [FormatText.fields]
  have hjl : (t.segs.take j).length = j := by simp; omega
  obtain ⟨st, new, g1, g2, g3, g4⟩ := loop_stops (vargs args) (by simpa [vargs] using suits.number) 1421
    (segsText (t.segs.drop (j + 1)) ++ (escBraces t.last ++ tail)) s.1 s.2 part .invalidFormat (t.segs.take j) texts
    ((t.text ++ tail).length + 1) ⟨Reader.ofStr (t.text ++ tail), none, 0⟩ [] (by rw [← htext]; exact Reader.at_ofStr _)
    (by
      have := segs_length_le t
      rw [List.length_append]
      omega)
    (by
      intro x hx
      refine fields_wellFormed suits x.2 ?_
      rw [hfields]
      exact List.mem_append_left _ (List.mem_map_of_mem hx))
    (by
      rw [hfields] at hmode
      rcases hmode with ⟨h, h'⟩ | ⟨h, h'⟩
      · exact Or.inl ⟨fun f hf => h f (List.mem_append_left _ hf), h'⟩
      · exact Or.inr ⟨fun f hf => h f (List.mem_append_left _ hf), h'⟩)
    (by
      intro n hn
      change n ∈ argsFrom 0 ((t.segs.take j ++ [s]).map (·.2)) at hn
      obtain ⟨i, hi⟩ := List.mem_iff_getElem?.1 hn
      rw [argsFrom_at] at hi
      have : n ∈ t.arguments := by
        rw [argsFrom_eq, hfields]
        refine List.mem_of_getElem? (i := i) ?_
        rw [argsFrom_at, List.getElem?_append_left, hi]
        by_contra hge
        rw [List.getElem?_eq_none (by omega)] at hi
        simp at hi
      simpa [vargs] using (suits.arguments n).1 this)
    (readsAll_fields (by simp [h1]; omega) fun i f text hf ht => by
      have hij : i < j := by rw [← h1]; exact (List.getElem?_eq_some_iff.1 ht).1
      rw [List.getElem?_map, List.getElem?_take_of_lt hij] at hf
      obtain ⟨a, ha, hr⟩ := h2 i f text (by unfold FormatText.fields; rw [List.getElem?_map]; exact hf) ht
      exact ⟨a.2.farg a.1, by simp [vargs, ha], hr⟩)
    ⟨a.2.farg a.1, by
      simp only [hjl, Nat.zero_add]
      simp [vargs, ha], hbalk⟩
  have hval := types_validate hn suits htail
  have hp : ¬ ((vargs args).length = 0 ∧ checkIfPlainString (t.text ++ tail) = true) := by
    rintro ⟨hp, _⟩
    have h0 : args = [] := by simpa [vargs] using hp
    rw [h0] at ha
    simp at ha
  have hset := settled_of_stop hval hp g1 (by rw [g2]; exact fun op ho => g4 op (by simpa using ho))
  have hout : render st.ops = (t.upTo j).output texts ++ part := by
    rw [g2, List.nil_append, g3]
    unfold FormatText.output Spec.FormatText.upTo segsOut
    simp [hs]
  rw [hout] at hset
  exact hset.delivers

/-- In short: an accepted format string fails exactly if it asks for the type `O` of something: if a specification ends
with `O` and there is a number, a boolean or a character to be formatted with it. -/
theorem C61_fails_iff_O (t : FormatText) (tail : Str) (args : List (FTy × FVal)) (hn : ∀ a ∈ args, NoTuple a.1)
    (hv : ∀ a ∈ args, HasType a.2 a.1) (suits : t.SuitsTypes (args.map (·.1)))
    (htail : tail = [] ∨ Begins255 tail ∧ t.Explicit) :
    ((∃ text, formatStr (t.text ++ tail) (vargs args) = .ok () text) ↔ ∀ j, ¬ t.AsksOctal args j) ∧
    (formatStr (t.text ++ tail) (vargs args) = .err () .invalidFormat ↔ ∃ j, t.AsksOctal args j) := by
  by_cases hO : ∃ j, t.AsksOctal args j
  · classical
    obtain ⟨texts, part, _, _, hd⟩ := C61_with_O_fails t tail args hn hv suits htail (Nat.find hO) (Nat.find_spec hO)
      fun i hi => Nat.find_min hO hi
    have hf := hd.format
    simp only [ended] at hf
    rw [hf]
    exact ⟨⟨fun ⟨_, h⟩ => (by cases h), fun h => absurd hO (by simpa using h)⟩, ⟨fun _ => hO, fun _ => rfl⟩⟩
  · have hno : ∀ j, ¬ t.AsksOctal args j := by simpa using hO
    obtain ⟨texts, _, _, hd⟩ := C61_without_O_succeeds t tail args hn hv suits htail hno
    have hf := hd.format
    simp only [ended] at hf
    rw [hf]
    exact ⟨⟨fun _ => hno, fun _ => ⟨_, rfl⟩⟩, ⟨fun h => (by cases h), fun h => absurd h hO⟩⟩

/-- All of it in one statement, for any string. -/
theorem C61_any_string (str : Str) (args : List (FTy × FVal)) (hlen : args.length ≤ 128) (hn : ∀ a ∈ args, NoTuple a.1)
    (hv : ∀ a ∈ args, HasType a.2 a.1) :
    (¬ (∃ (t : FormatText) (tail : Str), str = t.text ++ tail ∧ t.SuitsTypes (args.map (·.1)) ∧
        (tail = [] ∨ Begins255 tail ∧ t.Explicit)) ∧ Delivers str (vargs args) [] (some .invalidFormat)) ∨
    ∃ (t : FormatText) (tail : Str), str = t.text ++ tail ∧ t.SuitsTypes (args.map (·.1)) ∧
      (tail = [] ∨ Begins255 tail ∧ t.Explicit) ∧ ∃ (texts : List Str), t.FirstAlone args texts ∧
        ((∀ j, ¬ t.AsksOctal args j) ∧ texts.length = t.fields.length ∧ Delivers str (vargs args) (t.output texts) none ∨
          (∃ part, t.AsksOctal args texts.length ∧ (∀ i < texts.length, ¬ t.AsksOctal args i) ∧
            Delivers str (vargs args) ((t.upTo texts.length).output texts ++ part) (some .invalidFormat))) := by
  obtain ⟨hiff, _⟩ := C63_accepted_strings_any_types str args hlen hn
  obtain ⟨b, hb⟩ := C61_validation_total str args hlen hn
  cases b with
  | false =>
    left
    have hp : ¬ ((vargs args).length = 0 ∧ checkIfPlainString str = true) := by
      intro hp
      have h0 : vargs args = [] := List.eq_nil_of_length_eq_zero hp.1
      rw [h0, plain_validates str hp.2] at hb
      cases hb
    refine ⟨fun h => ?_, (settled_of_refused hb hp).delivers⟩
    rw [hiff.1 h] at hb
    cases hb
  | true =>
    right
    obtain ⟨t, tail, rfl, suits, htail⟩ := hiff.2 hb
    refine ⟨t, tail, rfl, suits, htail, ?_⟩
    by_cases hO : ∃ j, t.AsksOctal args j
    · classical
      obtain ⟨texts, part, h1, h2, hd⟩ := C61_with_O_fails t tail args hn hv suits htail (Nat.find hO) (Nat.find_spec hO)
        fun i hi => Nat.find_min hO hi
      refine ⟨texts, h2, Or.inr ⟨part, ?_, ?_, ?_⟩⟩
      · rw [h1]; exact Nat.find_spec hO
      · rw [h1]; exact fun i hi => Nat.find_min hO hi
      · rw [h1]; exact hd
    · have hno : ∀ j, ¬ t.AsksOctal args j := by simpa using hO
      obtain ⟨texts, h1, h2, hd⟩ := C61_without_O_succeeds t tail args hn hv suits htail hno
      exact ⟨texts, h2, Or.inl ⟨hno, h1, hd⟩⟩

/-- `"a{::O}b{}"`. -/
def octalElements : FormatText := ⟨[(['a'], ⟨[], true, ":O}".toList⟩), (['b'], ⟨[], false, ['}']⟩)], []⟩

/-- A sequence of numbers and an optional. -/
def octalTypes : List FTy := [.seq .int, .optional .int]

/-- It suits them. -/
theorem octalElements_suits : octalElements.SuitsTypes octalTypes := by
  have hsp : ∀ c : Option Char, (∀ d ∈ c, d.isAlpha ∨ d = '?') → SpecText.WellFormed { type := c } := fun c hc =>
    ⟨by simp, by simp, by simp, by simp, by simp, by simp, hc⟩
  have hpass : ∀ c : Option Char, SpecText.NumbersPass { type := c } := fun c =>
    ⟨passes_small (ds := []) (by decide +kernel), by simp⟩
  refine ⟨by decide, ?_, Or.inl ?_, ?_, ?_⟩
  · simp [octalElements, FormatText.fields]
  · simp [octalElements, FormatText.fields, FormatText.Automatic]
  · intro k
    simp [octalElements, FormatText.fields, FormatText.arguments, Field.argument, octalTypes]
    omega
  · intro i f hf
    match i with
    | 0 =>
      simp [octalElements, FormatText.fields] at hf
      subst hf
      refine ⟨.seq .int, rfl, ":O".toList, by decide, by simp, ?_⟩
      exact TypeAccepts.elements (n := false) (TypeAccepts.core (sp := { type := 'O' }) (hsp _ (by decide)) (hpass _) (by
        simp [CoreTy.Allows, SpecText.ForInteger, SpecText.reduced]; decide))
    | 1 =>
      simp [octalElements, FormatText.fields] at hf
      subst hf
      refine ⟨.optional .int, rfl, [], by decide, by simp, ?_⟩
      exact TypeAccepts.optional (TypeAccepts.core (sp := {}) (hsp _ (by decide)) (hpass _) (by
        simp [CoreTy.Allows, SpecText.ForInteger, SpecText.reduced]))
    | i + 2 => simp [octalElements, FormatText.fields] at hf

/-- With no elements `"a{::O}b{}"` is fine; with one it fails, and `a[` has been written. -/
example : octalElements.text = "a{::O}b{}".toList ∧
    (∀ j, ¬ octalElements.AsksOctal [(.seq .int, .range []), (.optional .int, .some (.int 5))] j) ∧
    formatStr octalElements.text (vargs [(.seq .int, .range []), (.optional .int, .some (.int 5))]) =
      .ok () "a[]boptional(5)".toList ∧
    octalElements.AsksOctal [(.seq .int, .range [.int 7]), (.optional .int, .some (.int 5))] 0 ∧
    formatStr octalElements.text (vargs [(.seq .int, .range [.int 7]), (.optional .int, .some (.int 5))]) =
      .err () .invalidFormat := by
  refine ⟨by decide +kernel, ?_, by decide +kernel, ?_, by decide +kernel⟩
  · rintro j ⟨f, a, s, h1, h2, h3, h4, h5⟩
    match j with
    | 0 =>
      simp [octalElements, FormatText.fields] at h1
      subst h1
      simp [Field.argument] at h2
      subst h2
      cases h5 with
      | element mem _ => simp at mem
    | 1 =>
      simp [octalElements, FormatText.fields] at h1
      subst h1
      have : s = [] := by simpa using h3.symm
      subst this
      simp at h4
    | j + 2 => simp [octalElements, FormatText.fields] at h1
  · exact ⟨_, _, ":O".toList, rfl, rfl, by decide, by decide, .element (List.mem_singleton.2 rfl) .int⟩

end Emio
