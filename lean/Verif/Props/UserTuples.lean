import Verif.Spec.UserTuples
import Verif.Props.UserContainers
/-
Property C94: tuples and maps with values that have a formatter of the user, at the end of the format string.
-/
namespace Emio
open Reader Spec BufferImpl

variable {α β : Type}

theorem Spec.Makes.last {f : UserFormatter α} {v : α} {spec text : Str} {k : Nat} (h : Makes f v spec text k) :
    MakesLast f v spec text k :=
  ⟨fun w hw r hat => h.validates w hw r [] hat, fun r hat => h.parses r [] hat⟩

theorem Spec.Reports.last {f : UserFormatter α} {v : α} {spec text : Str} {e : Err} (h : Reports f v spec text e) :
    ReportsLast f v spec text e :=
  ⟨fun w hw r hat => h.validates w hw r [] hat, fun r hat => h.parses r [] hat⟩

theorem Spec.MakesLast.reads {f : UserFormatter α} {v : α} {spec text : Str} {k : Nat} (h : MakesLast f v spec text k) :
    ReadsLast f spec :=
  ⟨h.validates, fun r hat => (h.parses r hat).imp fun _ h => h.1⟩

theorem Spec.ReportsLast.reads {f : UserFormatter α} {v : α} {spec text : Str} {e : Err} (h : ReportsLast f v spec text e) :
    ReadsLast f spec :=
  ⟨h.validates, fun r hat => (h.parses r hat).imp fun _ h => h.1⟩

/-! ### What the formatters of the elements read -/

/-- All formatters read the specification. -/
abbrev EachReads (elem : Option Str) (fs : TupleTypes) : Prop :=
  ∀ g ∈ fs, ReadsLast (tupleElement g.2 elem) (elem.getD [])

theorem Spec.EachMakes.reads {elem : Option Str} {k : Nat} : ∀ {fs : TupleTypes} {vs : TupleVal fs} {texts : List Str},
    EachMakes elem k fs vs texts → EachReads elem fs
  | [], _, _, _ => by simp [EachReads]
  | f :: fs, (v, vs), _, ⟨t, ts, _, h, hs⟩ => by
    intro g hg
    rcases List.mem_cons.1 hg with rfl | hg
    · exact h.reads
    · exact EachMakes.reads hs g hg

theorem Spec.SomeReports.reads {elem : Option Str} {k : Nat} {wrote : Str} {e : Err} : ∀ {fs : TupleTypes} {vs : TupleVal fs}
    {texts : List Str}, SomeReports elem k wrote e fs vs texts → EachReads elem fs
  | [], _, _, h => h.elim
  | f :: fs, (v, vs), [], ⟨h, hs⟩ => by
    intro g hg
    rcases List.mem_cons.1 hg with rfl | hg
    · exact h.reads
    · exact hs g hg
  | f :: fs, (v, vs), t :: ts, ⟨h, hs⟩ => by
    intro g hg
    rcases List.mem_cons.1 hg with rfl | hg
    · exact h.reads
    · exact SomeReports.reads hs g hg

theorem tuple_validateEach {elem : Option Str} {r : Reader} (hat : r.At (elem.getD [] ++ ['}'])) : ∀ {fs : TupleTypes}
    {ws : List (M Reader Unit)} {pos : Nat}, EachReads elem fs → Tuple.validators fs = some ws →
      pos = 0 ∨ pos = r.pos + ((elem.getD []).length + 1) →
      Tuple.validateEach r ws pos = .ok () (if fs = [] then pos else r.pos + ((elem.getD []).length + 1))
  | [], ws, pos, _, hw, _ => by
    obtain rfl := Option.some.inj hw
    simp [Tuple.validateEach]
  | f :: fs, ws, pos, hr, hw, hp => by
    rw [Tuple.validators] at hw
    split at hw
    · rename_i w ws' h1 h2 h3
      obtain rfl := Option.some.inj hw
      have hf := (hr f (by simp)).validates w (by show w ∈ f.2.validate; rw [h1]; rfl) r hat
      have ih := tuple_validateEach hat (pos := r.pos + ((elem.getD []).length + 1)) (fun g hg => hr g (by simp [hg])) h3
        (Or.inr rfl)
      have ih' : Tuple.validateEach r ws' (r.pos + ((elem.getD []).length + 1)) =
          .ok () (r.pos + ((elem.getD []).length + 1)) := by
        rw [ih]; split <;> rfl
      rw [Tuple.validateEach, hf]
      simp only [reduceCtorEq, if_false]
      have hadv : (r.adv ((elem.getD []).length + 1)).pos = r.pos + ((elem.getD []).length + 1) := rfl
      rcases hp with rfl | rfl
      · rw [if_pos rfl, hadv, ih']
      · rw [if_neg (by omega), if_neg (by simp [hadv]), ih']
    · cases hw

theorem tuple_parseEach {elem : Option Str} {r : Reader} (hat : r.At (elem.getD [] ++ ['}'])) : ∀ {fs : TupleTypes} {pos : Nat},
    EachReads elem fs → ∃ ss : TupleState fs, Tuple.parseEach elem.isNone r fs pos =
      .ok () (ss, if fs = [] then pos else r.pos + ((elem.getD []).length + 1))
  | [], pos, _ => ⟨(), by simp [Tuple.parseEach]⟩
  | f :: fs, pos, hr => by
    obtain ⟨s, hs⟩ := (hr f (by simp)).parses r hat
    have hs' : f.2.parseWith (some elem.isNone) r = .ok (r.adv ((elem.getD []).length + 1)) s := hs
    obtain ⟨ss, hss⟩ := tuple_parseEach hat (fs := fs) (pos := (r.adv ((elem.getD []).length + 1)).pos)
      (fun g hg => hr g (by simp [hg]))
    refine ⟨(s, ss), ?_⟩
    rw [Tuple.parseEach, hs']
    simp only
    rw [hss]
    simp only [reduceCtorEq, if_false]
    split <;> rfl

/-- What the elements are then written as. -/
theorem tuple_formatEach {elem : Option Str} {k : Nat} {sep : Str} {r : Reader} (hat : r.At (elem.getD [] ++ ['}'])) :
    ∀ {fs : TupleTypes} {vs : TupleVal fs} {texts : List Str} {pos pos' : Nat} {ss : TupleState fs} (first : Bool),
      EachMakes elem k fs vs texts → Tuple.parseEach elem.isNone r fs pos = .ok () (ss, pos') →
      Emits (Tuple.formatEach sep first fs ss vs) (joined sep first texts) k
  | [], _, _, _, _, _, first, h, _ => by
    obtain rfl := h
    rw [joined_nil]; exact emits_nothing k
  | f :: fs, (v, vs), _, pos, pos', (s, ss), first, ⟨t, ts, e, h, hs⟩, hp => by
    subst e
    obtain ⟨s', g1, g2⟩ := h.parses r hat
    have g1' : f.2.parseWith (some elem.isNone) r = .ok (r.adv ((elem.getD []).length + 1)) s' := g1
    rw [Tuple.parseEach, g1'] at hp
    simp only at hp
    cases hq : Tuple.parseEach elem.isNone r fs (r.adv ((elem.getD []).length + 1)).pos with
    | err _ e => rw [hq] at hp; cases hp
    | bad b => rw [hq] at hp; cases hp
    | ok u q =>
      obtain ⟨ss', p⟩ := q
      rw [hq] at hp
      obtain ⟨_, h5⟩ := ok_inj hp
      obtain ⟨h6, _⟩ := Prod.mk.inj h5
      obtain ⟨rfl, rfl⟩ := Prod.mk.inj h6
      have ih := tuple_formatEach (sep := sep) hat false hs hq
      rw [joined_cons]
      show Emits (do
        if !first then emit (.str sep)
        f.2.format s' v
        Tuple.formatEach sep false fs ss' vs) _ k
      cases first with
      | true => rw [if_pos rfl, List.nil_append]; exact Emits.seq g2 ih
      | false => exact Emits.seq (emits_str sep k) (Emits.seq g2 ih)

theorem tuple_formatEach_stops {elem : Option Str} {k : Nat} {sep wrote : Str} {e : Err} {r : Reader}
    (hat : r.At (elem.getD [] ++ ['}'])) :
    ∀ {fs : TupleTypes} {vs : TupleVal fs} {texts : List Str} {pos pos' : Nat} {ss : TupleState fs} (first : Bool),
      SomeReports elem k wrote e fs vs texts → Tuple.parseEach elem.isNone r fs pos = .ok () (ss, pos') →
      Stops (Tuple.formatEach sep first fs ss vs) (joined sep first (texts ++ [wrote])) e
  | [], _, _, _, _, _, _, h, _ => h.elim
  | f :: fs, (v, vs), texts, pos, pos', (s, ss), first, h, hp => by
    have hread : ∃ s', f.2.parseWith (some elem.isNone) r = .ok (r.adv ((elem.getD []).length + 1)) s' ∧
        ((texts = [] ∧ Stops (f.2.format s' v) wrote e) ∨ ∃ t ts, texts = t :: ts ∧ Emits (f.2.format s' v) t k ∧
          SomeReports elem k wrote e fs vs ts) := by
      cases texts with
      | nil =>
        obtain ⟨s', g1, g2⟩ := h.1.parses r hat
        exact ⟨s', g1, Or.inl ⟨rfl, g2⟩⟩
      | cons t ts =>
        obtain ⟨s', g1, g2⟩ := h.1.parses r hat
        exact ⟨s', g1, Or.inr ⟨t, ts, rfl, g2, h.2⟩⟩
    obtain ⟨s', g1, g2⟩ := hread
    rw [Tuple.parseEach, g1] at hp
    simp only at hp
    cases hq : Tuple.parseEach elem.isNone r fs (r.adv ((elem.getD []).length + 1)).pos with
    | err _ e => rw [hq] at hp; cases hp
    | bad b => rw [hq] at hp; cases hp
    | ok u q =>
      obtain ⟨ss', p⟩ := q
      rw [hq] at hp
      obtain ⟨_, h5⟩ := ok_inj hp
      obtain ⟨h6, _⟩ := Prod.mk.inj h5
      obtain ⟨rfl, rfl⟩ := Prod.mk.inj h6
      show Stops (do
        if !first then emit (.str sep)
        f.2.format s' v
        Tuple.formatEach sep false fs ss' vs) _ e
      rcases g2 with ⟨rfl, g2⟩ | ⟨t, ts, rfl, g2, g3⟩
      · rw [List.nil_append, joined_cons, joined_nil, List.append_nil]
        cases first with
        | true => rw [if_pos rfl, List.nil_append]; exact g2.bind
        | false => exact Emits.stops (emits_str sep k) g2.bind
      · have ih := tuple_formatEach_stops (sep := sep) hat false g3 hq
        rw [List.cons_append, joined_cons]
        cases first with
        | true => rw [if_pos rfl, List.nil_append]; exact Emits.stops g2 ih
        | false => exact Emits.stops (emits_str sep k) (Emits.stops g2 ih)

/-! ### Tuples -/

theorem tuple_validates {entry : Bool} {fs : TupleTypes} {g : ElemFormatter (TupleVal fs)} (hg : tupleFormatter entry fs = some g)
    {n : Bool} {elem : Option Str} (nonempty : elem ≠ none → fs ≠ []) (reads : EachReads elem fs) :
    ∀ validate ∈ g.validate, ∀ r : Reader, r.At (rangeSpec n elem ++ ['}']) →
      validate r = .ok (r.adv ((rangeSpec n elem).length + 1)) () := by
  unfold tupleFormatter at hg
  split at hg
  · cases hg
  rename_i ws hw
  obtain rfl := Option.some.inj hg
  intro validate hval r hat
  obtain rfl := Option.some.inj hval
  rw [M.bind_ok (validateHead hat)]
  cases elem with
  | none =>
    rw [if_neg (by simp), M.pure_run, rangeSpec_length]
    simp
  | some e =>
    have hne : fs ≠ [] := nonempty (by simp)
    have hh := head_at hat
    simp only [Option.isSome_some, if_true, Option.getD_some] at hh
    have hpos : (r.adv ((if n then 1 else 0) + 1)).pos + (e.length + 1) ≠ 0 := by omega
    have hv := tuple_validateEach (elem := some e) hh reads hw (Or.inl rfl)
    rw [if_neg hne, Option.getD_some] at hv
    rw [if_pos (by simp), if_neg (by simpa using hne)]
    rw [M.bind_ok (onCopies_ok (f := fun r => Tuple.validateEach r ws 0) hv), M.modify_run]
    rw [if_pos hpos, pop_end hh, adv_adv, rangeSpec_length]
    simp [Nat.add_assoc]

/-- What the formatter of a tuple reads and then does. -/
theorem tuple_parses {entry : Bool} {fs : TupleTypes} {g : ElemFormatter (TupleVal fs)} (hg : tupleFormatter entry fs = some g)
    {n : Bool} {elem : Option Str} (nonempty : elem ≠ none → fs ≠ []) (reads : EachReads elem fs) {r : Reader}
    (hat : r.At (rangeSpec n elem ++ ['}'])) :
    ∃ (r' : Reader) (ss : TupleState fs) (pos pos' : Nat) (s' : g.State), r'.At (elem.getD [] ++ ['}']) ∧
      Tuple.parseEach elem.isNone r' fs pos = .ok () (ss, pos') ∧
      g.parse r = .ok (r.adv ((rangeSpec n elem).length + 1)) s' ∧ ∀ vs, g.format s' vs = (do
        emit (.str (if n || entry then [] else ['(']))
        Tuple.formatEach (if entry then [':', ' '] else [',', ' ']) true fs ss vs
        emit (.str (if n || entry then [] else [')']))) := by
  unfold tupleFormatter at hg
  split at hg
  · cases hg
  obtain rfl := Option.some.inj hg
  have hh := head_at hat
  obtain ⟨ss, hss⟩ := tuple_parseEach hh (pos := 0) reads
  refine ⟨_, ss, 0, _, (n, ss), hh, hss, ?_, fun vs => rfl⟩
  show (do
    let (n, more) ← parseRangeHead
    if fs.isEmpty then
      if more then M.throw .invalidFormat
      else
        let (ss, _) ← onCopies (fun r => Tuple.parseEach (!more) r fs 0)
        M.modify (·.pop 1)
        return (n, ss)
    else
      let (ss, pos) ← onCopies (fun r => Tuple.parseEach (!more) r fs 0)
      M.modify (·.pop pos)
      return (n, ss) : M Reader (Bool × TupleState fs)) r = _
  rw [M.bind_ok (parseHead hat)]
  simp only
  by_cases hne : fs = []
  · subst hne
    have hel : elem = none := by
      by_contra h; exact nonempty h rfl
    subst hel
    have hh' : (r.adv ((if n then 1 else 0) + 0)).At ['}'] := hh
    rw [if_pos (by rfl), if_neg (by simp)]
    rw [M.bind_ok (onCopies_ok (f := fun r => Tuple.parseEach (!(none : Option Str).isSome) r [] 0) hss)]
    simp only
    have := hh'.pop1
    rw [M.bind_ok (M.modify_run _ _)]
    simp only [Option.isSome_none, Bool.false_eq_true, if_false]
    rw [this, M.pure_run, adv_adv, rangeSpec_length]
    simp
  · rw [if_neg hne] at hss
    rw [if_neg (by simpa using hne), Option.not_isSome]
    rw [M.bind_ok (onCopies_ok (f := fun r => Tuple.parseEach elem.isNone r fs 0) hss)]
    simp only
    rw [M.bind_ok (M.modify_run _ _), pop_end hh, M.pure_run, adv_adv, rangeSpec_length]
    simp [Nat.add_assoc]

/-- C94, tuples, pairs and the entries of maps, at the end of the format string: where the formatters of the elements work for
the specification of the elements, that of the tuple writes their texts with separators in between, in parentheses unless `n` is
given or it is the entry of a map.  Elsewhere in the format string it loses text (C54). -/
theorem C94_tuple_partial (entry : Bool) (fs : TupleTypes) (g : ElemFormatter (TupleVal fs)) (hg : tupleFormatter entry fs = some g)
    (vs : TupleVal fs) (texts : List Str) (n : Bool) (elem : Option Str) (k : Nat) (nonempty : elem ≠ none → fs ≠ [])
    (each : EachMakes elem k fs vs texts) :
    MakesLast g.toUserFormatter vs (rangeSpec n elem) (tupleText entry n texts) k := by
  refine ⟨tuple_validates hg nonempty each.reads, fun r hat => ?_⟩
  obtain ⟨r', ss, pos, pos', s', h1, h2, h3, h4⟩ := tuple_parses hg nonempty each.reads hat
  refine ⟨s', h3, ?_⟩
  rw [h4]
  have he := tuple_formatEach (sep := if entry then [':', ' '] else [',', ' ']) h1 true each h2
  cases entry with
  | true =>
    have := bracketed_emits (n := true) (o := []) (c := []) he
    simpa [bracketed, tupleText, joined] using this
  | false =>
    have := bracketed_emits (n := n) (o := ['(']) (c := [')']) he
    cases n <;> exact this

/-- C94, tuples at the end of the format string: the first element the formatter of which reports an error ends it. -/
theorem C94_tuple_error_partial (entry : Bool) (fs : TupleTypes) (g : ElemFormatter (TupleVal fs))
    (hg : tupleFormatter entry fs = some g) (vs : TupleVal fs) (texts : List Str) (wrote : Str) (e : Err) (n : Bool)
    (elem : Option Str) (k : Nat) (each : SomeReports elem k wrote e fs vs texts) :
    ReportsLast g.toUserFormatter vs (rangeSpec n elem)
      ((if n || entry then [] else ['(']) ++ (if entry then [':', ' '] else [',', ' ']).intercalate (texts ++ [wrote])) e := by
  have nonempty : elem ≠ none → fs ≠ [] := by
    rintro _ rfl
    exact each
  refine ⟨tuple_validates hg nonempty each.reads, fun r hat => ?_⟩
  obtain ⟨r', ss, pos, pos', s', h1, h2, h3, h4⟩ := tuple_parses hg nonempty each.reads hat
  refine ⟨s', h3, ?_⟩
  rw [h4]
  have he := tuple_formatEach_stops (sep := if entry then [':', ' '] else [',', ' ']) h1 true each h2
  exact Emits.stops (emits_str _ k) (Stops.bind he)

/-! ### Ranges and tuples of tuples -/

/-- Formatters without `set_debug_format`, like those of tuples, are used as they are. -/
theorem asElement_plain {f : ElemFormatter α} (h : f.parseDebug = none) (elem : Option Str) :
    asElement f elem = f.toUserFormatter ∧ tupleElement f elem = f.toUserFormatter := by
  unfold asElement tupleElement
  rw [parseWith_plain f h, parseWith_plain f h]
  exact ⟨rfl, rfl⟩

theorem tuple_plain {entry : Bool} {fs : TupleTypes} {g : ElemFormatter (TupleVal fs)} (hg : tupleFormatter entry fs = some g) :
    g.parseDebug = none := by
  unfold tupleFormatter at hg
  split at hg
  · cases hg
  · obtain rfl := Option.some.inj hg
    rfl

/-- C94, ranges of tuples and maps, at the end of the format string. -/
theorem C94_range_last (f : ElemFormatter α) (curly : Bool) (g : ElemFormatter (List α)) (hg : f.range curly = some g)
    (vs : List α) (texts : List Str) (n : Bool) (elem : Option Str) (k : Nat)
    (reads : ReadsLast (asElement f elem) (elem.getD []))
    (each : List.Forall₂ (fun v text => MakesLast (asElement f elem) v (elem.getD []) text k) vs texts) :
    MakesLast g.toUserFormatter vs (rangeSpec n elem) (rangeBrackets curly n ([',', ' '].intercalate texts)) k := by
  refine ⟨fun w hw r hat => ?_, fun r hat => ?_⟩
  · unfold ElemFormatter.range at hg
    split at hg
    · rename_i v hv hc
      obtain rfl := Option.some.inj hg
      obtain rfl := Option.some.inj hw
      rw [M.bind_ok (validateHead hat)]
      cases elem with
      | none =>
        rw [if_neg (by simp), M.pure_run, rangeSpec_length]
        rfl
      | some e =>
        have h1 := head_at hat
        have h2 := reads.validates v (show v ∈ f.validate by rw [hv]; rfl) _ h1
        simp only [Option.isSome_some, if_true] at h2 ⊢
        rw [h2, adv_adv, rangeSpec_length]
        simp [Nat.add_assoc]
    · cases hg
  · obtain ⟨s, hs⟩ := reads.parses _ (head_at hat)
    obtain ⟨s', h1, h2⟩ := range_parses hg hat hs
    refine ⟨s', h1, ?_⟩
    rw [h2]
    refine bracketed_emits (formatEach_emits (texts := texts) ?_ true)
    refine each.imp fun v text h => ?_
    obtain ⟨s2, g1, g2⟩ := h.parses _ (head_at hat)
    rw [hs] at g1
    obtain ⟨_, rfl⟩ := ok_inj g1
    exact g2

/-! ### The end of a format string -/

theorem custom_reads_last {f : UserFormatter α} {v : α} {spec text : Str} {k : Nat} (h : MakesLast f v spec text k) :
    (f.farg v).ReadsBefore (spec ++ ['}']) text k [] := by
  intro r hat
  have hat' : r.At (spec ++ ['}']) := by simpa using hat
  obtain ⟨s, h1, h2⟩ := h.parses r hat'
  have hl : (spec ++ ['}']).length = spec.length + 1 := by simp
  rw [hl]
  refine ⟨?_, _, ?_, h2⟩
  · show f.check r = _
    unfold UserFormatter.check
    cases hv : f.validate with
    | some v => exact h.validates v (by rw [hv]; rfl) r hat'
    | none =>
      simp only
      rw [M.bind_ok h1]
      rfl
  · show (do let s ← f.parse; return f.format s v : M Reader (Fmt Unit)) r = _
    rw [M.bind_ok h1]
    rfl

/-- C94: a format string that ends with the field of such a tuple, with any other arguments in the fields before, is formatted as
one expects, by all functions. -/
theorem C94_last_field_partial (t : FormatText) (args : List Passed) (texts : List Str) (k : Nat) (numbers : t.Numbers args.length)
    (length : texts.length = t.fields.length) (ends : t.last = [])
    {α : Type} (f : UserFormatter α) (v : α) (spec text : Str) (makes : MakesLast f v spec text k)
    (each : ∀ (i : Nat) (fld : Field) (s : Str), t.fields[i]? = some fld → texts[i]? = some s →
      if i + 1 < t.fields.length then ∃ a spec, args[fld.argument i]? = some a ∧ fld.HasSpec spec ∧ a.Makes spec s k
      else args[fld.argument i]? = some (.custom f v) ∧ fld.HasSpec spec ∧ s = text) :
    Delivers t.text (args.map Passed.farg) (t.output texts) none ∧
    InMemory t.text (args.map Passed.farg) (t.output texts) ∧
    (k ≤ 128 → ThroughCache t.text (args.map Passed.farg) (t.output texts)) := by
  have hf : Formats t.text (args.map Passed.farg) (t.output texts) k := by
    refine formats_segs t _ texts k (by simpa using numbers.number) ?_ numbers.mode (by simpa using numbers.arguments) ?_
    · intro fld hf
      obtain ⟨i, hi⟩ := List.getElem?_of_mem hf
      have hlt : i < texts.length := by rw [length]; exact (List.getElem?_eq_some_iff.1 hi).1
      have he := each i fld _ hi (List.getElem?_eq_getElem hlt)
      split at he
      · obtain ⟨a, spec, _, hs, _⟩ := he
        exact hasSpec_wellFormed (numbers.digits fld hf) hs
      · exact hasSpec_wellFormed (numbers.digits fld hf) he.2.1
    · refine readsSegs_of _ _ _ (by rw [length]; simp [FormatText.fields]) ?_
      intro j s tx hj ht
      have he := each j s.2 tx (by simp [FormatText.fields, hj]) ht
      split at he
      · obtain ⟨a, spec, ha, hs, hm⟩ := he
        refine ⟨a.farg, by simp [ha], ?_⟩
        rw [hs.1]
        exact fun r hat => passed_reads hm r _ hat
      · rename_i hlast
        obtain ⟨ha, hs, rfl⟩ := he
        refine ⟨f.farg v, by simp [ha, Passed.farg], ?_⟩
        have hd : t.segs.drop (j + 1) = [] := by
          rw [List.drop_eq_nil_iff]
          simp only [FormatText.fields, List.length_map] at hlast
          omega
        rw [hs.1]
        have := custom_reads_last makes
        simpa [hd, ends, segsText, escBraces] using this
  refine ⟨hf.settled.delivers, hf.inMemory, fun hk => Formats.throughCache ?_⟩
  obtain ⟨ops, h1, h2, h3⟩ := hf
  exact ⟨ops, h1, fun op ho => ⟨(h2 op ho).1, Nat.le_trans (h2 op ho).2 hk⟩, h3⟩

/-! ### Examples -/

/-- A pair of two values with the formatter of docs/API.md. -/
def fooPair : TupleTypes := [⟨Int, fooElem⟩, ⟨Int, fooElem⟩]

theorem fooPair_makes : EachMakes none 100 fooPair ((1 : Int), (-2 : Int), ()) ["1".toList, "-2".toList] :=
  ⟨_, _, rfl, Makes.last ((foo_makes 1 (by decide)).mono (by decide)), _, _, rfl,
    Makes.last ((foo_makes (-2) (by decide)).mono (by decide)), rfl⟩

/-- The hypotheses of `C94_tuple_partial`, and of `C94_range_last` for a map. -/
example : ∃ g, tupleFormatter false fooPair = some g ∧
    MakesLast g.toUserFormatter ((1 : Int), (-2 : Int), ()) [] "(1, -2)".toList 100 :=
  ⟨_, rfl, C94_tuple_partial false fooPair _ rfl _ _ false none 100 (by simp) fooPair_makes⟩

example : ∃ entry h, tupleFormatter true fooPair = some entry ∧ entry.range true = some h ∧
    MakesLast h.toUserFormatter [((1 : Int), (-2 : Int), ()), ((1 : Int), (-2 : Int), ())] "n".toList "1: -2, 1: -2".toList 100 := by
  obtain ⟨entry, he⟩ : ∃ entry, tupleFormatter true fooPair = some entry ∧ ∃ h, entry.range true = some h := ⟨_, rfl, _, rfl⟩
  obtain ⟨he, h, hh⟩ := he
  have hm := C94_tuple_partial true fooPair _ he _ _ false none 100 (by simp) fooPair_makes
  refine ⟨entry, h, he, hh, ?_⟩
  rw [← (asElement_plain (tuple_plain he) none).1] at hm
  exact C94_range_last entry true h hh _ ["1: -2".toList, "1: -2".toList] true none 100 hm.reads (.cons hm (.cons hm .nil))

/-- Those of `C94_tuple_error_partial`: the second of three elements reports an error. -/
example : ∃ g, tupleFormatter false [⟨Int, fooElem⟩, ⟨Unit, frankElem⟩, ⟨Int, fooElem⟩] = some g ∧
    ReportsLast g.toUserFormatter ((1 : Int), (), (3 : Int), ()) [] "(1, <".toList .outOfRange := by
  refine ⟨_, rfl, C94_tuple_error_partial false _ _ rfl _ ["1".toList] "<".toList .outOfRange false none 100
    ⟨Makes.last ((foo_makes 1 (by decide)).mono (by decide)), ?_, ?_⟩⟩
  · refine ⟨fun validate hval r hat => ?_, fun r hat => ⟨(), brace_read hat, fun ops => ⟨[.char '<'], rfl, rfl, ?_⟩⟩⟩
    · obtain rfl := Option.some.inj hval
      exact brace_read hat
    · simp [WOp.Fine]
  · intro g hg
    obtain rfl := List.mem_singleton.1 hg
    exact (Makes.last (foo_makes 1 (by decide))).reads

/-- `a{}={}`. -/
def endText : FormatText := ⟨[("a".toList, ⟨[], false, "}".toList⟩), ("=".toList, ⟨[], false, "}".toList⟩)], []⟩

theorem end_numbers : endText.Numbers 2 := by
  refine ⟨by decide, by simp [FormatText.fields, endText],
    Or.inl (by simp [FormatText.Automatic, FormatText.fields, endText]), fun k => ?_⟩
  have : endText.arguments = [0, 1] := by decide +kernel
  rw [this]
  simp
  omega

/-- Those of `C94_last_field_partial`: `a{}={}` with a value and a pair. -/
example : ∃ g, tupleFormatter false fooPair = some g ∧
    formatStr "a{}={}".toList [fooFormatter.farg (7 : Int), g.farg ((1 : Int), (-2 : Int), ())] = .ok () "a7=(1, -2)".toList := by
  obtain ⟨g, hg⟩ : ∃ g, tupleFormatter false fooPair = some g := ⟨_, rfl⟩
  refine ⟨g, hg, ?_⟩
  have h := C94_last_field_partial endText [.custom fooFormatter (7 : Int), .custom g.toUserFormatter ((1 : Int), (-2 : Int), ())]
    ["7".toList, "(1, -2)".toList] 100 end_numbers rfl rfl g.toUserFormatter ((1 : Int), (-2 : Int), ()) [] "(1, -2)".toList
    (C94_tuple_partial false fooPair g hg _ _ false none 100 (by simp) fooPair_makes) (by
      intro i fld s hf hs
      match i with
      | 0 =>
        obtain rfl := Option.some.inj hf
        obtain rfl := Option.some.inj hs
        exact ⟨_, [], rfl, ⟨rfl, fun _ => rfl⟩, (foo_makes 7 (by decide)).mono (by decide)⟩
      | 1 =>
        obtain rfl := Option.some.inj hf
        obtain rfl := Option.some.inj hs
        exact ⟨rfl, ⟨rfl, fun _ => rfl⟩, rfl⟩
      | n + 2 => simp [FormatText.fields, endText] at hf)
  exact h.1.format

end Emio
