import Verif.Lemmas.UserFormatter
import Verif.Props.Total
import Verif.Lemmas.ScanNumber
/-
Property C72: formatters of users.
-/
namespace Emio
open Spec BufferImpl

theorem hasSpec_wellFormed {f : Field} {spec : Str} (hd : ∀ c ∈ f.idx, c.isDigit) (h : f.HasSpec spec) : f.WellFormed := by
  refine ⟨hd, fun hc => ?_⟩
  rw [h.1, h.2 hc]
  rfl

/-- C72, formatters that work: literal text is kept and every field is replaced by what the formatter of its argument writes
for the specification of the field, whatever else is in the format string, by all functions.  If no formatter asks for more
than 128 contiguous characters this includes the functions with a cache. -/
theorem C72_fields (t : FormatText) (args : List Passed) (texts : List Str) (k : Nat) (numbers : t.Numbers args.length)
    (length : texts.length = t.fields.length)
    (each : ∀ (i : Nat) (f : Field) (text : Str), t.fields[i]? = some f → texts[i]? = some text →
      ∃ a spec, args[f.argument i]? = some a ∧ f.HasSpec spec ∧ a.Makes spec text k) :
    Delivers t.text (args.map Passed.farg) (t.output texts) none ∧
    InMemory t.text (args.map Passed.farg) (t.output texts) ∧
    (k ≤ 128 → ThroughCache t.text (args.map Passed.farg) (t.output texts)) := by
  have hf : Formats t.text (args.map Passed.farg) (t.output texts) k := by
    refine formats_segs t _ texts k (by simpa using numbers.number) ?_ numbers.mode (by simpa using numbers.arguments) ?_
    · intro f hf
      obtain ⟨i, hi⟩ := List.getElem?_of_mem hf
      have hlt : i < texts.length := by rw [length]; exact (List.getElem?_eq_some_iff.1 hi).1
      obtain ⟨a, spec, _, hs, _⟩ := each i f _ hi (List.getElem?_eq_getElem hlt)
      exact hasSpec_wellFormed (numbers.digits f hf) hs
    · refine readsSegs_of _ _ _ (by rw [length]; simp [FormatText.fields]) ?_
      intro j s text hj ht
      obtain ⟨a, spec, ha, hs, hm⟩ := each j s.2 text (by simp [FormatText.fields, hj]) ht
      refine ⟨a.farg, by simp [ha], ?_⟩
      rw [hs.1]
      exact fun r hat => passed_reads hm r _ hat
  refine ⟨hf.settled.delivers, hf.inMemory, fun hk => Formats.throughCache ?_⟩
  obtain ⟨ops, h1, h2, h3⟩ := hf
  exact ⟨ops, h1, fun op ho => ⟨(h2 op ho).1, Nat.le_trans (h2 op ho).2 hk⟩, h3⟩

/-- The argument is validated. -/
theorem passed_admits {a : Passed} {spec text : Str} {k : Nat} (h : a.Makes spec text k) : a.farg.Admits (spec ++ ['}']) :=
  fun r tail hat => (passed_reads h r tail hat).1

theorem custom_admits {α : Type} {f : UserFormatter α} {v : α} {spec text : Str} {e : Err} (h : Spec.Reports f v spec text e) :
    (f.farg v).Admits (spec ++ ['}']) := by
  intro r tail hat
  have hat' : r.At (spec ++ '}' :: tail) := by simpa using hat
  obtain ⟨s, h1, _⟩ := h.parses r tail hat'
  have hl : (spec ++ ['}']).length = spec.length + 1 := by simp
  rw [hl]
  exact check_validates h.validates ⟨s, h1⟩ hat'

theorem take_zip {α β : Type} : ∀ (l : List α) (m : List β), (l.take m.length).zip m = l.zip m
  | [], m => by simp
  | x :: l, [] => by simp
  | x :: l, y :: m => by simp [take_zip l m]

/-- C72, formatters that report errors: the functions hand out the text before the first such field, then what the formatter
wrote, and pass the error on.  `texts` are the texts of the fields before. -/
theorem C72_error (t : FormatText) (args : List Passed) (texts : List Str) (k : Nat) (numbers : t.Numbers args.length)
    {α : Type} (f : UserFormatter α) (v : α) (s : Str × Field) (spec wrote : Str) (e : Err)
    (field : t.segs[texts.length]? = some s) (arg : args[s.2.argument texts.length]? = some (.custom f v))
    (spells : s.2.HasSpec spec) (reports : Reports f v spec wrote e)
    (before : ∀ (i : Nat) (f : Field) (text : Str), t.fields[i]? = some f → texts[i]? = some text →
      ∃ a spec, args[f.argument i]? = some a ∧ f.HasSpec spec ∧ a.Makes spec text k)
    (behind : ∀ (i : Nat) (f : Field), texts.length < i → t.fields[i]? = some f →
      ∃ a spec text, args[f.argument i]? = some a ∧ f.HasSpec spec ∧ a.Makes spec text k) :
    Delivers t.text (args.map Passed.farg)
      (((t.segs.zip texts).flatMap fun x => x.1.1 ++ x.2) ++ s.1 ++ wrote) (some e) := by
  have hall : ∀ (i : Nat) (g : Field), t.fields[i]? = some g → ∃ a spec, args[g.argument i]? = some a ∧ g.HasSpec spec ∧
      a.farg.Admits (spec ++ ['}']) := by
    intro i g hg
    rcases Nat.lt_trichotomy i texts.length with h | h | h
    · obtain ⟨a, sp, h1, h2, h3⟩ := before i g _ hg (List.getElem?_eq_getElem h)
      exact ⟨a, sp, h1, h2, passed_admits h3⟩
    · subst h
      have : g = s.2 := by simpa [FormatText.fields, field] using hg.symm
      subst this
      exact ⟨_, spec, arg, spells, custom_admits reports⟩
    · obtain ⟨a, sp, text, h1, h2, h3⟩ := behind i g h hg
      exact ⟨a, sp, h1, h2, passed_admits h3⟩
  have hset := settled_at_stop t (args.map Passed.farg) texts texts.length k wrote e (by simpa using numbers.number)
    (fun g hg => by
      obtain ⟨i, hi⟩ := List.getElem?_of_mem hg
      obtain ⟨a, sp, _, h2, _⟩ := hall i g hi
      exact hasSpec_wellFormed (numbers.digits g hg) h2)
    numbers.mode (by simpa using numbers.arguments)
    (fun i g hg => by
      obtain ⟨a, sp, h1, h2, h3⟩ := hall i g hg
      exact ⟨a.farg, by simp [h1], by rw [h2.1]; exact h3⟩)
    rfl
    (fun i g text _ hg ht => by
      obtain ⟨a, sp, h1, h2, h3⟩ := before i g text hg ht
      exact ⟨a.farg, by simp [h1], by rw [h2.1]; exact passed_reads h3⟩)
    s field ⟨f.farg v, by simp [arg, Passed.farg], by rw [spells.1]; exact custom_balks reports⟩
  have hout : segsOut (t.segs.take texts.length) texts = (t.segs.zip texts).flatMap fun x => x.1.1 ++ x.2 := by
    unfold segsOut
    congr 1
    exact take_zip _ _
  rw [hout] at hset
  exact hset.delivers

/-- C72, any string: as long as formatters do not move back in the format string and read when parsing what they accepted
when validating, every function comes to a result.  Accepted format strings fail with nothing but the errors `errs` the
formatters report themselves: the parser adds none. -/
theorem C72_any_string (str : Str) (args : List Passed) (errs : Err → Prop) (hn : args.length ≤ 128)
    (decent : ∀ a ∈ args, a.Decent errs) :
    ∃ accepted text fail, validateStr str (args.map Passed.farg) = .ok () accepted ∧
      Delivers str (args.map Passed.farg) text fail ∧
      if accepted then ∀ e ∈ fail, errs e else text = [] ∧ fail = some .invalidFormat := by
  have hf : ∀ a ∈ args.map Passed.farg, a.Forward ∧ a.Agrees errs := by
    intro a ha
    obtain ⟨b, hb, rfl⟩ := List.mem_map.1 ha
    have hd := decent b hb
    cases b with
    | custom f v => exact ⟨custom_forward hd, custom_agrees hd⟩
    | builtin b =>
      cases b with
      | value ty v =>
        obtain ⟨h1, h2, h3⟩ := hd
        refine ⟨(value_tame h2 v).forward, fun r r' hr hv => ?_⟩
        obtain ⟨act, h4, h5⟩ := tame_agrees (fun src => value_sound h2 h1 src) r r' hr hv
        refine ⟨act, h4, fun ops => ?_⟩
        obtain ⟨new, h6, h7⟩ := h5 ops
        refine ⟨new, h6, ?_⟩
        rcases h7 with h7 | ⟨e, rfl, h7⟩
        · exact Or.inl h7
        · exact Or.inr ⟨_, h3, h7⟩
      | dynamic => exact hd.elim
      | nested => exact hd.elim
  obtain ⟨b, hb⟩ : ∃ b, validateStr str (args.map Passed.farg) = .ok () b := by
    refine loop_total _ (fun a ha => (hf a ha).1) (by simpa using hn) (str.length + 1) ⟨Reader.ofStr str, none, 0⟩
      (Bitset.new 128) [] (Bitset.rep_new 128) rfl (Reader.at_ofStr _).1 ?_
    rw [(Reader.at_ofStr str).2]
    simp
  cases b with
  | false =>
    by_cases hp : (args.map Passed.farg).length = 0 ∧ checkIfPlainString str = true
    · have h0 : args.map Passed.farg = [] := List.eq_nil_of_length_eq_zero hp.1
      rw [h0, plain_validates str hp.2] at hb
      cases hb
    · exact ⟨false, _, _, hb, (settled_of_refused hb hp).delivers, by simp⟩
  | true =>
    obtain ⟨text, fail, h, he⟩ := settled_of_agrees (fun a ha => (hf a ha).2) (fun a ha => (hf a ha).1) hb
    exact ⟨true, text, fail, hb, h.delivers, by simpa using he⟩

/-- C72, formatters without `validate`, whose `format` reports no errors: an accepted format string is always formatted. -/
theorem C72_parse_only (str : Str) (args : List Passed) (hn : args.length ≤ 128)
    (only : ∀ a ∈ args, ∃ (α : Type) (f : UserFormatter α) (v : α), a = .custom f v ∧ f.validate = none ∧
      (∀ r : Reader, r.Inv → (∃ r' e, f.parse r = .err r' e) ∨ ∃ n s, n ≤ r.rest.length ∧ f.parse r = .ok (r.adv n) s) ∧
      ∀ s ops, ∃ new, (∀ op ∈ new, op.Fine) ∧ f.format s v ops = .ok (ops ++ new) ())
    (accepted : validateStr str (args.map Passed.farg) = .ok () true) :
    ∃ text, Delivers str (args.map Passed.farg) text none := by
  obtain ⟨b, text, fail, h1, h2, h3⟩ := C72_any_string str args (fun _ => False) hn (by
    intro a ha
    obtain ⟨α, f, v, rfl, hv, hp, hw⟩ := only a ha
    refine ⟨fun r hr => ?_, by simp [hv], fun s ops => ?_⟩
    · unfold UserFormatter.check
      rw [hv]
      simp only
      rcases hp r hr with ⟨r', e, h⟩ | ⟨n, s, hn, h⟩
      · rw [M.bind_err h]; exact Or.inl ⟨_, _, rfl⟩
      · rw [M.bind_ok h]; exact Or.inr ⟨n, hn, rfl⟩
    · obtain ⟨new, h1, h2⟩ := hw s ops
      exact ⟨new, h1, Or.inl h2⟩)
  rw [accepted] at h1
  obtain ⟨_, rfl⟩ := ok_inj h1
  simp only [if_true] at h3
  cases fail with
  | none => exact ⟨text, h2⟩
  | some e => exact absurd rfl (fun h => h3 e h)

/-- C72, inheritance: a value whose formatter inherits from that of a core type and formats a part of the value with it, is
formatted as that part: in any format string, with any other arguments, on any buffer. -/
theorem C72_inherited {α β : Type} (ty : CoreTy) (arg : α → CoreArg) (part : β → α) (v : β) (hty : (arg (part v)).ty = ty)
    (str : Str) (before behind : List FArg) {σ : Type} [BufferImpl σ] (s : σ) :
    formatTo str (before ++ ((coreFormatter ty arg).inherit part).farg v :: behind) s =
      formatTo str (before ++ (arg (part v)).farg :: behind) s := by
  have : ((coreFormatter ty arg).inherit part).farg v = (arg (part v)).farg := by
    subst hty
    rfl
  rw [this]

/-! ### Examples -/

/-- The formatter of docs/API.md: it takes no specification and writes the number. -/
def fooFormatter : UserFormatter Int where
  State := Unit
  validate := some (do let _ ← Reader.readIfMatchChar '}')
  parse := do let _ ← Reader.readIfMatchChar '}'
  format _ v := emit (.int i32 v 10 false)

theorem brace_read {r : Reader} {tail : Str} (h : r.At ('}' :: tail)) :
    (do let _ ← Reader.readIfMatchChar '}' : M Reader Unit) r = .ok (r.adv 1) () := by
  have := readIfMatchChar_at h '}'
  rw [if_pos rfl] at this
  rw [M.bind_ok this]
  rfl

/-- It works. -/
theorem foo_makes (v : Int) (hv : i32.Holds v) :
    Makes fooFormatter v [] (WOp.int i32 v 10 false).text (WOp.int i32 v 10 false).need := by
  refine ⟨?_, fun r tail hat => ⟨(), brace_read hat, emit_emits _ ⟨by decide, hv, by decide, by decide⟩⟩⟩
  rintro c hc r tail hat
  obtain rfl : (do let _ ← Reader.readIfMatchChar '}') = c := by simpa [fooFormatter] using hc
  exact brace_read hat

theorem Spec.Makes.mono {α : Type} {f : UserFormatter α} {v : α} {spec text : Str} {k k' : Nat} (h : Spec.Makes f v spec text k)
    (hk : k ≤ k') : Spec.Makes f v spec text k' := by
  refine ⟨h.validates, fun r tail hat => ?_⟩
  obtain ⟨s, h1, h2⟩ := h.parses r tail hat
  refine ⟨s, h1, fun ops => ?_⟩
  obtain ⟨new, g1, g2, g3, g4⟩ := h2 ops
  exact ⟨new, g1, g2, g3, fun op ho => Nat.le_trans (g4 op ho) hk⟩

theorem brace_ends {r : Reader} (hr : r.Inv) :
    (∃ r' e, (do let _ ← Reader.readIfMatchChar '}' : M Reader Unit) r = .err r' e) ∨ ∃ n ≤ r.rest.length,
      (do let _ ← Reader.readIfMatchChar '}' : M Reader Unit) r = .ok (r.adv n) () := by
  cases h : r.rest with
  | nil =>
    left
    rw [M.bind_err (readIfMatchChar_nil ⟨hr, h⟩ '}')]
    exact ⟨_, _, rfl⟩
  | cons c l =>
    by_cases hc : c = '}'
    · subst hc
      right
      exact ⟨1, by simp, brace_read ⟨hr, h⟩⟩
    · left
      have := readIfMatchChar_at ⟨hr, h⟩ '}'
      rw [if_neg hc] at this
      rw [M.bind_err this]
      exact ⟨_, _, rfl⟩

/-- It is decent. -/
theorem foo_decent (v : Int) (hv : i32.Holds v) (errs : Err → Prop) : Decent fooFormatter v errs := by
  refine ⟨fun r hr => brace_ends hr, ?_, fun s ops => ⟨[_], ?_, Or.inl rfl⟩⟩
  · intro c hc r r' hr h
    obtain rfl : (do let _ ← Reader.readIfMatchChar '}') = c := by simpa [fooFormatter] using hc
    exact ⟨(), h⟩
  · simp only [List.mem_singleton, forall_eq]
    exact ⟨by decide, hv, by decide, by decide⟩

/-- The same formatter without `validate`. -/
def plainFormatter : UserFormatter Int := { fooFormatter with validate := none }

/-- A formatter that refuses: it writes `<` and then reports an error. -/
def sulkyFormatter : UserFormatter Unit where
  State := Unit
  validate := none
  parse := do let _ ← Reader.readIfMatchChar '}'
  format _ _ := do
    emit (.char '<')
    M.throw .outOfRange

theorem sulky_reports : Reports sulkyFormatter () [] ['<'] .outOfRange := by
  refine ⟨by simp [sulkyFormatter], fun r tail hat => ⟨(), brace_read hat, fun ops => ⟨[.char '<'], rfl, rfl, ?_⟩⟩⟩
  simp [WOp.Fine]

theorem sulky_decent (errs : Err → Prop) (he : errs .outOfRange) : Decent sulkyFormatter () errs := by
  refine ⟨fun r hr => ?_, by simp [sulkyFormatter], fun s ops => ⟨[.char '<'], by simp [WOp.Fine], Or.inr ⟨_, he, rfl⟩⟩⟩
  show (∃ r' e, (do let _ ← sulkyFormatter.parse : M Reader Unit) r = .err r' e) ∨ ∃ n ≤ _,
      (do let _ ← sulkyFormatter.parse : M Reader Unit) r = _
  rcases brace_ends hr with ⟨r', e, h⟩ | ⟨n, hn, h⟩
  · left
    rw [M.bind_err (show sulkyFormatter.parse r = _ from h)]
    exact ⟨_, _, rfl⟩
  · right
    rw [M.bind_ok (show sulkyFormatter.parse r = _ from h)]
    exact ⟨n, hn, rfl⟩

/-- `"a{1}b{0:x}c"` with a number and a value of a user-defined type. -/
def mixedText : FormatText := ⟨[(['a'], ⟨['1'], false, ['}']⟩), (['b'], ⟨['0'], true, ['x', '}']⟩)], ['c']⟩

theorem mixed_numbers : mixedText.Numbers 2 := by
  refine ⟨by decide, by simp [FormatText.fields, mixedText],
    Or.inr (by simp [FormatText.Explicit, FormatText.fields, mixedText]), fun k => ?_⟩
  have : mixedText.arguments = [1, 0] := by decide +kernel
  rw [this]
  simp
  omega

theorem mixed_hex : Passed.Makes ['x'] "ff".toList 1421 (.builtin (.value (.core (.int i32)) (.core (.int i32 255)))) := by
  refine ⟨.core ⟨by decide, by decide⟩, fun h => h trivial, ?_, by decide, by decide +kernel⟩
  exact Spec.Takes.core (sp := { type := some 'x' }) (by constructor <;> simp) (by constructor <;> decide +kernel)
    (by simp [CoreTy.Allows, SpecText.ForInteger]; decide)

example : Delivers "a{1}b{0:x}c".toList [(FVal.core (.int i32 255)).farg (.core (.int i32)), fooFormatter.farg (42 : Int)]
    "a42bffc".toList none := by
  have h := C72_fields mixedText
    [.builtin (.value (.core (.int i32)) (.core (.int i32 255))), .custom fooFormatter (42 : Int)] ["42".toList, "ff".toList]
    1421 mixed_numbers rfl (by
      intro i f text hf ht
      match i with
      | 0 =>
        simp [FormatText.fields, mixedText] at hf ht
        subst hf ht
        exact ⟨_, [], rfl, ⟨rfl, fun _ => rfl⟩, (foo_makes 42 (by decide)).mono (by decide +kernel)⟩
      | 1 =>
        simp [FormatText.fields, mixedText] at hf ht
        subst hf ht
        exact ⟨_, ['x'], rfl, ⟨rfl, by simp⟩, mixed_hex⟩
      | i + 2 => simp at ht)
  exact h.1

/-- `"a{}b{}c{}"`: the formatter of the second value reports an error. -/
def sulkyText : FormatText :=
  ⟨[(['a'], ⟨[], false, ['}']⟩), (['b'], ⟨[], false, ['}']⟩), (['c'], ⟨[], false, ['}']⟩)], []⟩

theorem sulky_numbers : sulkyText.Numbers 3 := by
  refine ⟨by decide, by simp [FormatText.fields, sulkyText],
    Or.inl (by simp [FormatText.Automatic, FormatText.fields, sulkyText]), fun k => ?_⟩
  have : sulkyText.arguments = [0, 1, 2] := by decide +kernel
  rw [this]
  simp
  omega

example : Delivers "a{}b{}c{}".toList [fooFormatter.farg (42 : Int), sulkyFormatter.farg (), fooFormatter.farg (7 : Int)]
    "a42b<".toList (some .outOfRange) :=
  C72_error sulkyText [.custom fooFormatter (42 : Int), .custom sulkyFormatter (), .custom fooFormatter (7 : Int)]
    ["42".toList] 100 sulky_numbers sulkyFormatter () (['b'], ⟨[], false, ['}']⟩) [] ['<'] .outOfRange rfl rfl
    ⟨rfl, fun _ => rfl⟩ sulky_reports (by
      intro i f text hf ht
      match i with
      | 0 =>
        simp [FormatText.fields, sulkyText] at hf ht
        subst hf ht
        exact ⟨_, [], rfl, ⟨rfl, fun _ => rfl⟩, (foo_makes 42 (by decide)).mono (by decide +kernel)⟩
      | i + 1 => simp at ht) (by
      intro i f hi hf
      match i with
      | 0 | 1 => simp at hi
      | 2 =>
        simp [FormatText.fields, sulkyText] at hf
        subst hf
        exact ⟨_, [], _, rfl, ⟨rfl, fun _ => rfl⟩, (foo_makes 7 (by decide)).mono (by decide +kernel)⟩
      | i + 3 => simp [FormatText.fields, sulkyText] at hf)

/-- With the same values, any string. -/
example (str : Str) := C72_any_string str
  [.custom fooFormatter (42 : Int), .custom sulkyFormatter (), .builtin (.value (.core .bool) (.core (.bool true)))]
  (fun e => e = .outOfRange ∨ e = .invalidFormat) (by decide) (by
    intro a ha
    simp only [List.mem_cons, List.not_mem_nil, or_false] at ha
    rcases ha with rfl | rfl | rfl
    · exact foo_decent 42 (by decide) _
    · exact sulky_decent _ (Or.inl rfl)
    · exact ⟨.core trivial, trivial, Or.inr rfl⟩)

/-- Without the one that reports errors. -/
example (str : Str) (h : validateStr str [plainFormatter.farg (42 : Int)] = .ok () true) :
    ∃ text, Delivers str [plainFormatter.farg (42 : Int)] text none :=
  C72_parse_only str [.custom plainFormatter (42 : Int)] (by decide) (by
    simp only [List.mem_singleton, forall_eq]
    refine ⟨_, plainFormatter, 42, rfl, rfl, fun r hr => ?_, fun s ops => ⟨[_], ?_, rfl⟩⟩
    · rcases brace_ends hr with h | ⟨n, hn, h⟩
      · exact Or.inl h
      · exact Or.inr ⟨n, (), hn, h⟩
    · simp only [List.mem_singleton, forall_eq]
      exact ⟨by decide, by decide, by decide, by decide⟩) h

example : validateStr "{0}, {0}".toList [plainFormatter.farg (42 : Int)] = .ok () true := by decide +kernel

/-- A formatter that does not read the closing brace breaks the contract: the brace remains in the format string, `"{}"` is
not accepted, and in `"{}}"` the two braces are an escaped one. -/
example : validateStr "{}".toList [(UserFormatter.mk Unit none (pure ()) (fun _ (_ : Unit) => emit (.char 'x')) none).farg ()] =
      .ok () false ∧
    formatStr "{}}".toList [(UserFormatter.mk Unit none (pure ()) (fun _ (_ : Unit) => emit (.char 'x')) none).farg ()] =
      .ok () "x}".toList := by
  decide +kernel

end Emio
