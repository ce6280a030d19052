import Verif.Spec.UserContainers
import Verif.Props.UserFormatter
import Verif.Props.Overloads
import Verif.Lemmas.AnyTypes
/-
Property C94: ranges, optionals, variants and tuples of values with a formatter of the user.
-/
namespace Emio
open Reader Spec BufferImpl

variable {α β : Type}

/-! ### Elements of a range -/

theorem formatEach_emits {format : α → Fmt Unit} {sep : Str} {k : Nat} {vs : List α} {texts : List Str}
    (h : List.Forall₂ (fun v t => Emits (format v) t k) vs texts) (first : Bool) :
    Emits (ElemFormatter.formatEach format sep first vs) (joined sep first texts) k := by
  induction h generalizing first with
  | nil => rw [joined_nil]; exact emits_nothing k
  | cons h _ ih =>
    rw [joined_cons, ElemFormatter.formatEach]
    cases first with
    | true => rw [if_pos rfl, List.nil_append]; exact Emits.seq h (ih false)
    | false => exact Emits.seq (emits_str sep k) (Emits.seq h (ih false))

theorem formatEach_stops {format : α → Fmt Unit} {sep : Str} {k : Nat} {before : List α} {texts : List Str} {v : α}
    {wrote : Str} {e : Err} (behind : List α)
    (h : List.Forall₂ (fun v t => Emits (format v) t k) before texts) (hs : Stops (format v) wrote e) (first : Bool) :
    Stops (ElemFormatter.formatEach format sep first (before ++ v :: behind)) (joined sep first (texts ++ [wrote])) e := by
  induction h generalizing first with
  | nil =>
    rw [List.nil_append, List.nil_append, joined_cons, joined_nil, List.append_nil, ElemFormatter.formatEach]
    cases first with
    | true => exact hs.bind
    | false => exact Emits.stops (emits_str sep k) hs.bind
  | cons h _ ih =>
    rw [List.cons_append, List.cons_append, joined_cons, ElemFormatter.formatEach]
    cases first with
    | true => rw [if_pos rfl, List.nil_append]; exact Emits.stops h (ih false)
    | false => exact Emits.stops (emits_str sep k) (Emits.stops h (ih false))

/-! ### Ranges -/

theorem parseWith_none (f : ElemFormatter α) : f.parseWith none = f.parse := by
  unfold ElemFormatter.parseWith
  rfl

theorem range_validates {f : ElemFormatter α} {curly : Bool} {g : ElemFormatter (List α)} (hg : f.range curly = some g)
    {n : Bool} {elem : Option Str} (reads : ReadsSpec (asElement f elem) (elem.getD [])) :
    ∀ validate ∈ g.validate, ∀ (r : Reader) (tail : Str), r.At (rangeSpec n elem ++ '}' :: tail) →
      validate r = .ok (r.adv ((rangeSpec n elem).length + 1)) () := by
  unfold ElemFormatter.range at hg
  split at hg
  · rename_i v hv hc
    obtain rfl := Option.some.inj hg
    intro validate hval r tail hat
    obtain rfl := Option.some.inj hval
    show M.bind _ _ r = _
    rw [show M.bind validateRangeHead _ r = _ from M.bind_ok (validateHead hat)]
    cases elem with
    | none =>
      rw [if_neg (by simp), M.pure_run, rangeSpec_length]
      rfl
    | some e =>
      have h1 := head_at hat
      have h2 := reads.validates v (show v ∈ f.validate by rw [hv]; rfl) _ tail h1
      simp only [Option.isSome_some, if_true] at h2 ⊢
      rw [h2, adv_adv, rangeSpec_length]
      simp [Nat.add_assoc]
  · cases hg

/-- What the formatter of a range reads and then does. -/
theorem range_parses {f : ElemFormatter α} {curly : Bool} {g : ElemFormatter (List α)} (hg : f.range curly = some g)
    {n : Bool} {elem : Option Str} {r : Reader} {tail : Str} {s : f.State} (hat : r.At (rangeSpec n elem ++ '}' :: tail))
    (hp : (asElement f elem).parse (r.adv ((if n then 1 else 0) + if elem.isSome then 1 else 0)) =
      .ok ((r.adv ((if n then 1 else 0) + if elem.isSome then 1 else 0)).adv ((elem.getD []).length + 1)) s) :
    ∃ s', g.parse r = .ok (r.adv ((rangeSpec n elem).length + 1)) s' ∧ ∀ vs, g.format s' vs = (do
      emit (.str (if n then [] else if curly then ['{'] else ['[']))
      ElemFormatter.formatEach (f.format s) [',', ' '] true vs
      emit (.str (if n then [] else if curly then ['}'] else [']']))) := by
  unfold ElemFormatter.range at hg
  split at hg
  · rename_i v hv hc
    obtain rfl := Option.some.inj hg
    refine ⟨(n, s), ?_, fun _ => rfl⟩
    show (do
        let (n, more) ← parseRangeHead
        let s ← f.parseWith (if more then none else some true)
        return (n, s) : M Reader (Bool × f.State)) r = _
    rw [M.bind_ok (parseHead hat)]
    simp only
    have h2 := hp
    rw [show (asElement f elem).parse = f.parseWith (if elem.isSome then none else some true) by cases elem <;> rfl] at h2
    rw [M.bind_ok h2, M.pure_run, adv_adv, rangeSpec_length]
    simp only [Nat.add_assoc]
  · cases hg

/-- C94, ranges: where the formatter of the elements works for the specification of the elements, that of the range works: it
writes the elements with separators in between, in brackets unless `n` is given.  Without a specification for the elements
they are formatted as for debugging, if their formatter knows how to. -/
theorem C94_range (f : ElemFormatter α) (curly : Bool) (g : ElemFormatter (List α)) (hg : f.range curly = some g)
    (vs : List α) (texts : List Str) (n : Bool) (elem : Option Str) (k : Nat)
    (reads : ReadsSpec (asElement f elem) (elem.getD []))
    (each : List.Forall₂ (fun v text => Makes (asElement f elem) v (elem.getD []) text k) vs texts) :
    Makes g.toUserFormatter vs (rangeSpec n elem) (rangeBrackets curly n ([',', ' '].intercalate texts)) k := by
  refine ⟨range_validates hg reads, fun r tail hat => ?_⟩
  obtain ⟨s, hs⟩ := reads.parses _ tail (head_at hat)
  obtain ⟨s', h1, h2⟩ := range_parses hg hat hs
  refine ⟨s', h1, ?_⟩
  rw [h2]
  refine bracketed_emits (formatEach_emits (texts := texts) ?_ true)
  refine each.imp fun v text h => ?_
  obtain ⟨s2, g1, g2⟩ := h.parses _ tail (head_at hat)
  rw [hs] at g1
  obtain ⟨_, rfl⟩ := ok_inj g1
  exact g2

/-- C94, ranges: the first element the formatter of which reports an error ends it. -/
theorem C94_range_error (f : ElemFormatter α) (curly : Bool) (g : ElemFormatter (List α)) (hg : f.range curly = some g)
    (before : List α) (v : α) (behind : List α) (texts : List Str) (wrote : Str) (e : Err) (n : Bool) (elem : Option Str)
    (k : Nat) (each : List.Forall₂ (fun v text => Makes (asElement f elem) v (elem.getD []) text k) before texts)
    (reports : Reports (asElement f elem) v (elem.getD []) wrote e) :
    Reports g.toUserFormatter (before ++ v :: behind) (rangeSpec n elem)
      ((if n then [] else if curly then ['{'] else ['[']) ++ [',', ' '].intercalate (texts ++ [wrote])) e := by
  have reads : ReadsSpec (asElement f elem) (elem.getD []) :=
    ⟨reports.validates, fun r tail hat => by obtain ⟨s, h, _⟩ := reports.parses r tail hat; exact ⟨s, h⟩⟩
  refine ⟨range_validates hg reads, fun r tail hat => ?_⟩
  obtain ⟨s, hs, hst⟩ := reports.parses _ tail (head_at hat)
  obtain ⟨s', h1, h2⟩ := range_parses hg hat hs
  refine ⟨s', h1, ?_⟩
  rw [h2]
  refine Emits.stops (emits_str _ k) (Stops.bind ?_)
  refine formatEach_stops (k := k) behind (each.imp fun v text h => ?_) hst true
  obtain ⟨s2, g1, g2⟩ := h.parses _ tail (head_at hat)
  rw [hs] at g1
  obtain ⟨_, rfl⟩ := ok_inj g1
  exact g2

/-! ### Optionals -/

theorem optional_check {f : ElemFormatter α} {spec : Str} (reads : ReadsSpec f.toUserFormatter spec) (r : Reader)
    (tail : Str) (hat : r.At (spec ++ '}' :: tail)) : f.check r = .ok (r.adv (spec.length + 1)) () :=
  check_validates reads.validates (reads.parses r tail hat) hat

/-- C94, optionals with a value. -/
theorem C94_optional_some (f : ElemFormatter α) (g : ElemFormatter (Option α)) (hg : f.optional = some g) (v : α)
    (spec text : Str) (k : Nat) (hk : 1 ≤ k) (h : Makes f.toUserFormatter v spec text k) :
    Makes g.toUserFormatter (some v) spec ("optional(".toList ++ text ++ ")".toList) k := by
  unfold ElemFormatter.optional at hg
  split at hg
  · obtain rfl := Option.some.inj hg
    refine ⟨fun validate hval r tail hat => ?_, fun r tail hat => ?_⟩
    · obtain rfl := Option.some.inj hval
      exact optional_check ⟨h.validates, fun r tail hat => (h.parses r tail hat).imp fun _ h => h.1⟩ r tail hat
    · obtain ⟨s, h1, h2⟩ := h.parses r tail hat
      refine ⟨s, h1, ?_⟩
      rw [List.append_assoc]
      exact Emits.seq (emits_str _ k) (Emits.seq h2 (emits_char ')' hk))
  · cases hg

/-- C94, optionals without. -/
theorem C94_optional_none (f : ElemFormatter α) (g : ElemFormatter (Option α)) (hg : f.optional = some g)
    (spec : Str) (reads : ReadsSpec f.toUserFormatter spec) (k : Nat) : Makes g.toUserFormatter none spec "none".toList k := by
  unfold ElemFormatter.optional at hg
  split at hg
  · obtain rfl := Option.some.inj hg
    refine ⟨fun validate hval r tail hat => ?_, fun r tail hat => ?_⟩
    · obtain rfl := Option.some.inj hval
      exact optional_check reads r tail hat
    · obtain ⟨s, h1⟩ := reads.parses r tail hat
      exact ⟨s, h1, emits_str _ k⟩
  · cases hg

/-- C94, optionals with a value the formatter of which reports an error. -/
theorem C94_optional_error (f : ElemFormatter α) (g : ElemFormatter (Option α)) (hg : f.optional = some g) (v : α)
    (spec wrote : Str) (e : Err) (h : Reports f.toUserFormatter v spec wrote e) :
    Reports g.toUserFormatter (some v) spec ("optional(".toList ++ wrote) e := by
  unfold ElemFormatter.optional at hg
  split at hg
  · obtain rfl := Option.some.inj hg
    refine ⟨fun validate hval r tail hat => ?_, fun r tail hat => ?_⟩
    · obtain rfl := Option.some.inj hval
      exact optional_check ⟨h.validates, fun r tail hat => (h.parses r tail hat).imp fun _ h => h.1⟩ r tail hat
    · obtain ⟨s, h1, h2⟩ := h.parses r tail hat
      exact ⟨s, h1, Emits.stops (emits_str _ 0) h2.bind⟩
  · cases hg

/-! ### Variants -/

/-- What a variant with the value `v` of the alternative `a` is written as. -/
inductive AlternativeMakes : (a : Alternative) → a.Val → Str → Nat → Prop
  | char (c : Char) (hc : c.toNat < 256) (k : Nat) : AlternativeMakes .char c (quoted '\'' [c]) k
  | text (s : Str) (hs : ∀ c ∈ s, c.toNat < 256) (k : Nat) : AlternativeMakes .text s (quoted '"' s) k
  | other {α : Type} (f : ElemFormatter α) (v : α) (text : Str) (k : Nat) (h : Makes f.toUserFormatter v [] text k) :
      AlternativeMakes (.other f) v text k

theorem escaped_char_emits (c : Char) (hc : c.toNat < 256) (k : Nat) : Emits (emit (.charEscaped c)) (quoted '\'' [c]) k := by
  have hw : (WOp.charEscaped c).text = quoted '\'' [c] := by
    show ['\''] ++ escAll [c] ++ ['\''] = _
    rw [escAll_eq [c] (by simpa using hc)]
    rfl
  rw [← hw]
  exact (emit_emits (.charEscaped c) trivial).mono (Nat.zero_le k)

theorem escaped_text_emits (s : Str) (hs : ∀ c ∈ s, c.toNat < 256) (k : Nat) :
    Emits (emit (.strEscaped s)) (quoted '"' s) k := by
  have hw : (WOp.strEscaped s).text = quoted '"' s := by
    show ['"'] ++ escAll s ++ ['"'] = _
    rw [escAll_eq s hs]
    rfl
  rw [← hw]
  exact (emit_emits (.strEscaped s) trivial).mono (Nat.zero_le k)

theorem other_write {f : ElemFormatter α} {r : Reader} {s : f.State} (h : f.parse (Reader.ofStr ['}']) = .ok r s) (v : α)
    (ops : List WOp) : (Alternative.other f).write v ops = f.format s v ops := by
  show (match f.parse (Reader.ofStr ['}']) with
    | .ok _ s => f.format s v ops
    | .err _ e => .err ops e
    | .bad b => .bad b) = _
  rw [h]

theorem alternative_emits {a : Alternative} {v : a.Val} {text : Str} {k : Nat} (h : AlternativeMakes a v text k) :
    Emits (a.write v) text k := by
  cases h with
  | char c hc => exact escaped_char_emits c hc k
  | text s hs => exact escaped_text_emits s hs k
  | other f v _ _ h =>
    obtain ⟨s, h1, h2⟩ := h.parses (Reader.ofStr ['}']) [] (Reader.at_ofStr _)
    intro ops
    obtain ⟨new, h3⟩ := h2 ops
    exact ⟨new, (other_write h1 v ops).trans h3.1, h3.2⟩

/-- C94, variants: the value is formatted with `{}`, and quoted if it is a character or a text. -/
theorem C94_variant (as : List Alternative) (i : Fin as.length) (v : (as.get i).Val) (text : Str) (k : Nat) (hk : 1 ≤ k)
    (h : AlternativeMakes (as.get i) v text k) :
    Makes (variantFormatter as).toUserFormatter (some ⟨i, v⟩) [] ("variant(".toList ++ text ++ ")".toList) k := by
  refine ⟨fun validate hval r tail hat => ?_, fun r tail hat => ⟨(), brace_read hat, ?_⟩⟩
  · obtain rfl := Option.some.inj hval
    exact brace_read hat
  · rw [List.append_assoc]
    exact Emits.seq (emits_str _ k) (Emits.seq (alternative_emits h) (emits_char ')' hk))

/-- C94, variants that are valueless by exception. -/
theorem C94_variant_valueless (as : List Alternative) (k : Nat) (hk : 1 ≤ k) :
    Makes (variantFormatter as).toUserFormatter none [] "variant(valueless by exception)".toList k := by
  refine ⟨fun validate hval r tail hat => ?_, fun r tail hat => ⟨(), brace_read hat, ?_⟩⟩
  · obtain rfl := Option.some.inj hval
    exact brace_read hat
  · exact Emits.seq (x := "variant(".toList) (emits_str _ k)
      (Emits.seq (x := "valueless by exception".toList) (emits_str _ k) (emits_char ')' hk))

/-- C94, variants the value of which has a formatter that reports an error. -/
theorem C94_variant_error (as : List Alternative) (i : Fin as.length) {α : Type} (f : ElemFormatter α) (hi : as.get i = .other f)
    (v : α) (wrote : Str) (e : Err) (h : Reports f.toUserFormatter v [] wrote e) :
    Reports (variantFormatter as).toUserFormatter (some ⟨i, hi ▸ (v : (Alternative.other f).Val)⟩) []
      ("variant(".toList ++ wrote) e := by
  refine ⟨fun validate hval r tail hat => ?_, fun r tail hat => ⟨(), brace_read hat, ?_⟩⟩
  · obtain rfl := Option.some.inj hval
    exact brace_read hat
  · refine Emits.stops (emits_str _ 0) (Stops.bind ?_)
    show Stops ((as.get i).write (hi ▸ (v : (Alternative.other f).Val))) wrote e
    have : ∀ (a : Alternative) (ha : a = .other f), Stops (a.write (ha ▸ (v : (Alternative.other f).Val))) wrote e := by
      intro a ha
      subst ha
      obtain ⟨s, h1, h2⟩ := h.parses (Reader.ofStr ['}']) [] (Reader.at_ofStr _)
      intro ops
      obtain ⟨new, h3⟩ := h2 ops
      exact ⟨new, (other_write h1 v ops).trans h3.1, h3.2⟩
    exact this _ hi

/-! ### Any string -/

theorem range_orderly {f : ElemFormatter α} {curly : Bool} {g : ElemFormatter (List α)} (hg : f.range curly = some g)
    (orderly : Orderly f.toUserFormatter) (without : WithoutSpec f) : Orderly g.toUserFormatter := by
  unfold ElemFormatter.range at hg
  split at hg
  · rename_i v hv hc
    obtain rfl := Option.some.inj hg
    have hcheck : f.check = v := by unfold UserFormatter.check; rw [hv]
    constructor
    · intro r hr
      show (∃ r' e, (do if ← validateRangeHead then v else return () : M Reader Unit) r = .err r' e) ∨
        ∃ n ≤ r.rest.length, (do if ← validateRangeHead then v else return () : M Reader Unit) r = .ok (r.adv n) ()
      rcases validateHead_cases hr with ⟨r', e, h⟩ | ⟨n, tail, ⟨h, hat⟩ | ⟨h, hat⟩⟩
      · exact Or.inl ⟨r', e, M.bind_err h⟩
      · right
        refine ⟨(if n then 1 else 0) + 1, by rw [hat.2]; cases n <;> simp, ?_⟩
        rw [M.bind_ok h, if_neg (by simp), M.pure_run]
      · have hat' : r.At (((if n then ['n'] else []) ++ [':']) ++ tail) := by simpa using hat
        have hl : ((if n then ['n'] else []) ++ [':']).length = (if n then 1 else 0) + 1 := by cases n <;> rfl
        have hat2 := hat'.adv
        rw [hl] at hat2
        rw [M.bind_ok h, if_pos rfl]
        rcases orderly.ends _ hat2.1 with ⟨r', e, h'⟩ | ⟨m, hm, h'⟩
        · rw [hcheck] at h'; exact Or.inl ⟨r', e, h'⟩
        · right
          rw [hcheck] at h'
          refine ⟨(if n then 1 else 0) + 1 + m, ?_, by rw [h', adv_adv]⟩
          rw [hat2.2] at hm
          rw [hat'.2, List.length_append, hl]
          omega
    · intro validate hval r r' hr h
      obtain rfl := Option.some.inj hval
      rcases validateHead_cases hr with ⟨r1, e, h1⟩ | ⟨n, tail, ⟨h1, hat⟩ | ⟨h1, hat⟩⟩
      · rw [M.bind_err h1] at h; cases h
      · rw [M.bind_ok h1, if_neg (by simp), M.pure_run] at h
        obtain ⟨rfl, _⟩ := ok_inj h
        have hat' : r.At (rangeSpec n none ++ '}' :: tail) := by simpa [rangeSpec] using hat
        obtain ⟨s, hs⟩ := without _ tail (head_at hat')
        refine ⟨(n, s), ?_⟩
        show (do
            let (n, more) ← parseRangeHead
            let s ← f.parseWith (if more then none else some true)
            return (n, s) : M Reader (Bool × f.State)) r = _
        rw [M.bind_ok (parseHead hat')]
        simp only
        rw [show (if (none : Option Str).isSome = true then none else some true) = some true from rfl, M.bind_ok hs, M.pure_run,
          adv_adv]
        rfl
      · rw [M.bind_ok h1, if_pos rfl] at h
        have hat' : r.At (((if n then ['n'] else []) ++ [':']) ++ tail) := by simpa using hat
        have hl : ((if n then ['n'] else []) ++ [':']).length = (if n then 1 else 0) + 1 := by cases n <;> rfl
        have hat2 := hat'.adv
        rw [hl] at hat2
        obtain ⟨s, hs⟩ := orderly.agrees v (by rw [hv]; rfl) _ r' hat2.1 h
        refine ⟨(n, s), ?_⟩
        show (do
            let (n, more) ← parseRangeHead
            let s ← f.parseWith (if more then none else some true)
            return (n, s) : M Reader (Bool × f.State)) r = _
        rw [M.bind_ok (parseHead_more hat)]
        simp only
        rw [if_pos trivial, parseWith_none, M.bind_ok hs, M.pure_run]
  · cases hg

/-- Writes some text and ends, or ends with one of the errors. -/
def EndsWith (m : Fmt Unit) (errs : Err → Prop) : Prop :=
  ∀ ops, ∃ new, (∀ op ∈ new, op.Fine) ∧ (m ops = .ok (ops ++ new) () ∨ ∃ e, errs e ∧ m ops = .err (ops ++ new) e)

theorem endsWith_emit {op : WOp} (h : op.Fine) (errs : Err → Prop) : EndsWith (emit op) errs :=
  fun ops => ⟨[op], by simpa using h, Or.inl rfl⟩

theorem EndsWith.seq {m m' : Fmt Unit} {errs : Err → Prop} (h : EndsWith m errs) (h' : EndsWith m' errs) :
    EndsWith (do m; m') errs := by
  intro ops
  obtain ⟨new, h1, h2 | ⟨e, he, h2⟩⟩ := h ops
  · obtain ⟨new', h3, h4⟩ := h' (ops ++ new)
    refine ⟨new ++ new', fun op ho => (List.mem_append.1 ho).elim (h1 op) (h3 op), ?_⟩
    rw [← List.append_assoc]
    rcases h4 with h4 | ⟨e, he, h4⟩
    · exact Or.inl (by rw [M.bind_ok h2, h4])
    · exact Or.inr ⟨e, he, by rw [M.bind_ok h2, h4]⟩
  · exact ⟨new, h1, Or.inr ⟨e, he, by rw [M.bind_err h2]⟩⟩

theorem endsWith_nothing (errs : Err → Prop) : EndsWith (pure ()) errs :=
  fun ops => ⟨[], by simp, Or.inl (by simp [M.pure_run])⟩

theorem formatEach_ends {format : α → Fmt Unit} {sep : Str} {errs : Err → Prop} : ∀ (vs : List α) (first : Bool),
    (∀ v ∈ vs, EndsWith (format v) errs) → EndsWith (ElemFormatter.formatEach format sep first vs) errs
  | [], _, _ => endsWith_nothing errs
  | v :: vs, first, h => by
    have hr := (h v (by simp)).seq (formatEach_ends (sep := sep) vs false fun w hw => h w (by simp [hw]))
    rw [ElemFormatter.formatEach]
    cases first with
    | true => exact hr
    | false => exact (endsWith_emit (op := .str sep) trivial errs).seq hr

/-- C94: the formatter of a range is as decent as that of its elements, if it can read the empty specification. -/
theorem C94_range_decent_partial {f : ElemFormatter α} {curly : Bool} {g : ElemFormatter (List α)} (hg : f.range curly = some g)
    (orderly : Orderly f.toUserFormatter) (without : WithoutSpec f) {errs : Err → Prop} {vs : List α}
    (writes : ∀ v ∈ vs, WritesOnly f.toUserFormatter v errs) : Decent g.toUserFormatter vs errs := by
  rw [decent_iff]
  refine ⟨range_orderly hg orderly without, ?_⟩
  unfold ElemFormatter.range at hg
  split at hg
  · obtain rfl := Option.some.inj hg
    rintro ⟨n, s⟩
    exact (endsWith_emit (op := .str _) trivial errs).seq ((formatEach_ends vs true fun v hv => writes v hv s).seq
      (endsWith_emit (op := .str _) trivial errs))
  · cases hg

/-- C94: so is that of an optional, without further conditions. -/
theorem C94_optional_decent {f : ElemFormatter α} {g : ElemFormatter (Option α)} (hg : f.optional = some g)
    (orderly : Orderly f.toUserFormatter) {errs : Err → Prop} {o : Option α}
    (writes : ∀ v ∈ o, WritesOnly f.toUserFormatter v errs) : Decent g.toUserFormatter o errs := by
  unfold ElemFormatter.optional at hg
  split at hg
  · obtain rfl := Option.some.inj hg
    refine ⟨orderly.ends, ?_, ?_⟩
    · intro validate hval r r' hr h
      obtain rfl := Option.some.inj hval
      unfold UserFormatter.check at h
      cases hv : f.validate with
      | some v => rw [hv] at h; exact orderly.agrees v (by rw [hv]; rfl) r r' hr h
      | none =>
        rw [hv] at h
        obtain ⟨r1, s, h1, h2⟩ := bind_ok_inv h
        rw [M.pure_run] at h2
        obtain ⟨rfl, _⟩ := ok_inj h2
        exact ⟨s, h1⟩
    · intro s
      cases o with
      | none => exact endsWith_emit (op := .str _) trivial errs
      | some v =>
        exact (endsWith_emit (op := .str _) trivial errs).seq (EndsWith.seq (writes v rfl s)
          (endsWith_emit (op := .char _) trivial errs))
  · cases hg

/-- C94: and that of a variant, if what is written for the value ends so. -/
theorem C94_variant_decent (as : List Alternative) (x : VariantVal as) (errs : Err → Prop)
    (writes : ∀ i v, x = some ⟨i, v⟩ → EndsWith ((as.get i).write v) errs) :
    Decent (variantFormatter as).toUserFormatter x errs := by
  refine ⟨fun r hr => brace_ends hr, ?_, ?_⟩
  · intro validate hval r r' hr h
    obtain rfl := Option.some.inj hval
    exact ⟨(), h⟩
  · intro s
    refine (endsWith_emit (op := .str _) trivial errs).seq (EndsWith.seq ?_ (endsWith_emit (op := .char _) trivial errs))
    cases x with
    | none => exact endsWith_emit (op := .str _) trivial errs
    | some x => exact writes x.1 x.2 rfl

/-- The property in full for a range of values that are written without errors: a format string that is accepted is
formatted. -/
def RangesFormatWhatTheyAccept : Prop :=
  ∀ {α : Type} (f : ElemFormatter α) (curly : Bool) (g : ElemFormatter (List α)) (vs : List α) (str : Str),
    f.range curly = some g → Orderly f.toUserFormatter → (∀ v ∈ vs, WritesOnly f.toUserFormatter v fun _ => False) →
    validateStr str [g.farg vs] = .ok () true → ∃ text, formatStr str [g.farg vs] = .ok () text

/-- A formatter that insists on the specification `x`. -/
def pickyFormatter : ElemFormatter Unit where
  State := Unit
  validate := some do
    let _ ← Reader.readIfMatchChar 'x'
    let _ ← Reader.readIfMatchChar '}'
  parse := do
    let _ ← Reader.readIfMatchChar 'x'
    let _ ← Reader.readIfMatchChar '}'
  format _ _ := emit (.char 'x')

theorem char_ends (c : Char) {r : Reader} (hr : r.Inv) :
    (∃ r' e, Reader.readIfMatchChar c r = .err r' e) ∨ 1 ≤ r.rest.length ∧ Reader.readIfMatchChar c r = .ok (r.adv 1) c := by
  cases h : r.rest with
  | nil => exact Or.inl ⟨_, _, readIfMatchChar_nil ⟨hr, h⟩ c⟩
  | cons d l =>
    have := readIfMatchChar_at ⟨hr, h⟩ c
    by_cases hc : d = c
    · rw [if_pos hc] at this; exact Or.inr ⟨by simp, this⟩
    · rw [if_neg hc] at this; exact Or.inl ⟨_, _, this⟩

theorem picky_orderly : Orderly pickyFormatter.toUserFormatter := by
  constructor
  · intro r hr
    show (∃ r' e, (do
      let _ ← Reader.readIfMatchChar 'x'
      let _ ← Reader.readIfMatchChar '}' : M Reader Unit) r = .err r' e) ∨ ∃ n ≤ r.rest.length, (do
      let _ ← Reader.readIfMatchChar 'x'
      let _ ← Reader.readIfMatchChar '}' : M Reader Unit) r = .ok (r.adv n) ()
    cases h : r.rest with
    | nil => exact Or.inl ⟨_, _, M.bind_err (readIfMatchChar_nil ⟨hr, h⟩ 'x')⟩
    | cons d l =>
      have h1 := readIfMatchChar_at ⟨hr, h⟩ 'x'
      by_cases hc : d = 'x'
      · rw [if_pos hc] at h1
        have hat : (r.adv 1).At l := Reader.At.adv1 ⟨hr, h⟩
        rcases brace_ends hat.1 with ⟨r', e, h2⟩ | ⟨n, hn, h2⟩
        · exact Or.inl ⟨r', e, by rw [M.bind_ok h1]; exact h2⟩
        · rw [hat.2] at hn
          exact Or.inr ⟨1 + n, by simp only [List.length_cons]; omega, by rw [M.bind_ok h1]; rw [← adv_adv]; exact h2⟩
      · rw [if_neg hc] at h1
        exact Or.inl ⟨_, _, M.bind_err h1⟩
  · intro validate hval r r' hr h
    obtain rfl := Option.some.inj hval
    exact ⟨(), h⟩

/-- It does not hold: `{}` is accepted whatever the elements are, but their formatter may reject it later. -/
theorem C94_unread_specification_violated : ¬ RangesFormatWhatTheyAccept := by
  intro h
  have hg : ∃ g, pickyFormatter.range false = some g ∧ validateStr "{}".toList [g.farg [()]] = .ok () true ∧
      formatStr "{}".toList [g.farg [()]] = .err () .invalidData := by
    refine ⟨_, rfl, ?_, ?_⟩ <;> decide +kernel
  obtain ⟨g, h1, h2, h3⟩ := hg
  obtain ⟨text, h4⟩ := h pickyFormatter false g [()] "{}".toList h1 picky_orderly
    (fun v _ s ops => ⟨[.char 'x'], by simp [WOp.Fine], Or.inl rfl⟩) h2
  rw [h3] at h4
  cases h4

/-- It holds for formatters that can read the empty specification. -/
theorem C94_accepted_partial (f : ElemFormatter α) (curly : Bool) (g : ElemFormatter (List α)) (vs : List α) (str : Str)
    (hg : f.range curly = some g) (orderly : Orderly f.toUserFormatter) (without : WithoutSpec f)
    (writes : ∀ v ∈ vs, WritesOnly f.toUserFormatter v fun _ => False)
    (accepted : validateStr str [g.farg vs] = .ok () true) : ∃ text, formatStr str [g.farg vs] = .ok () text := by
  obtain ⟨b, text, fail, h1, h2, h3⟩ := C72_any_string str [.custom g.toUserFormatter vs] (fun _ => False) (by simp) (by
    intro a ha
    obtain rfl := List.mem_singleton.1 ha
    exact C94_range_decent_partial hg orderly without writes)
  have h1' : validateStr str [g.farg vs] = .ok () b := h1
  rw [accepted] at h1'
  obtain ⟨_, rfl⟩ := ok_inj h1'
  simp only [if_true] at h3
  cases fail with
  | none => exact ⟨text, h2.format⟩
  | some e => exact absurd rfl (fun h => h3 e h)

/-! ### What is made of the formatters of the library -/

/-- The formatter does the same as that of the type. -/
structure Same (f : ElemFormatter α) (ty : FTy) (enc : α → FVal) : Prop where
  validate : f.validate = some ty.validate
  parse : ∀ d r, (∃ r' s x, f.parseWith d r = .ok r' s ∧ ty.fresh.parseWith d r = .ok r' x ∧
      ∀ v, f.format s v = (enc v).format x) ∨
    (∃ r' e, f.parseWith d r = .err r' e ∧ ty.fresh.parseWith d r = .err r' e) ∨
    ∃ b, f.parseWith d r = .bad b ∧ ty.fresh.parseWith d r = .bad b

theorem parseWith_plain (f : ElemFormatter α) (h : f.parseDebug = none) (d : Option Bool) : f.parseWith d = f.parse := by
  obtain ⟨u, p, c⟩ := f
  obtain rfl : p = none := h
  cases d <;> rfl

theorem core_same (ty : CoreTy) (arg : α → CoreArg) : Same (coreElem ty arg) (.core ty) (fun v => .core (arg v)) := by
  refine ⟨by rw [FTy.validate]; rfl, fun d r => ?_⟩
  have key : ∀ sp : Specs, (∃ r' s x, parseFormatSpecs sp r = .ok r' s ∧
      (do let s ← parseFormatSpecs sp; return Fmtr.core ty s : M Reader Fmtr) r = .ok r' x ∧
      ∀ v, (arg v).write s = (FVal.core (arg v)).format x) ∨
    (∃ r' e, parseFormatSpecs sp r = .err r' e ∧ (do let s ← parseFormatSpecs sp; return Fmtr.core ty s : M Reader Fmtr) r = .err r' e) ∨
    ∃ b, parseFormatSpecs sp r = .bad b ∧ (do let s ← parseFormatSpecs sp; return Fmtr.core ty s : M Reader Fmtr) r = .bad b := by
    intro sp
    cases h : parseFormatSpecs sp r with
    | ok r' s => exact Or.inl ⟨r', s, .core ty s, rfl, by rw [M.bind_ok h]; rfl, fun v => by rw [format_core]⟩
    | err r' e => exact Or.inr (Or.inl ⟨r', e, rfl, M.bind_err h⟩)
    | bad b => exact Or.inr (Or.inr ⟨b, rfl, M.bind_bad h⟩)
  have hp : (FTy.core ty).fresh.parseWith d = (do
      let s ← parseFormatSpecs (match d with
        | some enabled => if ty = .char ∨ ty = .string then { type := if enabled then '?' else noChar } else {}
        | none => {})
      return .core ty s) := by
    rw [FTy.fresh.eq_def, Fmtr.parseWith.eq_def]
    rfl
  rw [hp]
  cases d with
  | none => exact key {}
  | some b =>
    by_cases hc : ty = .char ∨ ty = .string
    · have : (coreElem ty arg).parseWith (some b) = parseFormatSpecs { type := if b then '?' else noChar } := by
        simp only [ElemFormatter.parseWith, coreElem, hc, if_true]
        rfl
      rw [this]
      simp only [hc, if_true]
      exact key _
    · have : (coreElem ty arg).parseWith (some b) = parseFormatSpecs {} := by
        simp only [ElemFormatter.parseWith, coreElem, hc, if_false]
        rfl
      rw [this]
      simp only [hc, if_false]
      exact key _

theorem monostate_same : Same monostateElem .monostate (fun _ => .monostate) := by
  refine ⟨by rw [FTy.validate]; rfl, fun d r => ?_⟩
  have hp : FTy.monostate.fresh.parseWith d = (do
      let _ ← Reader.readIfMatchChar '}'
      return .monostate) := by
    rw [FTy.fresh, Fmtr.parseWith]
  rw [hp, parseWith_plain _ rfl]
  show (∃ r' s x, (do let _ ← Reader.readIfMatchChar '}' : M Reader Unit) r = .ok r' s ∧ _ ∧ _) ∨
    (∃ r' e, (do let _ ← Reader.readIfMatchChar '}' : M Reader Unit) r = .err r' e ∧ _) ∨
    ∃ b, (do let _ ← Reader.readIfMatchChar '}' : M Reader Unit) r = .bad b ∧ _
  cases h : Reader.readIfMatchChar '}' r with
  | ok r' c =>
    left
    exact ⟨r', (), .monostate, M.bind_ok h, M.bind_ok h, fun v => rfl⟩
  | err r' e => exact Or.inr (Or.inl ⟨r', e, M.bind_err h, M.bind_err h⟩)
  | bad b => exact Or.inr (Or.inr ⟨b, M.bind_bad h, M.bind_bad h⟩)

theorem inherit_same {f : ElemFormatter α} {ty : FTy} {enc : α → FVal} (h : Same f ty enc) (part : β → α) (isConst : Bool) :
    Same (f.inherit part isConst) ty (fun v => enc (part v)) := by
  refine ⟨h.validate, fun d r => ?_⟩
  have hp : (f.inherit part isConst).parseWith d = f.parseWith d := by
    obtain ⟨u, p, c⟩ := f
    cases d with
    | none => rfl
    | some b => cases p <;> rfl
  rw [hp]
  rcases h.parse d r with ⟨r', s, x, h1, h2, h3⟩ | h1 | h1
  · exact Or.inl ⟨r', s, x, h1, h2, fun v => h3 (part v)⟩
  · exact Or.inr (Or.inl h1)
  · exact Or.inr (Or.inr h1)

theorem formatEach_same {format : α → Fmt Unit} {enc : α → FVal} {x : Fmtr} (h : ∀ v, format v = (enc v).format x) (sep : Str) :
    ∀ (vs : List α) (first : Bool), ElemFormatter.formatEach format sep first vs = FVal.formatRange sep x first (vs.map enc)
  | [], _ => by rw [ElemFormatter.formatEach, List.map_nil, FVal.formatRange.eq_def]
  | v :: vs, first => by
    rw [ElemFormatter.formatEach, List.map_cons, FVal.formatRange.eq_def]
    simp only
    rw [h v, formatEach_same h sep vs false]

theorem range_same {f : ElemFormatter α} {ty : FTy} {enc : α → FVal} (h : Same f ty enc) {curly : Bool}
    {g : ElemFormatter (List α)} (hg : f.range curly = some g) :
    Same g (.range curly ty) (fun vs => .range (vs.map enc)) := by
  unfold ElemFormatter.range at hg
  split at hg
  · rename_i v hv hc
    obtain rfl := Option.some.inj hg
    obtain rfl : v = ty.validate := Option.some.inj (hv.symm.trans h.validate)
    refine ⟨by rw [FTy.validate], fun d r => ?_⟩
    have hp : (FTy.range curly ty).fresh.parseWith d = (do
        let (n, more) ← parseRangeHead
        let f ← Fmtr.parseWith (if more then none else some true) ty.fresh
        return .range (if n then [] else if curly then ['{'] else ['[']) (if n then [] else if curly then ['}'] else [']'])
          [',', ' '] f) := by
      rw [FTy.fresh, Fmtr.parseWith]
    rw [hp]
    rw [parseWith_plain _ rfl]
    simp only
    cases hh : parseRangeHead r with
    | err r' e => exact Or.inr (Or.inl ⟨r', e, M.bind_err hh, M.bind_err hh⟩)
    | bad b => exact Or.inr (Or.inr ⟨b, M.bind_bad hh, M.bind_bad hh⟩)
    | ok r1 nm =>
      obtain ⟨n, more⟩ := nm
      rw [M.bind_ok hh, M.bind_ok hh]
      simp only
      rcases h.parse (if more then none else some true) r1 with ⟨r', s, x, h1, h2, h3⟩ | ⟨r', e, h1, h2⟩ | ⟨b, h1, h2⟩
      · left
        refine ⟨r', (n, s), _, by rw [M.bind_ok h1]; rfl, by rw [M.bind_ok h2]; rfl, fun vs => ?_⟩
        rw [format_range, ← formatEach_same h3]
      · exact Or.inr (Or.inl ⟨r', e, M.bind_err h1, M.bind_err h2⟩)
      · exact Or.inr (Or.inr ⟨b, M.bind_bad h1, M.bind_bad h2⟩)
  · cases hg

theorem optional_same {f : ElemFormatter α} {ty : FTy} {enc : α → FVal} (h : Same f ty enc)
    {g : ElemFormatter (Option α)} (hg : f.optional = some g) :
    Same g (.optional ty) (optionalVal enc) := by
  unfold ElemFormatter.optional at hg
  split at hg
  · obtain rfl := Option.some.inj hg
    refine ⟨?_, fun d r => ?_⟩
    · show some f.check = _
      unfold UserFormatter.check
      rw [h.validate, FTy.validate]
    · have hp : (FTy.optional ty).fresh.parseWith d = (do
          let f ← Fmtr.parseWith none ty.fresh
          return .optional f) := by
        rw [FTy.fresh, Fmtr.parseWith]
      rw [hp]
      have hf := h.parse none r
      rw [parseWith_none] at hf
      rw [parseWith_plain _ rfl]
      simp only
      rcases hf with ⟨r', s, x, h1, h2, h3⟩ | ⟨r', e, h1, h2⟩ | ⟨b, h1, h2⟩
      · left
        refine ⟨r', s, .optional x, h1, by rw [M.bind_ok h2]; rfl, fun v => ?_⟩
        cases v with
        | none => rfl
        | some v => rw [optionalVal, format_some, ← h3 v]
      · exact Or.inr (Or.inl ⟨r', e, h1, M.bind_err h2⟩)
      · exact Or.inr (Or.inr ⟨b, h1, M.bind_bad h2⟩)
  · cases hg

/-- The same for the elements of tuples. -/
structure EachSame (fs : TupleTypes) (tys : List FTy) (encs : TupleVal fs → List FVal) : Prop where
  empty : fs.isEmpty = tys.isEmpty
  validate : ∀ vs, Tuple.validators fs = some vs → ∀ r pos, Tuple.validateEach r vs pos = FTy.validateEach r tys pos
  parse : ∀ d r pos0, (∃ ss xs pos, Tuple.parseEach d r fs pos0 = .ok () (ss, pos) ∧
      Fmtr.parseEach d r (FTy.freshEach tys) pos0 = .ok () (xs, pos) ∧
      ∀ v sep first, Tuple.formatEach sep first fs ss v = FVal.formatTuple sep first (encs v) xs) ∨
    (∃ e, Tuple.parseEach d r fs pos0 = .err () e ∧ Fmtr.parseEach d r (FTy.freshEach tys) pos0 = .err () e) ∨
    ∃ b, Tuple.parseEach d r fs pos0 = .bad b ∧ Fmtr.parseEach d r (FTy.freshEach tys) pos0 = .bad b

theorem each_nil_same : EachSame [] [] (fun _ => []) where
  empty := rfl
  validate vs h r pos := by
    obtain rfl := Option.some.inj h
    rw [FTy.validateEach]
    rfl
  parse d r pos0 := by
    left
    refine ⟨(), [], pos0, rfl, ?_, fun v sep first => ?_⟩
    · rw [FTy.freshEach, Fmtr.parseEach]
    · rfl

theorem each_cons_same {f : ElemFormatter α} {ty : FTy} {enc : α → FVal} (h : Same f ty enc) {fs : TupleTypes}
    {tys : List FTy} {encs : TupleVal fs → List FVal} (hs : EachSame fs tys encs) :
    EachSame (⟨α, f⟩ :: fs) (ty :: tys) (fun v => enc v.1 :: encs v.2) where
  empty := rfl
  validate vs hv r pos := by
    unfold Tuple.validators at hv
    split at hv
    · rename_i v vs' h1 _ h2
      obtain rfl := Option.some.inj hv
      obtain rfl : v = ty.validate := Option.some.inj (h1.symm.trans h.validate)
      rw [FTy.validateEach, Tuple.validateEach]
      cases ty.validate r with
      | ok r' _ => simp only [hs.validate _ h2]
      | err _ e => rfl
      | bad b => rfl
    · cases hv
  parse d r pos0 := by
    rw [FTy.freshEach, Fmtr.parseEach, Tuple.parseEach]
    rcases h.parse (some d) r with ⟨r', s, x, h1, h2, h3⟩ | ⟨r', e, h1, h2⟩ | ⟨b, h1, h2⟩
    · simp only [h1, h2]
      rcases hs.parse d r r'.pos with ⟨ss, xs, pos, h4, h5, h6⟩ | ⟨e, h4, h5⟩ | ⟨b, h4, h5⟩
      · left
        refine ⟨(s, ss), x :: xs, pos, by rw [h4], by rw [h5], fun v sep first => ?_⟩
        obtain ⟨v, vs⟩ := v
        rw [FVal.formatTuple]
        show (do
          if !first then emit (.str sep)
          f.format s v
          Tuple.formatEach sep false fs ss vs) = _
        rw [h3 v, h6 vs sep false]
      · exact Or.inr (Or.inl ⟨e, by rw [h4], by rw [h5]⟩)
      · exact Or.inr (Or.inr ⟨b, by rw [h4], by rw [h5]⟩)
    · exact Or.inr (Or.inl ⟨e, by rw [h1], by rw [h2]⟩)
    · exact Or.inr (Or.inr ⟨b, by rw [h1], by rw [h2]⟩)

theorem onCopies_err {γ : Type} {f : Reader → Run Unit γ} {r : Reader} {e : Err} (h : f r = .err () e) :
    onCopies f r = .err r e := by
  unfold onCopies; rw [h]
theorem onCopies_bad {γ : Type} {f : Reader → Run Unit γ} {r : Reader} {b : Bad} (h : f r = .bad b) : onCopies f r = .bad b := by
  unfold onCopies; rw [h]

theorem tuple_same {fs : TupleTypes} {tys : List FTy} {encs : TupleVal fs → List FVal} (h : EachSame fs tys encs)
    {entry : Bool} {g : ElemFormatter (TupleVal fs)} (hg : tupleFormatter entry fs = some g) :
    Same g (.tuple entry tys) (fun v => .tuple (encs v)) := by
  unfold tupleFormatter at hg
  split at hg
  · cases hg
  rename_i vs hv
  obtain rfl := Option.some.inj hg
  have hempty : (FTy.freshEach tys).isEmpty = tys.isEmpty := by
    cases tys <;> rw [FTy.freshEach] <;> rfl
  refine ⟨?_, fun d r => ?_⟩
  · rw [FTy.validate, h.empty]
    simp only [h.validate vs hv]
  · have hp : (FTy.tuple entry tys).fresh.parseWith d = (do
        let (n, more) ← parseRangeHead
        if tys.isEmpty then
          if more then M.throw .invalidFormat
          else
            M.modify (·.pop 1)
            return .tuple (if n || entry then [] else ['(']) (if n || entry then [] else [')'])
              (if entry then [':', ' '] else [',', ' ']) []
        else
          let (xs, pos) ← onCopies (fun r => Fmtr.parseEach (!more) r (FTy.freshEach tys) 0)
          M.modify (·.pop pos)
          return .tuple (if n || entry then [] else ['(']) (if n || entry then [] else [')'])
            (if entry then [':', ' '] else [',', ' ']) xs) := by
      rw [FTy.fresh]
      cases entry
      · rw [if_neg (by simp), Fmtr.parseWith, hempty]
        simp
      · rw [if_pos rfl, Fmtr.parseWith, hempty]
        simp
    rw [hp, parseWith_plain _ rfl]
    simp only
    cases hh : parseRangeHead r with
    | err r' e => exact Or.inr (Or.inl ⟨r', e, M.bind_err hh, M.bind_err hh⟩)
    | bad b => exact Or.inr (Or.inr ⟨b, M.bind_bad hh, M.bind_bad hh⟩)
    | ok r1 nm =>
      obtain ⟨n, more⟩ := nm
      rw [M.bind_ok hh, M.bind_ok hh]
      simp only [h.empty]
      by_cases he : tys.isEmpty = true
      · rw [if_pos he, if_pos he]
        cases more with
        | true => exact Or.inr (Or.inl ⟨r1, .invalidFormat, rfl, rfl⟩)
        | false =>
          rcases h.parse true r1 0 with ⟨ss, xs, pos, h1, h2, h3⟩ | ⟨e, h1, h2⟩ | ⟨b, h1, h2⟩
          · left
            refine ⟨r1.pop 1, (n, ss), _, ?_, rfl, fun v => ?_⟩
            · rw [if_neg (by simp), M.bind_ok (onCopies_ok h1)]; rfl
            · have hx : xs = [] := by
                rw [List.isEmpty_iff.1 he, FTy.freshEach, Fmtr.parseEach] at h2
                exact (Prod.mk.inj (ok_inj h2).2).1.symm
              rw [format_tuple, ← hx, ← h3]
          · exfalso
            rw [List.isEmpty_iff.1 he, FTy.freshEach, Fmtr.parseEach] at h2
            cases h2
          · exfalso
            rw [List.isEmpty_iff.1 he, FTy.freshEach, Fmtr.parseEach] at h2
            cases h2
      · rw [if_neg he, if_neg he]
        rcases h.parse (!more) r1 0 with ⟨ss, xs, pos, h1, h2, h3⟩ | ⟨e, h1, h2⟩ | ⟨b, h1, h2⟩
        · left
          refine ⟨r1.pop pos, (n, ss), _, by rw [M.bind_ok (onCopies_ok h1)]; rfl, by rw [M.bind_ok (onCopies_ok h2)]; rfl,
            fun v => ?_⟩
          rw [format_tuple, ← h3]
        · exact Or.inr (Or.inl ⟨r1, e, M.bind_err (onCopies_err h1), M.bind_err (onCopies_err h2)⟩)
        · exact Or.inr (Or.inr ⟨b, M.bind_bad (onCopies_bad h1), M.bind_bad (onCopies_bad h2)⟩)

theorem made_same {f : ElemFormatter α} {ty : FTy} {enc : α → FVal} (made : MadeOf f ty enc) : Same f ty enc := by
  induction made using MadeOf.rec (motive_2 := fun fs tys encs _ => EachSame fs tys encs) with
  | core ty arg _ => exact core_same ty arg
  | monostate => exact monostate_same
  | inherit _ part isConst ih => exact inherit_same ih part isConst
  | range _ h ih => exact range_same ih h
  | optional _ h ih => exact optional_same ih h
  | tuple _ h ih => exact tuple_same ih h
  | nil => exact each_nil_same
  | cons _ _ ih ihs => exact each_cons_same ih ihs

theorem made_flag {f : ElemFormatter α} {ty : FTy} {enc : α → FVal} (made : MadeOf f ty enc) : f.formatCanFail = none := by
  induction made using MadeOf.rec (motive_2 := fun _ _ _ _ => True) with
  | core => rfl
  | monostate => rfl
  | inherit _ _ _ ih => exact ih
  | range _ h =>
    unfold ElemFormatter.range at h
    split at h
    · obtain rfl := Option.some.inj h; rfl
    · cases h
  | optional _ h =>
    unfold ElemFormatter.optional at h
    split at h
    · obtain rfl := Option.some.inj h; rfl
    · cases h
  | tuple _ h =>
    unfold tupleFormatter at h
    split at h
    · cases h
    · obtain rfl := Option.some.inj h; rfl
  | nil => trivial
  | cons => trivial

theorem made_farg {f : ElemFormatter α} {ty : FTy} {enc : α → FVal} (made : MadeOf f ty enc) (v : α) :
    f.farg v = (enc v).farg ty := by
  have h := made_same made
  have h1 : (f.farg v).validate = ((enc v).farg ty).validate := by
    show f.check = ty.validate
    unfold UserFormatter.check
    rw [h.validate]
  have h2 : (f.farg v).parse = ((enc v).farg ty).parse := by
    funext r
    show (do let s ← f.parse; return f.format s v : M Reader (Fmt Unit)) r =
      (do let x ← ty.fresh.parse; return (enc v).format x : M Reader (Fmt Unit)) r
    have hp := h.parse none r
    rw [parseWith_none] at hp
    have hq : ty.fresh.parse = ty.fresh.parseWith none := rfl
    rw [hq]
    rcases hp with ⟨r', s, x, e1, e2, e3⟩ | ⟨r', e, e1, e2⟩ | ⟨b, e1, e2⟩
    · rw [M.bind_ok e1, M.bind_ok e2, e3]
    · rw [M.bind_err e1, M.bind_err e2]
    · rw [M.bind_bad e1, M.bind_bad e2]
  cases hf : f.farg v
  cases hv : (enc v).farg ty
  rw [hf, hv] at h1 h2
  cases h1
  cases h2
  rfl

/-- The formatters of the library, inherited from and put into ranges, sets, tuples, maps and optionals however deeply: they do
exactly what is done for the type and the value without formatters of the user, for every format string, every value and
every buffer, and with any other arguments; whether a plain value or a result is returned is the same too. -/
theorem C94_as_library {f : ElemFormatter α} {ty : FTy} {enc : α → FVal} (made : MadeOf f ty enc) (v : α) (str : Str)
    (before behind : List FArg) :
    validateStr str (before ++ f.farg v :: behind) = validateStr str (before ++ (enc v).farg ty :: behind) ∧
    (∀ {σ : Type} [BufferImpl σ] (s : σ), formatTo str (before ++ f.farg v :: behind) s =
      formatTo str (before ++ (enc v).farg ty :: behind) s) ∧
    f.callArg v = builtinArg ((enc v).farg ty) := by
  have h := made_farg made v
  rw [h]
  refine ⟨rfl, fun s => rfl, ?_⟩
  unfold UserFormatter.callArg builtinArg
  rw [h, made_flag made]
  rfl

/-- A formatter for the type, with which all values can be formatted and which can be put into containers. -/
def Covered (ty : FTy) : Prop :=
  ∃ (α : Type) (f : ElemFormatter α) (enc : α → FVal), MadeOf f ty enc ∧ f.isConst = true ∧
    ∀ v, HasType v ty → ∃ a, enc a = v

theorem each_covered {ts : List FTy} (h : ∀ t ∈ ts, Covered t) :
    ∃ (fs : TupleTypes) (encs : TupleVal fs → List FVal), EachMadeOf fs ts encs ∧ (Tuple.validators fs).isSome = true ∧
      ∀ vs : List FVal, vs.length = ts.length →
        (∀ (i : Nat) v t, vs[i]? = some v → ts[i]? = some t → HasType v t) → ∃ a, encs a = vs := by
  induction ts with
  | nil =>
    refine ⟨[], _, .nil, rfl, fun vs hl _ => ⟨(), ?_⟩⟩
    exact (List.length_eq_zero_iff.1 hl).symm
  | cons t ts ih =>
    obtain ⟨fs, encs, hm, hv, hs⟩ := ih (fun t ht => h t (by simp [ht]))
    obtain ⟨α, f, enc, fm, fc, fs'⟩ := h t (by simp)
    refine ⟨⟨α, f⟩ :: fs, _, .cons fm hm, ?_, fun vs hl hty => ?_⟩
    · obtain ⟨vs, hvs⟩ := Option.isSome_iff_exists.1 hv
      have h1 := (made_same fm).validate
      unfold Tuple.validators
      simp only [h1, fc, hvs]
      rfl
    · cases vs with
      | nil => cases hl
      | cons v vs =>
        obtain ⟨a, rfl⟩ := fs' v (hty 0 v t rfl rfl)
        obtain ⟨as, rfl⟩ := hs vs (by simpa using hl) (fun i v t h1 h2 => hty (i + 1) v t (by simpa using h1) (by simpa using h2))
        exact ⟨(a, as), rfl⟩

theorem list_covered {enc : α → FVal} {vs : List FVal} (h : ∀ v ∈ vs, ∃ a, enc a = v) : ∃ as : List α, as.map enc = vs := by
  induction vs with
  | nil => exact ⟨[], rfl⟩
  | cons v vs ih =>
    obtain ⟨as, rfl⟩ := ih (fun v hv => h v (by simp [hv]))
    obtain ⟨a, rfl⟩ := h v (by simp)
    exact ⟨a :: as, rfl⟩

theorem covered {ty : FTy} (h : VariantFree ty) : Covered ty := by
  induction h with
  | core ty =>
    refine ⟨{ a : CoreArg // a.ty = ty }, _, _, .core ty (·.1) (fun v => v.2), rfl, fun v hv => ?_⟩
    cases hv with
    | core valid => exact ⟨⟨_, rfl⟩, rfl⟩
  | @range curly elem _ ih =>
    obtain ⟨α, f, enc, fm, fc, fs⟩ := ih
    have hg : ∃ g, f.range curly = some g ∧ g.isConst = true := by
      unfold ElemFormatter.range
      simp only [(made_same fm).validate, fc]
      exact ⟨_, rfl, rfl⟩
    obtain ⟨g, hg, hc⟩ := hg
    refine ⟨List α, g, _, .range fm hg, hc, fun v hv => ?_⟩
    cases hv with
    | range each =>
      obtain ⟨as, rfl⟩ := list_covered (fun v hv => fs v (each v hv))
      exact ⟨as, rfl⟩
  | @tuple entry elems _ ih =>
    obtain ⟨fs, encs, hm, hv, hs⟩ := each_covered ih
    obtain ⟨vs, hvs⟩ := Option.isSome_iff_exists.1 hv
    have hg : ∃ g, tupleFormatter entry fs = some g ∧ g.isConst = true := by
      unfold tupleFormatter
      simp only [hvs]
      exact ⟨_, rfl, rfl⟩
    obtain ⟨g, hg, hc⟩ := hg
    refine ⟨TupleVal fs, g, _, .tuple hm hg, hc, fun v hv => ?_⟩
    cases hv with
    | tuple len each =>
      obtain ⟨a, rfl⟩ := hs _ len each
      exact ⟨a, rfl⟩
  | optional _ ih =>
    obtain ⟨α, f, enc, fm, fc, fs⟩ := ih
    have hg : ∃ g, f.optional = some g ∧ g.isConst = true := by
      unfold ElemFormatter.optional
      simp only [fc]
      exact ⟨_, rfl, rfl⟩
    obtain ⟨g, hg, hc⟩ := hg
    refine ⟨Option α, g, _, .optional fm hg, hc, fun v hv => ?_⟩
    cases hv with
    | none => exact ⟨none, rfl⟩
    | some content =>
      obtain ⟨a, rfl⟩ := fs _ content
      exact ⟨some a, rfl⟩
  | monostate =>
    refine ⟨Unit, _, _, .monostate, rfl, fun v hv => ?_⟩
    cases hv
    exact ⟨(), rfl⟩

/-- Containers can be nested as one likes: for every type made of core types and containers without variants there is a
formatter, made of those of the library, and every value of the type is formatted with it. -/
theorem C94_nesting (ty : FTy) (h : VariantFree ty) :
    ∃ (α : Type) (f : ElemFormatter α) (enc : α → FVal), MadeOf f ty enc ∧
      ∀ v, HasType v ty → ∃ a, f.farg a = v.farg ty := by
  obtain ⟨α, f, enc, fm, _, fs⟩ := covered h
  refine ⟨α, f, enc, fm, fun v hv => ?_⟩
  obtain ⟨a, rfl⟩ := fs v hv
  exact ⟨a, made_farg fm a⟩

/-! ### What does not go into containers, and errors that are not announced -/

/-- The full property: what can be formatted can be put into ranges and optionals and formatted there. -/
def ContainersTakeAll : Prop :=
  ∀ {α : Type} (f : ElemFormatter α) (curly : Bool), f.range curly ≠ none ∧ f.optional ≠ none

/-- It does not hold.  Variants cannot be put into either, formatters without the optional `validate` not into ranges. -/
theorem C94_containers_violated : ¬ ContainersTakeAll ∧ (∀ as curly, (variantFormatter as).range curly = none ∧
    (variantFormatter as).optional = none) ∧
    ∀ (f : ElemFormatter α) (curly : Bool), f.validate = none → f.range curly = none := by
  have h1 : ∀ as curly, (variantFormatter as).range curly = none ∧ (variantFormatter as).optional = none :=
    fun as curly => ⟨rfl, rfl⟩
  refine ⟨fun h => (h (variantFormatter []) false).2 (h1 [] false).2, h1, fun f curly hf => ?_⟩
  unfold ElemFormatter.range
  simp only [hf]

/-- `frankFormatter` with `validate`: it always reports an error, and says so. -/
def frankElem : ElemFormatter Unit where
  State := Unit
  validate := some do let _ ← Reader.readIfMatchChar '}'
  parse := do let _ ← Reader.readIfMatchChar '}'
  format _ _ := do
    emit (.char '<')
    M.throw .outOfRange
  formatCanFail := some true

/-- The full property: where the formatter of the elements says that it can fail, `format` with a literal returns a result
and does not throw. -/
def ContainersAnnounceErrors : Prop :=
  ∀ {α : Type} (f : ElemFormatter α), f.formatCanFail = some true → ∀ (s : Str),
    (∀ (curly : Bool) g (vs : List α), f.range curly = some g → ∀ what,
      formatCall true ⟨false, some s⟩ [g.callArg vs] ≠ .value (.throws what)) ∧
    ∀ g (v : Option α), f.optional = some g → ∀ what,
      formatCall true ⟨false, some s⟩ [g.callArg v] ≠ .value (.throws what)

/-- It does not hold: `format` throws.  By itself, the same formatter makes `format` return a result. -/
theorem C94_announced_violated : ¬ ContainersAnnounceErrors ∧
    formatCall true ⟨false, some "{}".toList⟩ [frankElem.callArg ()] = .result (.err () .outOfRange) := by
  refine ⟨fun h => ?_, by decide +kernel⟩
  have hg : ∃ g, frankElem.optional = some g ∧
      formatCall true ⟨false, some "{}".toList⟩ [g.callArg (some ())] = .value (.throws "out of range") :=
    ⟨_, rfl, by decide +kernel⟩
  obtain ⟨g, h1, h2⟩ := hg
  exact (h frankElem rfl "{}".toList).2 g (some ()) h1 _ h2

/-- It holds of what is said: ranges and optionals never say that they can fail, so that `format` with a literal returns a
plain value, whatever the elements say. -/
theorem C94_announced_partial (f : ElemFormatter α) (s : VStr) :
    (∀ (curly : Bool) g (vs : List α), f.range curly = some g →
      formatCall true s [g.callArg vs] = .value (formatValid s [g.farg vs])) ∧
    ∀ g (v : Option α), f.optional = some g → formatCall true s [g.callArg v] = .value (formatValid s [g.farg v]) := by
  constructor
  · intro curly g vs h
    unfold ElemFormatter.range at h
    split at h
    · obtain rfl := Option.some.inj h; rfl
    · cases h
  · intro g v h
    unfold ElemFormatter.optional at h
    split at h
    · obtain rfl := Option.some.inj h; rfl
    · cases h

/-! ### Examples -/

/-- The formatter of docs/API.md, as that of elements. -/
def fooElem : ElemFormatter Int := { toUserFormatter := fooFormatter }

theorem fooElem_reads : ReadsSpec fooFormatter [] :=
  ⟨(foo_makes 0 (by decide)).validates, fun r tail hat => ⟨(), brace_read hat⟩⟩

theorem foo_orderly : Orderly fooFormatter := ((decent_iff _ _ _).1 (foo_decent 0 (by decide) fun _ => False)).1

/-- The hypotheses of `C94_range` for a range of two values. -/
example : ∃ g k, fooElem.range false = some g ∧ Makes g.toUserFormatter [1, -2] "n".toList "1, -2".toList k := by
  exact ⟨_, 100, rfl, C94_range fooElem false _ rfl [1, -2] ["1".toList, "-2".toList] true none 100 fooElem_reads
    (.cons ((foo_makes 1 (by decide)).mono (by decide)) (.cons ((foo_makes (-2) (by decide)).mono (by decide)) .nil))⟩

/-- The hypotheses of `C94_range_error`: the second of three elements reports an error. -/
example : ∃ g, frankElem.range true = some g ∧ Reports g.toUserFormatter [(), (), ()] [] "{<".toList .outOfRange := by
  refine ⟨_, rfl, C94_range_error frankElem true _ rfl [] () [(), ()] [] "<".toList .outOfRange false none 0 .nil ?_⟩
  refine ⟨fun validate hval r tail hat => ?_, fun r tail hat => ⟨(), brace_read hat, fun ops => ⟨[.char '<'], rfl, rfl, ?_⟩⟩⟩
  · obtain rfl := Option.some.inj hval
    exact brace_read hat
  · simp [WOp.Fine]

/-- Those of the theorems for optionals. -/
example : ∃ g k, fooElem.optional = some g ∧ Makes g.toUserFormatter (some 5) [] "optional(5)".toList k ∧
    Makes g.toUserFormatter none [] "none".toList k :=
  ⟨_, _, rfl, C94_optional_some fooElem _ rfl 5 [] "5".toList _ (by decide) (foo_makes 5 (by decide)),
    C94_optional_none fooElem _ rfl [] fooElem_reads _⟩

example : ∃ g : ElemFormatter (Option Unit), ({ toUserFormatter := sulkyFormatter } : ElemFormatter Unit).optional = some g ∧
    Reports g.toUserFormatter (some ()) [] "optional(<".toList .outOfRange :=
  ⟨_, rfl, C94_optional_error { toUserFormatter := sulkyFormatter } _ rfl () [] "<".toList .outOfRange sulky_reports⟩

/-- Those of the theorems for variants. -/
example : ∃ k, Makes (variantFormatter [.text, .other fooElem]).toUserFormatter (some ⟨1, (5 : Int)⟩) [] "variant(5)".toList k ∧
    Makes (variantFormatter [.text, .other fooElem]).toUserFormatter (some ⟨0, "a\n".toList⟩) []
      "variant(\"a\\n\")".toList k :=
  ⟨_, C94_variant [.text, .other fooElem] 1 (5 : Int) "5".toList _ (by decide) (.other fooElem 5 _ _ (foo_makes 5 (by decide))),
    C94_variant [.text, .other fooElem] 0 "a\n".toList _ _ (by decide) (.text _ (by decide) _)⟩

example : Reports (variantFormatter [.char, .other { toUserFormatter := sulkyFormatter }]).toUserFormatter
    (some ⟨1, ()⟩) [] "variant(<".toList .outOfRange :=
  C94_variant_error [.char, .other { toUserFormatter := sulkyFormatter }] 1 _ rfl () "<".toList .outOfRange sulky_reports

/-- Those of `C94_accepted_partial`. -/
example : ∃ g text, fooElem.range false = some g ∧ formatStr "<{:n}> {::}".toList [g.farg [1, 2], g.farg [3]] = .ok () text :=
  ⟨_, "<1, 2> [3]".toList, rfl, by decide +kernel⟩

example : ∃ g text, fooElem.range false = some g ∧ formatStr "<{:n}>".toList [g.farg [1, 2]] = .ok () text := by
  obtain ⟨g, hg⟩ : ∃ g, fooElem.range false = some g ∧ validateStr "<{:n}>".toList [g.farg [1, 2]] = .ok () true :=
    ⟨_, rfl, by decide +kernel⟩
  refine ⟨g, ?_⟩
  obtain ⟨text, h⟩ := C94_accepted_partial fooElem false g [1, 2] "<{:n}>".toList hg.1 foo_orderly
    (fun r tail hat => ⟨(), brace_read hat⟩)
    (by
      intro v hv
      have h5 : i32.Holds v := by
        simp only [List.mem_cons, List.not_mem_nil, or_false] at hv
        rcases hv with rfl | rfl <;> decide
      exact ((decent_iff _ _ _).1 (foo_decent v h5 fun _ => False)).2)
    hg.2
  exact ⟨text, hg.1, h⟩

/-- Those of `C94_as_library`: a type of the user that is formatted as a number, in a map to ranges of it. -/
example : ∃ (f : ElemFormatter (List (TupleVal [⟨Str, coreElem .string .string⟩]))) (enc : _ → FVal),
    MadeOf f (.range true (.tuple true [.core .string])) enc :=
  ⟨_, _, .range (.tuple (.cons (.core .string .string fun _ => rfl) .nil) rfl) rfl⟩

example : VariantFree (.map (.core .string) (.seq (.optional (.core (.int i32))))) :=
  .range (.tuple (by
    intro t ht
    simp only [List.mem_cons, List.not_mem_nil, or_false] at ht
    rcases ht with rfl | rfl
    · exact .core _
    · exact .range (.optional (.core _))))

end Emio
