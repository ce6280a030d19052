import Verif.Spec.Compose
import Verif.Props.AnyAccepted
/-
Properties C77 and C78: format strings can be put together, and numbers only select arguments.
-/
namespace Emio
open Spec BufferImpl

theorem arguments_at (t : Template) (i : Nat) :
    t.format.arguments[i]? = t.segs[i]?.map fun s => s.2.field.argument i := by
  unfold FormatText.arguments FormatText.fields Template.format
  simp [List.getElem?_mapIdx, Option.map_map, Function.comp_def]

/-- What a field is formatted as alone. -/
def aloneText (x : Str × Option SpecText × Option CoreArg) : Str :=
  match x.2.2 with
  | some a =>
    match formatStr (Template.single x.2.1).text [a.farg] with
    | .ok _ text => text
    | _ => []
  | none => []

/-- The field asks for the type `O`. -/
def showsO (x : Str × Option SpecText × Option CoreArg) : Bool :=
  (x.2.1.getD {}).type = some 'O' && match x.2.2 with
    | some (.bool _) | some (.char _) | some (.int _ _) => true
    | _ => false

/-- The outcome, given what the template shows. -/
def outcome (l : List (Str × Option SpecText × Option CoreArg)) (last : Str) : Run Unit Str :=
  if l.any showsO then .err () .invalidFormat else .ok () ((l.flatMap fun x => x.1 ++ aloneText x) ++ last)

theorem shows_at (t : Template) (args : List CoreArg) (i : Nat) :
    (t.shows args)[i]? = t.segs[i]?.map fun s => (s.1, s.2.spec, args[s.2.field.argument i]?) := by
  unfold Template.shows
  rw [List.getElem?_mapIdx]

theorem asks_shows (t : Template) (args : List CoreArg) (j : Nat) :
    AsksO t args j ↔ ∃ x, (t.shows args)[j]? = some x ∧ showsO x = true := by
  unfold AsksO
  rw [arguments_at]
  constructor
  · rintro ⟨k, s, a, h1, h2, h3, h4, h5⟩
    rw [h2] at h1
    simp only [Option.map_some, Option.some.injEq] at h1
    subst h1
    refine ⟨_, by rw [shows_at, h2]; rfl, ?_⟩
    unfold showsO
    simp only [h3, h4, decide_true, Bool.true_and]
    cases a <;> first | rfl | exact h5.elim
  · rintro ⟨x, h1, h2⟩
    rw [shows_at] at h1
    obtain ⟨s, hs, rfl⟩ := Option.map_eq_some_iff.1 h1
    unfold showsO at h2
    simp only [Bool.and_eq_true, decide_eq_true_eq] at h2
    obtain ⟨h2, h3⟩ := h2
    cases ha : args[s.2.field.argument j]? with
    | none => rw [ha] at h3; simp at h3
    | some a =>
      refine ⟨_, s, a, by rw [hs]; rfl, hs, ha, h2, ?_⟩
      rw [ha] at h3
      cases a <;> first | trivial | simp at h3

theorem any_shows (t : Template) (args : List CoreArg) : (t.shows args).any showsO = true ↔ ∃ j, AsksO t args j := by
  rw [List.any_eq_true]
  constructor
  · rintro ⟨x, hx, h⟩
    obtain ⟨j, hj⟩ := List.mem_iff_getElem?.1 hx
    exact ⟨j, (asks_shows t args j).2 ⟨x, hj, h⟩⟩
  · rintro ⟨j, hj⟩
    obtain ⟨x, h1, h2⟩ := (asks_shows t args j).1 hj
    exact ⟨x, List.mem_of_getElem? h1, h2⟩

/-- The outcome depends on what the template shows. -/
theorem format_shows {t : Template} {args : List CoreArg} (acc : t.AcceptedFor args) (hv : ∀ a ∈ args, ValidArg a) :
    formatStr t.text (fargs args) = outcome (t.shows args) t.last := by
  obtain ⟨pass, suits⟩ := acc
  unfold outcome
  by_cases hO : ∃ j, AsksO t args j
  · rw [if_pos ((any_shows t args).2 hO)]
    classical
    obtain ⟨texts, _, _, hd⟩ := C22_accepted_with_O_fails t [] args pass suits (Or.inl rfl) hv (Nat.find hO) (Nat.find_spec hO)
      fun i hi => Nat.find_min hO hi
    have := hd.format
    rwa [List.append_nil] at this
  · rw [if_neg fun h => hO ((any_shows t args).1 h)]
    obtain ⟨texts, h1, h2, hd⟩ := C22_accepted_without_O_succeeds t [] args pass suits (Or.inl rfl) hv
      fun j hj => hO ⟨j, hj⟩
    have := hd.format
    rw [List.append_nil] at this
    rw [this]
    refine congrArg (Run.ok ()) ?_
    have ht : texts = (t.shows args).map aloneText := by
      refine List.ext_getElem? fun i => ?_
      rw [List.getElem?_map, shows_at]
      by_cases hi : i < t.segs.length
      · have hs := List.getElem?_eq_getElem hi
        have ht := List.getElem?_eq_getElem (show i < texts.length by omega)
        rw [hs, ht]
        obtain ⟨a, ha, hf⟩ := h2 i _ _ _ (by rw [arguments_at, hs]; rfl) hs ht
        simp only [Option.map_some, aloneText, ha]
        rw [hf]
      · rw [List.getElem?_eq_none (by omega), List.getElem?_eq_none (by omega)]
        rfl
    unfold Template.output FormatText.output Template.format
    refine congrArg (· ++ t.last) ?_
    simp only
    rw [ht]
    unfold Template.shows
    have key : ∀ (segs : List (Str × Hole)) (g : Nat → Str × Hole → Str × Option SpecText × Option CoreArg),
        (∀ i s, (g i s).1 = s.1) →
        (((segs.map fun s => (s.1, s.2.field)).zip ((segs.mapIdx g).map aloneText)).flatMap fun s => s.1.1 ++ s.2) =
          (segs.mapIdx g).flatMap fun x => x.1 ++ aloneText x := by
      intro segs
      induction segs with
      | nil => intros; rfl
      | cons s segs ih =>
        intro g hg
        simp only [List.map_cons, List.mapIdx_cons, List.zip_cons_cons, List.flatMap_cons]
        rw [ih (fun i => g (i + 1)) (fun i s => hg (i + 1) s), hg]
    exact key t.segs _ fun i s => rfl

/-- C78: two accepted strings with the same literal text and the same specifications, whose fields refer to the same
arguments, one by one, yield the same, however the arguments are numbered. -/
theorem C78_numbers_select (t t' : Template) (args args' : List CoreArg) (acc : t.AcceptedFor args) (acc' : t'.AcceptedFor args')
    (hv : ∀ a ∈ args, ValidArg a) (hv' : ∀ a ∈ args', ValidArg a) (same : t.shows args = t'.shows args') (last : t.last = t'.last) :
    formatStr t.text (fargs args) = formatStr t'.text (fargs args') := by
  rw [format_shows acc hv, format_shows acc' hv', same, last]

/-- The numbers of the arguments replaced. -/
def Spec.Template.renumber (t : Template) (f : Nat → Nat) : Template :=
  { t with segs := t.segs.map fun s => (s.1, { s.2 with idx := numeral false 10 (f (numeralValue 10 s.2.idx)) }) }

theorem renumber_argument (f : Nat → Nat) (h : Hole) (i : Nat) :
    ({ h with idx := numeral false 10 (f (numeralValue 10 h.idx)) } : Hole).field.argument i = f (numeralValue 10 h.idx) := by
  obtain ⟨h1, h2, h3⟩ := numeral_digits (f (numeralValue 10 h.idx))
  unfold Field.argument Hole.field
  rw [if_neg h1, h3]

/-- What acceptance means, field by field. -/
theorem accepted_at (t : Template) (args : List CoreArg) : t.AcceptedFor args ↔
    args.length ≤ 128 ∧ (∀ s ∈ t.segs, ∀ c ∈ s.2.idx, c.isDigit) ∧ t.NumbersPass ∧
    ((∀ s ∈ t.segs, s.2.idx = []) ∨ (∀ s ∈ t.segs, s.2.idx ≠ [])) ∧
    (∀ k < args.length, ∃ (i : Nat) (s : Str × Hole), t.segs[i]? = some s ∧ s.2.field.argument i = k) ∧
    ∀ (i : Nat) (s : Str × Hole), t.segs[i]? = some s → ∃ a : CoreArg, args[s.2.field.argument i]? = some a ∧
      CoreTy.Allows a.ty ((s.2.spec.map SpecText.reduced).getD {}) := by
  have hmode : (t.reduced.format.Automatic ∨ t.reduced.format.Explicit) ↔
      ((∀ s ∈ t.segs, s.2.idx = []) ∨ (∀ s ∈ t.segs, s.2.idx ≠ [])) := by
    rw [reduced_automatic, reduced_explicit]
    unfold FormatText.Automatic FormatText.Explicit FormatText.fields Template.format
    simp only [List.forall_mem_map]
    rfl
  have hmem : ∀ k, k ∈ t.reduced.format.arguments ↔ ∃ (i : Nat) (s : Str × Hole), t.segs[i]? = some s ∧ s.2.field.argument i = k := by
    intro k
    rw [reduced_arguments, List.mem_iff_getElem?]
    constructor
    · rintro ⟨i, hi⟩
      rw [arguments_at] at hi
      obtain ⟨s, h1, h2⟩ := Option.map_eq_some_iff.1 hi
      exact ⟨i, s, h1, h2⟩
    · rintro ⟨i, s, h1, h2⟩
      exact ⟨i, by rw [arguments_at, h1, ← h2]; rfl⟩
  constructor
  · rintro ⟨pass, suits⟩
    refine ⟨suits.number, ?_, pass, hmode.1 suits.mode, ?_, ?_⟩
    · intro s hs
      exact suits.digits (s.1, s.2.reduced) (List.mem_map.2 ⟨s, hs, rfl⟩)
    · intro k hk
      exact (hmem k).1 ((suits.arguments k).2 hk)
    · intro i s hs
      exact suits.allowed (s.2.field.argument i, (s.1, s.2.reduced)) (mem_zip_get (i := i)
        (by rw [reduced_arguments, arguments_at, hs]; rfl) (by simp [Template.reduced, hs]))
  · rintro ⟨h1, h2, pass, h4, h5, h6⟩
    refine ⟨pass, h1, ?_, ?_, hmode.2 h4, ?_, ?_⟩
    · intro s hs
      obtain ⟨s', hs', rfl⟩ := List.mem_map.1 hs
      exact h2 s' hs'
    · intro s hs sp hsp
      obtain ⟨s', hs', rfl⟩ := List.mem_map.1 hs
      simp only [Hole.reduced, Option.mem_def, Option.map_eq_some_iff] at hsp
      obtain ⟨sp', h7, rfl⟩ := hsp
      obtain ⟨h8, h9⟩ := pass s' hs' sp' h7
      exact ⟨reduced_wellFormed h8, reduced_fits h9⟩
    · intro k
      rw [hmem]
      constructor
      · rintro ⟨i, s, h7, rfl⟩
        obtain ⟨a, ha, _⟩ := h6 i s h7
        exact (List.getElem?_eq_some_iff.1 ha).1
      · exact h5 k
    · intro x hx
      obtain ⟨i, hi⟩ := List.mem_iff_getElem?.1 hx
      rw [List.getElem?_zip_eq_some, reduced_arguments, arguments_at] at hi
      obtain ⟨g1, g2⟩ := hi
      obtain ⟨s, g3, g4⟩ := Option.map_eq_some_iff.1 g1
      simp only [Template.reduced, List.getElem?_map, g3, Option.map_some, Option.some.injEq] at g2
      rw [← g4, ← g2]
      exact h6 i s g3

/-- C78: the arguments in another order, and the numbers changed accordingly. -/
theorem C78_reordered (t : Template) (args args' : List CoreArg) (f : Nat → Nat) (acc : t.AcceptedFor args)
    (hv : ∀ a ∈ args, ValidArg a) (explicit : t.format.Explicit) (hl : args'.length = args.length)
    (moved : ∀ k < args.length, args'[f k]? = args[k]?) (onto : ∀ k < args.length, ∃ j < args.length, f j = k) :
    (t.renumber f).AcceptedFor args' ∧ formatStr (t.renumber f).text (fargs args') = formatStr t.text (fargs args) := by
  have hex : ∀ s ∈ t.segs, s.2.idx ≠ [] := fun s hs =>
    explicit s.2.field (List.mem_map.2 ⟨(s.1, s.2.field), List.mem_map.2 ⟨s, hs, rfl⟩, rfl⟩)
  obtain ⟨h1, h2, pass, h4, h5, h6⟩ := (accepted_at t args).1 acc
  have harg : ∀ (i : Nat) (s : Str × Hole), t.segs[i]? = some s → s.2.field.argument i = numeralValue 10 s.2.idx ∧
      numeralValue 10 s.2.idx < args.length := by
    intro i s hs
    have e : s.2.field.argument i = numeralValue 10 s.2.idx := by
      unfold Field.argument Hole.field
      exact if_neg (hex s (List.mem_of_getElem? hs))
    obtain ⟨a, ha, _⟩ := h6 i s hs
    exact ⟨e, by rw [← e]; exact (List.getElem?_eq_some_iff.1 ha).1⟩
  have acc' : (t.renumber f).AcceptedFor args' := by
    rw [accepted_at]
    refine ⟨by omega, ?_, ?_, Or.inr ?_, ?_, ?_⟩
    · intro s hs
      obtain ⟨s', _, rfl⟩ := List.mem_map.1 hs
      exact (numeral_digits _).2.1
    · intro s hs
      obtain ⟨s', hs', rfl⟩ := List.mem_map.1 hs
      exact pass s' hs'
    · intro s hs
      obtain ⟨s', _, rfl⟩ := List.mem_map.1 hs
      exact (numeral_digits _).1
    · intro k hk
      obtain ⟨j, hj, rfl⟩ := onto k (by omega)
      obtain ⟨i, s, hs, rfl⟩ := h5 j hj
      refine ⟨i, _, by simp [Template.renumber, hs]; rfl, ?_⟩
      rw [(harg i s hs).1]
      exact renumber_argument f s.2 i
    · intro i s hs
      simp only [Template.renumber, List.getElem?_map, Option.map_eq_some_iff] at hs
      obtain ⟨s', hs', rfl⟩ := hs
      obtain ⟨a, ha, hal⟩ := h6 i s' hs'
      obtain ⟨e1, e2⟩ := harg i s' hs'
      refine ⟨a, ?_, hal⟩
      simp only
      rw [renumber_argument, moved _ e2, ← e1, ha]
  have hv' : ∀ a ∈ args', ValidArg a := by
    intro a ha
    obtain ⟨i, hi⟩ := List.mem_iff_getElem?.1 ha
    have hlt := (List.getElem?_eq_some_iff.1 hi).1
    obtain ⟨j, hj, rfl⟩ := onto i (by omega)
    rw [moved j hj] at hi
    exact hv a (List.mem_of_getElem? hi)
  refine ⟨acc', C78_numbers_select _ _ _ _ acc' acc hv' hv ?_ rfl⟩
  refine List.ext_getElem? fun i => ?_
  rw [shows_at, shows_at]
  simp only [Template.renumber, List.getElem?_map]
  cases hs : t.segs[i]? with
  | none => rfl
  | some s =>
    obtain ⟨e1, e2⟩ := harg i s hs
    simp only [Option.map_some]
    rw [renumber_argument, moved _ e2, e1]

/-- A sentence in two languages. -/
example : formatStr "{0} of {1:x}".toList (fargs [.int i32 3, .int i32 255]) = .ok () "3 of ff".toList ∧
    formatStr "{1} of {0:x}".toList (fargs [.int i32 255, .int i32 3]) = .ok () "3 of ff".toList := by decide +kernel

/-- `{0} of {1:x}`. -/
def ofTemplate : Template := ⟨[([], ⟨['0'], none⟩), (" of ".toList, ⟨['1'], some { type := 'x' }⟩)], []⟩

/-- It meets the conditions, with the two arguments exchanged. -/
example : ofTemplate.text = "{0} of {1:x}".toList ∧ (ofTemplate.renumber (1 - ·)).text = "{1} of {0:x}".toList ∧
    ofTemplate.AcceptedFor [.int i32 3, .int i32 255] ∧ ofTemplate.format.Explicit ∧
    (∀ k < 2, ([.int i32 255, .int i32 3] : List CoreArg)[1 - k]? = ([.int i32 3, .int i32 255] : List CoreArg)[k]?) ∧
    ∀ k < 2, ∃ j < 2, 1 - j = k := by
  refine ⟨by decide +kernel, by decide +kernel, (accepted_at _ _).2 ⟨by decide, by decide, ?_, Or.inr (by decide), ?_, ?_⟩,
    ?_, ?_, ?_⟩
  · intro s hs sp hsp
    simp only [ofTemplate, List.mem_cons, List.not_mem_nil, or_false] at hs
    rcases hs with rfl | rfl
    · cases hsp
    · cases hsp
      exact ⟨⟨by simp, by simp, by simp, by simp, by simp, by simp, by simp⟩, (fits_pass ⟨by decide, by decide⟩).1⟩
  · intro k hk
    have : k = 0 ∨ k = 1 := by simp at hk; omega
    rcases this with rfl | rfl
    · exact ⟨0, _, rfl, by decide⟩
    · exact ⟨1, _, rfl, by decide⟩
  · intro i s hs
    have hi := (List.getElem?_eq_some_iff.1 hs).1
    have : i = 0 ∨ i = 1 := by simp [ofTemplate] at hi; omega
    rcases this with rfl | rfl
    · simp only [ofTemplate, List.getElem?_cons_zero, Option.some.injEq] at hs
      subst hs
      exact ⟨.int i32 3, by decide, by simp [CoreArg.ty, CoreTy.Allows, SpecText.ForInteger]⟩
    · simp only [ofTemplate, List.getElem?_cons_succ, List.getElem?_cons_zero, Option.some.injEq] at hs
      subst hs
      exact ⟨.int i32 255, by decide, by simp [CoreArg.ty, CoreTy.Allows, SpecText.ForInteger, SpecText.reduced]; decide⟩
  · unfold FormatText.Explicit
    decide
  · intro k hk
    have : k = 0 ∨ k = 1 := by omega
    rcases this with rfl | rfl <;> rfl
  · intro k hk
    exact ⟨1 - k, by omega, by omega⟩

/-! ### C77 -/

theorem escBraces_append (a b : Str) : escBraces (a ++ b) = escBraces a ++ escBraces b := by
  simp [escBraces]

theorem append_text (a b : Template) : (a.append b).text = a.text ++ b.text := by
  obtain ⟨bs, bl⟩ := b
  cases bs with
  | nil => simp [Template.append, Template.text, Template.format, FormatText.text, escBraces_append]
  | cons s bs =>
    simp [Template.append, Template.text, Template.format, FormatText.text, escBraces_append]

theorem append_at_left (a b : Template) {i : Nat} (hi : i < a.segs.length) : (a.append b).segs[i]? = a.segs[i]? := by
  obtain ⟨bs, bl⟩ := b
  cases bs with
  | nil => rfl
  | cons s bs => simp [Template.append, List.getElem?_append_left hi]

/-- Up to the literal text. -/
theorem append_at_right (a b : Template) (i : Nat) :
    (a.append b).segs[a.segs.length + i]? = b.segs[i]?.map fun s => (if i = 0 then a.last ++ s.1 else s.1, s.2) := by
  obtain ⟨bs, bl⟩ := b
  cases bs with
  | nil => simp [Template.append]
  | cons s bs =>
    simp only [Template.append]
    rw [List.getElem?_append_right (by omega)]
    cases i with
    | zero => simp
    | succ i =>
      simp [show a.segs.length + (i + 1) - a.segs.length = i + 1 by omega]

theorem append_last (a b : Template) : (a.append b).last = if b.segs = [] then a.last ++ b.last else b.last := by
  obtain ⟨bs, bl⟩ := b
  cases bs with
  | nil => simp [Template.append]
  | cons s bs => simp [Template.append]

theorem append_length (a b : Template) : (a.append b).segs.length = a.segs.length + b.segs.length := by
  obtain ⟨bs, bl⟩ := b
  cases bs with
  | nil => simp [Template.append]
  | cons s bs => simp [Template.append]

/-- The outcome of two lists, one behind the other. -/
theorem outcome_append (l l' : List (Str × Option SpecText × Option CoreArg)) (la lb : Str) :
    (match l' with
      | [] => outcome l (la ++ lb)
      | (lit, x) :: r => outcome (l ++ (la ++ lit, x) :: r) lb) = both (outcome l la) (outcome l' lb) := by
  have e1 : ∀ (lit lit' : Str) (x : Option SpecText × Option CoreArg), showsO (lit, x) = showsO (lit', x) := fun _ _ _ => rfl
  have e2 : ∀ (lit lit' : Str) (x : Option SpecText × Option CoreArg), aloneText (lit, x) = aloneText (lit', x) := fun _ _ _ => by
    simp only [aloneText]
  cases l' with
  | nil =>
    simp only
    unfold outcome
    cases hl : l.any showsO <;> simp [both]
  | cons y r =>
    obtain ⟨lit, x⟩ := y
    simp only
    unfold outcome
    rw [List.any_append, List.any_cons, List.any_cons, e1 (la ++ lit) lit x]
    cases hl : l.any showsO
    · cases hr : (showsO (lit, x) || r.any showsO)
      · simp [both, e2 (la ++ lit) lit x]
      · simp [both]
    · simp [both]

theorem shows_append {a b : Template} {args args₁ args₂ : List CoreArg}
    (hl : ∀ (i : Nat) (s : Str × Hole), a.segs[i]? = some s → args[s.2.field.argument i]? = args₁[s.2.field.argument i]?)
    (hr : ∀ (i : Nat) (s : Str × Hole), b.segs[i]? = some s →
      args[s.2.field.argument (a.segs.length + i)]? = args₂[s.2.field.argument i]?) :
    outcome ((a.append b).shows args) (a.append b).last = both (outcome (a.shows args₁) a.last) (outcome (b.shows args₂) b.last) := by
  rw [← outcome_append]
  have key : (a.append b).shows args = match b.shows args₂ with
      | [] => a.shows args₁
      | (lit, x) :: r => a.shows args₁ ++ (a.last ++ lit, x) :: r := by
    have hlen : (a.shows args₁).length = a.segs.length := by simp [Template.shows]
    refine List.ext_getElem? fun i => ?_
    rw [shows_at]
    by_cases hi : i < a.segs.length
    · rw [append_at_left a b hi]
      have : (match b.shows args₂ with
          | [] => a.shows args₁
          | (lit, x) :: r => a.shows args₁ ++ (a.last ++ lit, x) :: r)[i]? = (a.shows args₁)[i]? := by
        cases b.shows args₂ with
        | nil => rfl
        | cons y r =>
          simp only
          rw [List.getElem?_append_left (by omega)]
      rw [this, shows_at]
      cases hs : a.segs[i]? with
      | none => rfl
      | some s => simp only [Option.map_some]; rw [hl i s hs]
    · obtain ⟨j, rfl⟩ : ∃ j, i = a.segs.length + j := ⟨i - a.segs.length, by omega⟩
      rw [append_at_right]
      have : (match b.shows args₂ with
          | [] => a.shows args₁
          | (lit, x) :: r => a.shows args₁ ++ (a.last ++ lit, x) :: r)[a.segs.length + j]? =
            (b.shows args₂)[j]?.map fun x => (if j = 0 then a.last ++ x.1 else x.1, x.2) := by
        cases hb : b.shows args₂ with
        | nil => simp [hlen]
        | cons y r =>
          simp only
          rw [List.getElem?_append_right (by omega), hlen, show a.segs.length + j - a.segs.length = j by omega]
          cases j <;> simp
      rw [this, shows_at, Option.map_map, Option.map_map]
      cases hs : b.segs[j]? with
      | none => rfl
      | some s =>
        simp only [Option.map_some, Function.comp_apply]
        rw [hr j s hs]
  have hnil : b.shows args₂ = [] ↔ b.segs = [] := by
    rw [← List.length_eq_zero_iff, ← List.length_eq_zero_iff]
    simp [Template.shows]
  rw [key, append_last]
  cases hb : b.shows args₂ with
  | nil => rw [if_pos (hnil.1 hb)]
  | cons y r =>
    rw [if_neg]
    intro h
    rw [hnil.2 h] at hb
    cases hb

theorem automatic_segs {t : Template} (h : t.format.Automatic) : ∀ s ∈ t.segs, s.2.idx = [] := fun s hs =>
  h s.2.field (List.mem_map.2 ⟨(s.1, s.2.field), List.mem_map.2 ⟨s, hs, rfl⟩, rfl⟩)

theorem explicit_segs {t : Template} (h : t.format.Explicit) : ∀ s ∈ t.segs, s.2.idx ≠ [] := fun s hs =>
  h s.2.field (List.mem_map.2 ⟨(s.1, s.2.field), List.mem_map.2 ⟨s, hs, rfl⟩, rfl⟩)

theorem automatic_argument {t : Template} (h : t.format.Automatic) {s : Str × Hole} (hs : s ∈ t.segs) (i : Nat) :
    s.2.field.argument i = i := if_pos (automatic_segs h s hs)

theorem explicit_argument {t : Template} (h : t.format.Explicit) {s : Str × Hole} (hs : s ∈ t.segs) (i : Nat) :
    s.2.field.argument i = numeralValue 10 s.2.idx := if_neg (explicit_segs h s hs)

/-- With automatic numbering there is a field for each argument. -/
theorem automatic_count {t : Template} {args : List CoreArg} (h : t.format.Automatic) (acc : t.AcceptedFor args) :
    t.segs.length = args.length := by
  obtain ⟨_, _, _, _, h5, h6⟩ := (accepted_at t args).1 acc
  apply Nat.le_antisymm
  · by_contra hgt
    have hs := List.getElem?_eq_getElem (show args.length < t.segs.length by omega)
    obtain ⟨a, ha, _⟩ := h6 _ _ hs
    rw [automatic_argument h (List.mem_of_getElem? hs)] at ha
    simp at ha
  · by_contra hgt
    obtain ⟨i, s, hs, hi⟩ := h5 t.segs.length (by omega)
    rw [automatic_argument h (List.mem_of_getElem? hs)] at hi
    have := (List.getElem?_eq_some_iff.1 hs).1
    omega

theorem append_mem {a b : Template} {s : Str × Hole} (hs : s ∈ (a.append b).segs) :
    ∃ s', (s' ∈ a.segs ∨ s' ∈ b.segs) ∧ s'.2 = s.2 := by
  obtain ⟨bs, bl⟩ := b
  cases bs with
  | nil => exact ⟨s, Or.inl hs, rfl⟩
  | cons y bs =>
    simp only [Template.append, List.mem_append, List.mem_cons] at hs
    rcases hs with hs | rfl | hs
    · exact ⟨s, Or.inl hs, rfl⟩
    · exact ⟨y, Or.inr (by simp), rfl⟩
    · exact ⟨s, Or.inr (by simp [hs]), rfl⟩

/-- The fields of the whole, one by one. -/
theorem append_split {a b : Template} {i : Nat} {s : Str × Hole} (hs : (a.append b).segs[i]? = some s) :
    (∃ s', a.segs[i]? = some s' ∧ s'.2 = s.2) ∨
    ∃ j s', i = a.segs.length + j ∧ b.segs[j]? = some s' ∧ s'.2 = s.2 := by
  by_cases hi : i < a.segs.length
  · rw [append_at_left a b hi] at hs
    exact Or.inl ⟨s, hs, rfl⟩
  · obtain ⟨j, rfl⟩ : ∃ j, i = a.segs.length + j := ⟨i - a.segs.length, by omega⟩
    rw [append_at_right] at hs
    obtain ⟨s', h1, rfl⟩ := Option.map_eq_some_iff.1 hs
    exact Or.inr ⟨j, s', rfl, h1, rfl⟩

theorem append_left {a b : Template} {i : Nat} {s : Str × Hole} (hs : a.segs[i]? = some s) :
    (a.append b).segs[i]? = some s := by
  rw [append_at_left a b (List.getElem?_eq_some_iff.1 hs).1, hs]

theorem append_right {a b : Template} {j : Nat} {s : Str × Hole} (hs : b.segs[j]? = some s) :
    ∃ s', (a.append b).segs[a.segs.length + j]? = some s' ∧ s'.2 = s.2 := by
  rw [append_at_right, hs]
  exact ⟨_, rfl, rfl⟩

/-- C77: two strings with automatic numbering, one behind the other, with the arguments of both: the two texts. -/
theorem C77_concatenation (a b : Template) (args₁ args₂ : List CoreArg) (acc₁ : a.AcceptedFor args₁) (acc₂ : b.AcceptedFor args₂)
    (auto₁ : a.format.Automatic) (auto₂ : b.format.Automatic) (hn : args₁.length + args₂.length ≤ 128)
    (hv₁ : ∀ a ∈ args₁, ValidArg a) (hv₂ : ∀ a ∈ args₂, ValidArg a) :
    (a.append b).AcceptedFor (args₁ ++ args₂) ∧
    formatStr (a.text ++ b.text) (fargs (args₁ ++ args₂)) =
      both (formatStr a.text (fargs args₁)) (formatStr b.text (fargs args₂)) := by
  have hla := automatic_count auto₁ acc₁
  have hlb := automatic_count auto₂ acc₂
  have acc : (a.append b).AcceptedFor (args₁ ++ args₂) := by
    obtain ⟨_, d1, p1, _, u1, f1⟩ := (accepted_at _ _).1 acc₁
    obtain ⟨_, d2, p2, _, u2, f2⟩ := (accepted_at _ _).1 acc₂
    rw [accepted_at]
    have hauto : ∀ s ∈ (a.append b).segs, s.2.idx = [] := by
      intro s hs
      obtain ⟨s', hs' | hs', e⟩ := append_mem hs
      · rw [← e]; exact automatic_segs auto₁ s' hs'
      · rw [← e]; exact automatic_segs auto₂ s' hs'
    refine ⟨by simpa using hn, ?_, ?_, Or.inl hauto, ?_, ?_⟩
    · intro s hs
      rw [hauto s hs]
      simp
    · intro s hs
      obtain ⟨s', hs' | hs', e⟩ := append_mem hs
      · rw [← e]; exact p1 s' hs'
      · rw [← e]; exact p2 s' hs'
    · intro k hk
      have hs := List.getElem?_eq_getElem (show k < (a.append b).segs.length by rw [append_length]; simp at hk; omega)
      exact ⟨k, _, hs, if_pos (hauto _ (List.mem_of_getElem? hs))⟩
    · intro i s hs
      have harg : s.2.field.argument i = i := if_pos (hauto s (List.mem_of_getElem? hs))
      rw [harg]
      rcases append_split hs with ⟨s', h1, e⟩ | ⟨j, s', rfl, h1, e⟩
      · obtain ⟨x, hx, hal⟩ := f1 i s' h1
        rw [automatic_argument auto₁ (List.mem_of_getElem? h1)] at hx
        refine ⟨x, ?_, by rw [← e]; exact hal⟩
        rw [List.getElem?_append_left (List.getElem?_eq_some_iff.1 hx).1, hx]
      · obtain ⟨x, hx, hal⟩ := f2 j s' h1
        rw [automatic_argument auto₂ (List.mem_of_getElem? h1)] at hx
        refine ⟨x, ?_, by rw [← e]; exact hal⟩
        rw [List.getElem?_append_right (by omega), hla, show args₁.length + j - args₁.length = j by omega, hx]
  refine ⟨acc, ?_⟩
  rw [← append_text, format_shows acc (by
    intro x hx
    rcases List.mem_append.1 hx with hx | hx
    · exact hv₁ x hx
    · exact hv₂ x hx), format_shows acc₁ hv₁, format_shows acc₂ hv₂]
  refine shows_append ?_ ?_
  · intro i s hs
    have := (List.getElem?_eq_some_iff.1 hs).1
    rw [automatic_argument auto₁ (List.mem_of_getElem? hs), List.getElem?_append_left (by omega)]
  · intro i s hs
    rw [automatic_argument auto₂ (List.mem_of_getElem? hs), automatic_argument auto₂ (List.mem_of_getElem? hs),
      List.getElem?_append_right (by omega), hla, show args₁.length + i - args₁.length = i by omega]

/-- C77: two strings with numbers for the same arguments. -/
theorem C77_same_arguments (a b : Template) (args : List CoreArg) (acc₁ : a.AcceptedFor args) (acc₂ : b.AcceptedFor args)
    (ex₁ : a.format.Explicit) (ex₂ : b.format.Explicit) (hv : ∀ a ∈ args, ValidArg a) :
    (a.append b).AcceptedFor args ∧
    formatStr (a.text ++ b.text) (fargs args) = both (formatStr a.text (fargs args)) (formatStr b.text (fargs args)) := by
  have acc : (a.append b).AcceptedFor args := by
    obtain ⟨hn, d1, p1, _, u1, f1⟩ := (accepted_at _ _).1 acc₁
    obtain ⟨_, d2, p2, _, u2, f2⟩ := (accepted_at _ _).1 acc₂
    rw [accepted_at]
    refine ⟨hn, ?_, ?_, Or.inr ?_, ?_, ?_⟩
    · intro s hs
      obtain ⟨s', hs' | hs', e⟩ := append_mem hs
      · rw [← e]; exact d1 s' hs'
      · rw [← e]; exact d2 s' hs'
    · intro s hs
      obtain ⟨s', hs' | hs', e⟩ := append_mem hs
      · rw [← e]; exact p1 s' hs'
      · rw [← e]; exact p2 s' hs'
    · intro s hs
      obtain ⟨s', hs' | hs', e⟩ := append_mem hs
      · rw [← e]; exact explicit_segs ex₁ s' hs'
      · rw [← e]; exact explicit_segs ex₂ s' hs'
    · intro k hk
      obtain ⟨i, s, hs, hi⟩ := u1 k hk
      exact ⟨i, s, append_left hs, hi⟩
    · intro i s hs
      rcases append_split hs with ⟨s', h1, e⟩ | ⟨j, s', rfl, h1, e⟩
      · rw [← e]; exact f1 i s' h1
      · have := f2 j s' h1
        rw [← e, explicit_argument ex₂ (List.mem_of_getElem? h1)]
        rwa [explicit_argument ex₂ (List.mem_of_getElem? h1)] at this
  refine ⟨acc, ?_⟩
  rw [← append_text, format_shows acc hv, format_shows acc₁ hv, format_shows acc₂ hv]
  refine shows_append (fun _ _ _ => rfl) ?_
  intro i s hs
  rw [explicit_argument ex₂ (List.mem_of_getElem? hs), explicit_argument ex₂ (List.mem_of_getElem? hs)]

/-- Nothing in the string looks like a field with a number. -/
def NoNumbers (str : Str) : Prop := ∀ (a b : Str) (d : Char), str = a ++ '{' :: d :: b → d.isDigit = false

theorem noNumbers_automatic {t : Template} {tail : Str} {args : List CoreArg} (acc : t.AcceptedFor args)
    (htail : tail = [] ∨ Begins255 tail ∧ t.format.Explicit) (h : NoNumbers (t.text ++ tail)) :
    tail = [] ∧ t.format.Automatic := by
  obtain ⟨_, d, _, _, _, _⟩ := (accepted_at _ _).1 acc
  constructor
  · rcases htail with h0 | ⟨⟨ds, c, rest, rfl, hne, hd, _⟩, _⟩
    · exact h0
    · obtain ⟨x, ds, rfl⟩ := List.exists_cons_of_ne_nil hne
      have := h t.text (ds ++ c :: rest) x (by simp)
      rw [hd x (by simp)] at this
      cases this
  · intro f hf
    simp only [FormatText.fields, Template.format, List.mem_map] at hf
    obtain ⟨y, ⟨s, hs, rfl⟩, rfl⟩ := hf
    by_contra hne
    obtain ⟨x, ds, hx⟩ := List.exists_cons_of_ne_nil (show s.2.idx ≠ [] from hne)
    obtain ⟨l1, l2, hl⟩ := List.append_of_mem hs
    have ht : ∃ p q, t.text = p ++ '{' :: x :: q := by
      unfold Template.text FormatText.text Template.format
      rw [hl]
      simp only [List.map_append, List.map_cons, List.flatMap_append, List.flatMap_cons, Field.text, Hole.field, hx]
      exact ⟨(List.map (fun s => (s.1, s.2.field)) l1).flatMap (fun s => escBraces s.1 ++ s.2.text) ++ escBraces s.1, _, by
        simp [Hole.field, Field.text]; rfl⟩
    obtain ⟨p, q, hpq⟩ := ht
    have := h p (q ++ tail) x (by rw [hpq]; simp)
    rw [d s hs x (by rw [hx]; simp)] at this
    cases this

/-- C77 for any two strings without numbers: if both can be formatted, then they can be formatted together. -/
theorem C77_any_strings (s₁ s₂ text₁ text₂ : Str) (args₁ args₂ : List CoreArg) (hn : args₁.length + args₂.length ≤ 128)
    (hv₁ : ∀ a ∈ args₁, ValidArg a) (hv₂ : ∀ a ∈ args₂, ValidArg a) (no₁ : NoNumbers s₁) (no₂ : NoNumbers s₂)
    (h₁ : formatStr s₁ (fargs args₁) = .ok () text₁) (h₂ : formatStr s₂ (fargs args₂) = .ok () text₂) :
    formatStr (s₁ ++ s₂) (fargs (args₁ ++ args₂)) = .ok () (text₁ ++ text₂) := by
  obtain ⟨a, tail₁, rfl, pass₁, suits₁, ht₁⟩ := accepted_template_wide (by omega) (accepted_of_str (by omega) h₁)
  obtain ⟨b, tail₂, rfl, pass₂, suits₂, ht₂⟩ := accepted_template_wide (by omega) (accepted_of_str (by omega) h₂)
  obtain ⟨rfl, auto₁⟩ := noNumbers_automatic ⟨pass₁, suits₁⟩ ht₁ no₁
  obtain ⟨rfl, auto₂⟩ := noNumbers_automatic ⟨pass₂, suits₂⟩ ht₂ no₂
  rw [List.append_nil] at h₁ h₂ ⊢
  rw [List.append_nil, (C77_concatenation a b args₁ args₂ ⟨pass₁, suits₁⟩ ⟨pass₂, suits₂⟩ auto₁ auto₂ hn hv₁ hv₂).2, h₁, h₂]
  rfl

/-- The hypotheses are met. -/
example : formatStr ("a{:x}}}".toList ++ "{{{}".toList) (fargs ([.int i32 255] ++ [.bool true])) =
    .ok () ("aff}".toList ++ "{true".toList) :=
  C77_any_strings _ _ _ _ [.int i32 255] [.bool true] (by decide) (by simp [ValidArg]; decide) (by simp [ValidArg])
    (by
      intro a b d h
      rcases a with _ | ⟨x0, _ | ⟨x1, _ | ⟨x2, _ | ⟨x3, _ | ⟨x4, _ | ⟨x5, _ | ⟨x6, a⟩⟩⟩⟩⟩⟩⟩ <;> simp at h
      rw [← h.2.1]; decide)
    (by
      intro a b d h
      rcases a with _ | ⟨x0, _ | ⟨x1, _ | ⟨x2, _ | ⟨x3, a⟩⟩⟩⟩ <;> simp at h
      · rw [← h.1]; decide
      · rw [← h.2.1]; decide
      · rw [← h.2.2.1]; decide)
    (by decide +kernel) (by decide +kernel)

/-- Without the condition it does not hold: `{0}` behind `{}`. -/
example : formatStr ("{}".toList ++ "{0}".toList) (fargs ([.int i32 1] ++ [.int i32 2])) = .err () .invalidFormat := by
  decide +kernel

end Emio
