import Verif.Spec.Types
/-
Property C91: a type that can be formatted in one way only is formatted in that way.
-/
namespace Emio
open Spec

/-- What the compiler finds is what is asked for. -/
def Agrees {α : Type} (s : Sel α) (W : α → Prop) : Prop := s ≠ .illFormed ∧ ∀ a, s = .found a ↔ W a

theorem Agrees.found {α : Type} {W : α → Prop} (a : α) (h : ∀ b, W b ↔ b = a) : Agrees (.found a) W :=
  ⟨by simp, fun b => by rw [h]; simp [eq_comm]⟩

theorem Agrees.none {α : Type} {W : α → Prop} (h : ∀ b, ¬ W b) : Agrees (.none : Sel α) W :=
  ⟨by simp, fun b => by simp [h b]⟩

theorem Agrees.map {α β : Type} {s : Sel α} {W : α → Prop} (h : Agrees s W) (f : α → β) {W' : β → Prop}
    (hW : ∀ b, W' b ↔ ∃ a, W a ∧ b = f a) : Agrees (s.map f) W' := by
  obtain ⟨h1, h2⟩ := h
  cases s with
  | none => exact .none fun b hb => by obtain ⟨a, ha, _⟩ := (hW b).1 hb; exact absurd ((h2 a).2 ha) (by simp)
  | illFormed => exact absurd rfl h1
  | found a =>
    refine .found (f a) fun b => ?_
    rw [hW]
    constructor
    · rintro ⟨c, hc, rfl⟩
      have := (h2 c).2 hc
      injection this with this
      rw [this]
    · rintro rfl
      exact ⟨a, (h2 a).1 rfl, rfl⟩

theorem Agrees.cons {α : Type} {s : Sel α} {l : Sel (List α)} {W : α → Prop} {V : List α → Prop} (h : Agrees s W) (h' : Agrees l V) :
    Agrees (Sel.cons s l) fun fs => ∃ g gs, W g ∧ V gs ∧ fs = g :: gs := by
  obtain ⟨h1, h2⟩ := h
  obtain ⟨g1, g2⟩ := h'
  cases s with
  | illFormed => exact absurd rfl h1
  | none =>
    cases l with
    | illFormed => exact absurd rfl g1
    | none | found => exact .none fun b ⟨g, _, hg, _⟩ => absurd ((h2 g).2 hg) (by simp)
  | found a =>
    cases l with
    | illFormed => exact absurd rfl g1
    | none => exact .none fun b ⟨_, gs, _, hg, _⟩ => absurd ((g2 gs).2 hg) (by simp)
    | found b =>
      refine .found (a :: b) fun c => ⟨?_, ?_⟩
      · rintro ⟨x, y, hx, hy, rfl⟩
        have e1 := (h2 x).2 hx
        have e2 := (g2 y).2 hy
        injection e1 with e1
        injection e2 with e2
        rw [e1, e2]
      · rintro rfl
        exact ⟨a, b, (h2 a).1 rfl, (g2 b).1 rfl, rfl⟩

theorem Agrees.congr {α : Type} {s : Sel α} {W W' : α → Prop} (h : Agrees s W) (e : ∀ a, W' a ↔ W a) : Agrees s W' :=
  ⟨h.1, fun a => (h.2 a).trans (e a).symm⟩

theorem isChar_iff (t : CppTy) : t.isChar = true ↔ t = .char := by cases t <;> simp [CppTy.isChar]

theorem unifyInt_eq (s : Bool) (b : Nat) : unifyInt ⟨s, b⟩ = ⟨s, if b ≤ 32 then 32 else 64⟩ := by
  unfold unifyInt
  cases s <;> simp <;> split <;> rfl

theorem agrees_string {W : FTy → Prop} (h : ∀ f, W f ↔ f = .core .string) : Agrees stringFormatter W := .found _ h

theorem justText_ref {t : CppTy} (h : JustText t) : Agrees (formatterOfRef t) (Way t) := by
  unfold JustText at h
  split at h
  · exact agrees_string fun f => by simp [Way]
  · exact agrees_string fun f => by simp [Way]
  · exact agrees_string fun f => by simp [Way, WayAs, WayMembers]
  · subst h
    exact agrees_string fun f => by simp [Way]
  · exact h.elim

mutual

theorem agrees_type : ∀ (t : CppTy), OneWay t → Agrees (formatterOf t) (Way t)
  | .bool, _ => by unfold formatterOf; exact .found _ fun f => by simp [Way]
  | .char, _ => by unfold formatterOf; exact .found _ fun f => by simp [Way]
  | .integer s b, _ => by unfold formatterOf; exact .found _ fun f => by simp [Way, unifyInt_eq]
  | .floating n, _ => by
    unfold formatterOf
    split
    · exact .found _ fun f => by simp_all [Way]
    · rename_i hn; exact .none fun f => by simp [Way, hn]
  | .nullptr, _ => by unfold formatterOf; exact .found _ fun f => by simp [Way]
  | .voidPointer, _ => by unfold formatterOf; exact .found _ fun f => by simp [Way]
  | .charPointer, _ => by unfold formatterOf; exact agrees_string fun f => by simp [Way]
  | .pointer, _ => by unfold formatterOf; exact .none fun f => by simp [Way]
  | .stringView, _ => by unfold formatterOf; exact agrees_string fun f => by simp [Way]
  | .array t, h => by
    unfold OneWay at h
    have ih := agrees_type t h
    unfold formatterOf
    split
    · rename_i hc
      rw [isChar_iff] at hc
      exact agrees_string fun f => by simp [Way, hc]
    · rename_i hc
      rw [isChar_iff] at hc
      exact ih.map _ fun f => by simp [Way, hc]
  | .enumeration sc u fa, h => by
    unfold OneWay at h
    obtain ⟨h1, h2, h3⟩ := h
    unfold formatterOf
    cases sc with
    | true =>
      have := agrees_as fa h3
      cases fa with
      | no => exact .none fun f => by simp [Way, WayAs]
      | value t => exact this.congr fun f => by simp [Way]
      | ref t => exact this.congr fun f => by simp [Way]
    | false =>
      cases fa with
      | no =>
        simp only [formatAsOf]
        exact (agrees_type u h2).congr fun f => by simp [Way, WayAs]
      | value t => simp [FormatAs.given] at h1
      | ref t => simp [FormatAs.given] at h1
  | .optional t, h => by
    unfold OneWay at h
    unfold formatterOf
    exact (agrees_type t h).map _ fun f => by simp [Way]
  | .variant ts, h => by
    unfold OneWay at h
    unfold formatterOf
    exact (agrees_list ts h).map _ fun f => by simp [Way]
  | .path, _ => by unfold formatterOf; exact agrees_string fun f => by simp [Way]
  | .monostate, _ => by unfold formatterOf; exact .found _ fun f => by simp [Way]
  | .cls text exc fa el me, h => by
    unfold OneWay at h
    obtain ⟨h1, h2, h3, h4⟩ := h
    have a1 := agrees_as fa h2
    have a2 := agrees_elems el h3
    have a3 := agrees_members me h4
    unfold formatterOf
    cases text with
    | true =>
      cases exc <;> cases fa <;> cases me <;> simp [FormatAs.given, Members.given] at h1
      exact agrees_string fun f => by simp [Way, WayAs, WayMembers]
    | false =>
      cases exc with
      | true =>
        cases fa <;> cases el <;> cases me <;> simp [FormatAs.given, Elems.given, Members.given] at h1
        exact agrees_string fun f => by simp [Way, WayAs, WayElems, WayMembers]
      | false =>
        cases fa with
        | value t =>
          cases el <;> cases me <;> simp [FormatAs.given, Elems.given, Members.given] at h1
          exact a1.congr fun f => by simp [Way, WayElems, WayMembers]
        | ref t =>
          cases el <;> cases me <;> simp [FormatAs.given, Elems.given, Members.given] at h1
          exact a1.congr fun f => by simp [Way, WayElems, WayMembers]
        | no =>
          cases me with
          | of ts =>
            cases el <;> simp [FormatAs.given, Elems.given, Members.given] at h1
            have : Agrees ((membersOf (.of ts)).map (.tuple false)) (Way (.cls false false .no .no (.of ts))) :=
              a3.map _ fun f => by simp [Way, WayAs, WayElems]
            revert this
            simp only [rangeOf, formatAsOf, Bool.false_eq_true, if_false, List.nil_append]
            generalize (membersOf (.of ts)).map (FTy.tuple false) = s
            cases s <;> exact id
          | no =>
            have : Agrees (rangeOf el) (Way (.cls false false .no el .no)) :=
              a2.congr fun f => by simp [Way, WayAs, WayMembers]
            revert this
            simp only [membersOf, formatAsOf, Bool.false_eq_true, if_false, List.nil_append]
            generalize rangeOf el = s
            cases s <;> exact id

theorem agrees_as : ∀ (fa : FormatAs), OneWayAs fa → Agrees (Sel.choose (formatAsOf fa)) (WayAs fa)
  | .no, _ => .none fun f => by simp [WayAs]
  | .value t, h => by
    unfold OneWayAs at h
    exact (agrees_type t h).congr fun f => by simp [WayAs]
  | .ref t, h => by
    unfold OneWayAs at h
    exact (justText_ref h).congr fun f => by simp [WayAs]

theorem agrees_elems : ∀ (el : Elems), OneWayElems el → Agrees (rangeOf el) (WayElems el)
  | .no, _ => .none fun f => by simp [WayElems]
  | .seq t, h => by
    unfold OneWayElems at h
    unfold rangeOf
    exact (agrees_type t h).map _ fun f => by simp [WayElems, FTy.seq]
  | .set t, h => by
    unfold OneWayElems at h
    unfold rangeOf
    exact (agrees_type t h).map _ fun f => by simp [WayElems, FTy.set]
  | .map k v, h => by
    unfold OneWayElems at h
    unfold rangeOf
    refine ((agrees_type k h.1).cons ((agrees_type v h.2).cons (V := (· = [])) (.found [] fun _ => Iff.rfl))).map _ fun f => ?_
    simp only [WayElems, FTy.map]
    constructor
    · rintro ⟨g, x, hg, hx, rfl⟩
      exact ⟨_, ⟨g, [x], hg, ⟨x, [], hx, rfl, rfl⟩, rfl⟩, rfl⟩
    · rintro ⟨_, ⟨g, _, hg, ⟨x, _, hx, rfl, rfl⟩, rfl⟩, rfl⟩
      exact ⟨g, x, hg, hx, rfl⟩

theorem agrees_members : ∀ (me : Members), OneWayMembers me → Agrees (membersOf me) (WayMembers me)
  | .no, _ => .none fun f => by simp [WayMembers]
  | .of ts, h => by
    unfold OneWayMembers at h
    unfold membersOf
    exact (agrees_list ts h).congr fun f => by simp [WayMembers]

theorem agrees_list : ∀ (ts : List CppTy), OneWays ts → Agrees (formattersOf ts) (Ways ts)
  | [], _ => .found [] fun f => by simp [Ways]
  | t :: ts, h => by
    unfold OneWays at h
    unfold formattersOf
    exact ((agrees_type t h.1).cons (agrees_list ts h.2)).congr fun f => by simp [Ways]

end

/-- C91 (full statement): a type that can be formatted in some way has a formatter, which does it in one of these ways. -/
def WhatHasAWayIsFormatted : Prop := ∀ t f, Way t f → ∃ g, formatterOf t = .found g ∧ Way t g

/-- C91: an unscoped enumeration with a `format_as` function. -/
theorem C91_two_ways_violated : ¬ WhatHasAWayIsFormatted := by
  intro h
  obtain ⟨g, hg, _⟩ := h (.enumeration false CppTy.int (.value .stringView)) (.core .string) (by simp [Way, WayAs])
  cases hg

/-- C91: a function `format_as` that returns a reference to a number, and one that returns a reference to a set. -/
theorem C91_reference_violated : ¬ WhatHasAWayIsFormatted ∧
    (∀ f, formatterOf (.cls false false (.ref CppTy.int) .no .no) ≠ .found f) ∧
    formatterOf (.cls false false (.ref (.cls false false .no (.set CppTy.int) .no)) .no .no) = .found (.seq (.core (.int i32))) := by
  refine ⟨fun h => ?_, (fun f hf => by cases hf), rfl⟩
  obtain ⟨g, hg, _⟩ := h (.cls false false (.ref CppTy.int) .no .no) (.core (.int i32)) (by simp [Way, WayAs, CppTy.int])
  cases hg

/-- C91: if all parts of a type can be formatted in one way at most, it has the formatter for that way, or none if there is
no way. -/
theorem C91_formatter_partial (t : CppTy) (h : OneWay t) :
    (∀ f, formatterOf t = .found f ↔ Way t f) ∧ (formatterOf t = .none ↔ ∀ f, ¬ Way t f) ∧ formatterOf t ≠ .illFormed := by
  obtain ⟨h1, h2⟩ := agrees_type t h
  refine ⟨h2, ⟨fun e f hf => ?_, fun e => ?_⟩, h1⟩
  · rw [(h2 f).2 hf] at e
    cases e
  · rcases hs : formatterOf t with _ | f | _
    · rfl
    · exact absurd ((h2 f).1 hs) (e f)
    · exact absurd hs h1

/-- C91: there is one way only, then. -/
theorem C91_one_way_partial (t : CppTy) (h : OneWay t) (f g : FTy) (hf : Way t f) (hg : Way t g) : f = g := by
  have h1 := ((C91_formatter_partial t h).1 f).2 hf
  have h2 := ((C91_formatter_partial t h).1 g).2 hg
  rw [h1] at h2
  injection h2

/-- A class with a `format_as` function that returns `const T&`, and with nothing else. -/
def Returning (t : CppTy) : CppTy := .cls false false (.ref t) .no .no

/-- C91: what a `format_as` function that returns a reference comes to.  Texts are formatted as texts.  The elements of
vectors and arrays, sets and maps are written in brackets, whatever they are; the pairs of a map in parentheses.  A path is
the sequence of its parts, not a text.  Numbers, pointers and the other types that are no ranges have no formatter behind
a reference. -/
theorem C91_behind_references (t u : CppTy) (f g : FTy) (ht : OneWay t) (hf : Way t f) (hu : OneWay u) (hg : Way u g) :
    formatterOf (Returning .stringView) = .found (.core .string) ∧
    formatterOf (Returning .charPointer) = .found (.core .string) ∧
    formatterOf (Returning (.cls true false .no .no .no)) = .found (.core .string) ∧
    formatterOf (Returning (.cls false false .no (.seq t) .no)) = .found (.seq f) ∧
    (t ≠ .char → formatterOf (Returning (.array t)) = .found (.seq f)) ∧
    formatterOf (Returning (.cls false false .no (.set t) .no)) = .found (.seq f) ∧
    formatterOf (Returning (.cls false false .no (.map t u) .no)) = .found (.seq (.tuple false [f, g])) ∧
    formatterOf (Returning .path) = .found (.seq (.core .string)) ∧
    (∀ v ∈ [.bool, .char, .nullptr, .voidPointer, .pointer, .monostate], formatterOf (Returning v) = .none) ∧
    (∀ s b, formatterOf (Returning (.integer s b)) = .none) ∧ (∀ n, formatterOf (Returning (.floating n)) = .none) ∧
    formatterOf (Returning (.optional t)) = .none ∧ formatterOf (Returning (.variant [t, u])) = .none ∧
    formatterOf (Returning (.cls false false .no .no (.of [t, u]))) = .none := by
  have e1 : formatterOf t = .found f := ((C91_formatter_partial t ht).1 f).2 hf
  have e2 : formatterOf u = .found g := ((C91_formatter_partial u hu).1 g).2 hg
  refine ⟨rfl, rfl, rfl, ?_, fun hc => ?_, ?_, ?_, rfl, ?_, fun _ _ => rfl, fun _ => rfl, rfl, rfl, rfl⟩
  · simp [Returning, formatterOf, formatterOfRef, formatAsOf, membersOf, rangeOf, rangeOfRef, e1, Sel.map, Sel.constrained, Sel.choose,
      FTy.seq]
  · have : t.isChar = false := by
      rw [← Bool.not_eq_true, isChar_iff]
      exact hc
    simp [Returning, formatterOf, formatterOfRef, formatAsOf, membersOf, rangeOf, e1, Sel.map, Sel.constrained, Sel.choose, FTy.seq, this]
  · simp [Returning, formatterOf, formatterOfRef, formatAsOf, membersOf, rangeOf, rangeOfRef, e1, Sel.map, Sel.constrained, Sel.choose,
      FTy.seq]
  · simp [Returning, formatterOf, formatterOfRef, formatAsOf, membersOf, rangeOf, rangeOfRef, e1, e2, Sel.map, Sel.cons, Sel.constrained,
      Sel.choose, FTy.seq]
  · intro v hv
    simp only [List.mem_cons, List.not_mem_nil, or_false] at hv
    rcases hv with rfl | rfl | rfl | rfl | rfl | rfl <;> rfl

example : OneWay CppTy.int ∧ Way CppTy.int (.core (.int i32)) ∧ CppTy.int ≠ .char := by
  simp [OneWay, Way, CppTy.int]

theorem formatAsOf_length (fa : FormatAs) : (formatAsOf fa).length = if fa.given then 1 else 0 := by
  cases fa <;> simp [formatAsOf, FormatAs.given]

theorem choose_two {α : Type} {l : List (Sel α)} (h : 2 ≤ l.length) : Sel.choose l = .illFormed := by
  match l, h with
  | _ :: _ :: _, _ => rfl

theorem constrained_two {α : Type} {l : List (Sel α)} (h : 2 ≤ l.length) (s : Sel α) : Sel.constrained s l = .illFormed := by
  cases s with
  | none => exact choose_two h
  | illFormed => rfl
  | found a => exact choose_two (Nat.le_succ_of_le h)

/-- C91: a program does not compile if it formats an unscoped enumeration with `format_as`, or a class of which two of
these are true: a `string_view` can be made from it, it is an exception, it has `format_as`. -/
theorem C91_does_not_compile :
    (∀ u fa, fa.given = true → formatterOf (.enumeration false u fa) = .illFormed) ∧
    (∀ text exception fa elems members, 2 ≤ [text, exception, fa.given].count true →
      formatterOf (.cls text exception fa elems members) = .illFormed) := by
  constructor
  · intro u fa h
    unfold formatterOf
    refine choose_two ?_
    rw [List.length_append, formatAsOf_length, h]
    simp
  · intro text exc fa el me h
    unfold formatterOf
    have hl : 2 ≤ ((if text = true then [stringFormatter] else []) ++ (if exc = true then [stringFormatter] else []) ++
        formatAsOf fa).length := by
      rw [List.length_append, List.length_append, formatAsOf_length]
      revert h
      generalize fa.given = b
      revert text exc b
      decide
    simp only
    split
    · exact constrained_two hl _
    · exact constrained_two hl _

/-! Without a way there is no formatter. -/

/-- Something is found only if there is a way. -/
def FoundOnlyIf {α : Type} (s : Sel α) (W : Prop) : Prop := ∀ a, s = .found a → W

theorem FoundOnlyIf.map {α β : Type} {s : Sel α} {W : Prop} (h : FoundOnlyIf s W) (f : α → β) : FoundOnlyIf (s.map f) W := by
  intro b hb
  cases s with
  | found a => exact h a rfl
  | none => cases hb
  | illFormed => cases hb

theorem FoundOnlyIf.cons {α : Type} {s : Sel α} {l : Sel (List α)} {W V : Prop} (h : FoundOnlyIf s W) (h' : FoundOnlyIf l V) :
    FoundOnlyIf (Sel.cons s l) (W ∧ V) := by
  intro b hb
  cases s with
  | found a =>
    cases l with
    | found c => exact ⟨h a rfl, h' c rfl⟩
    | none => cases hb
    | illFormed => cases hb
  | none => cases l <;> cases hb
  | illFormed => cases hb

theorem FoundOnlyIf.choose {α : Type} {l : List (Sel α)} {W : Prop} (h : ∀ s ∈ l, FoundOnlyIf s W) :
    FoundOnlyIf (Sel.choose l) W := by
  match l, h with
  | [], _ => intro a ha; cases ha
  | [s], h => exact h s (by simp)
  | _ :: _ :: _, _ => intro a ha; cases ha

theorem FoundOnlyIf.constrained {α : Type} {s : Sel α} {l : List (Sel α)} {W : Prop} (h0 : FoundOnlyIf s W)
    (h : ∀ s ∈ l, FoundOnlyIf s W) : FoundOnlyIf (Sel.constrained s l) W := by
  cases s with
  | none => exact .choose h
  | illFormed => intro a ha; cases ha
  | found a =>
    refine .choose (l := .found a :: l) fun s hs => ?_
    rcases List.mem_cons.1 hs with rfl | hs
    · exact h0
    · exact h s hs

theorem FoundOnlyIf.mono {α : Type} {s : Sel α} {W V : Prop} (h : FoundOnlyIf s W) (hV : W → V) : FoundOnlyIf s V :=
  fun a ha => hV (h a ha)

theorem FoundOnlyIf.none {α : Type} {W : Prop} : FoundOnlyIf (.none : Sel α) W := fun _ h => by cases h

mutual

theorem way_type : ∀ (t : CppTy), FoundOnlyIf (formatterOf t) (∃ f, Way t f)
  | .bool | .char | .integer _ _ | .nullptr | .voidPointer | .charPointer | .stringView | .path | .monostate =>
    fun _ _ => ⟨_, by simp only [Way]; rfl⟩
  | .floating n => by
    unfold formatterOf
    split
    · rename_i h; exact fun _ _ => ⟨_, by simp only [Way]; exact ⟨h, rfl⟩⟩
    · exact .none
  | .pointer => by unfold formatterOf; exact .none
  | .array t => by
    have ih := way_type t
    unfold formatterOf
    by_cases h : t = .char
    · exact fun _ _ => ⟨.core .string, by simp [Way, h]⟩
    · rw [if_neg (by rw [isChar_iff]; exact h)]
      exact (ih.map _).mono fun ⟨f, hf⟩ => ⟨.range false f, by simp [Way, h, hf]⟩
  | .enumeration sc u fa => by
    have ih := way_type u
    have ia := way_as fa
    unfold formatterOf
    refine .choose fun s hs => ?_
    rcases List.mem_append.1 hs with hs | hs
    · cases sc with
      | true => simp at hs
      | false =>
        simp at hs
        subst hs
        exact ih.mono fun ⟨f, hf⟩ => ⟨f, by simp [Way, hf]⟩
    · exact (ia s hs).mono fun ⟨f, hf⟩ => ⟨f, by simp [Way, hf]⟩
  | .optional t => by
    have ih := way_type t
    unfold formatterOf
    exact (ih.map _).mono fun ⟨f, hf⟩ => ⟨.optional f, by simp [Way, hf]⟩
  | .variant ts => by
    have ih := way_list ts
    unfold formatterOf
    exact (ih.map _).mono fun ⟨f, hf⟩ => ⟨.variant f, by simp [Way, hf]⟩
  | .cls text exc fa el me => by
    have ia := way_as fa
    have ie := way_elems el
    have im := way_members me
    have ho : ∀ s ∈ (if text = true then [stringFormatter] else []) ++ (if exc = true then [stringFormatter] else []) ++
        formatAsOf fa, FoundOnlyIf s (∃ f, Way (.cls text exc fa el me) f) := by
      intro s hs
      rcases List.mem_append.1 hs with hs | hs
      · refine fun _ _ => ⟨.core .string, ?_⟩
        cases text <;> cases exc <;> simp at hs <;> simp [Way]
      · exact (ia s hs).mono fun ⟨f, hf⟩ => ⟨f, by simp [Way, hf]⟩
    unfold formatterOf
    simp only
    split
    · exact .constrained ((im.map _).mono fun ⟨f, hf⟩ => ⟨.tuple false f, by simp [Way, hf]⟩) ho
    · refine .constrained ?_ ho
      cases text with
      | true => exact .none
      | false => exact ie.mono fun ⟨f, hf⟩ => ⟨f, by simp [Way, hf]⟩

theorem way_as : ∀ (fa : FormatAs), ∀ s ∈ formatAsOf fa, FoundOnlyIf s (∃ f, WayAs fa f)
  | .no => by simp [formatAsOf]
  | .value t => by
    have ih := way_type t
    simp only [formatAsOf, List.mem_singleton, forall_eq, WayAs]
    exact ih
  | .ref t => by
    have ih := way_ref t
    simp only [formatAsOf, List.mem_singleton, forall_eq, WayAs]
    exact ih

theorem way_ref : ∀ (t : CppTy), FoundOnlyIf (formatterOfRef t) (∃ f, Way t f)
  | .charPointer | .stringView | .path => fun _ _ => ⟨_, by simp only [Way]; rfl⟩
  | .bool | .char | .integer _ _ | .nullptr | .voidPointer | .monostate | .floating _ | .pointer | .optional _ | .variant _ => by
    unfold formatterOfRef; exact .none
  | .array t => by
    have ih := way_type t
    unfold formatterOfRef
    by_cases h : t = .char
    · exact fun _ _ => ⟨.core .string, by simp [Way, h]⟩
    · rw [if_neg (by rw [isChar_iff]; exact h)]
      exact (ih.map _).mono fun ⟨f, hf⟩ => ⟨.range false f, by simp [Way, h, hf]⟩
  | .enumeration sc u fa => by
    have ia := way_as fa
    unfold formatterOfRef
    exact .choose fun s hs => (ia s hs).mono fun ⟨f, hf⟩ => ⟨f, by simp [Way, hf]⟩
  | .cls text exc fa el me => by
    have ia := way_as fa
    have ie := way_elems_ref el
    unfold formatterOfRef
    refine .constrained ?_ fun s hs => ?_
    · cases text with
      | true => exact .none
      | false => exact ie.mono fun ⟨f, hf⟩ => ⟨f, by simp [Way, hf]⟩
    · rcases List.mem_append.1 hs with hs | hs
      · refine fun _ _ => ⟨.core .string, ?_⟩
        cases text <;> simp at hs <;> simp [Way]
      · exact (ia s hs).mono fun ⟨f, hf⟩ => ⟨f, by simp [Way, hf]⟩

theorem way_elems : ∀ (el : Elems), FoundOnlyIf (rangeOf el) (∃ f, WayElems el f)
  | .no => by unfold rangeOf; exact .none
  | .seq t => by
    have ih := way_type t
    unfold rangeOf
    exact (ih.map _).mono fun ⟨f, hf⟩ => ⟨.seq f, by simp only [WayElems]; exact ⟨f, hf, rfl⟩⟩
  | .set t => by
    have ih := way_type t
    unfold rangeOf
    exact (ih.map _).mono fun ⟨f, hf⟩ => ⟨.set f, by simp only [WayElems]; exact ⟨f, hf, rfl⟩⟩
  | .map k v => by
    have ik := way_type k
    have iv := way_type v
    unfold rangeOf
    exact ((ik.cons (iv.cons (V := True) fun _ _ => trivial)).map _).mono fun ⟨⟨f, hf⟩, ⟨g, hg⟩, _⟩ =>
      ⟨.map f g, by simp only [WayElems]; exact ⟨f, g, hf, hg, rfl⟩⟩

theorem way_elems_ref : ∀ (el : Elems), FoundOnlyIf (rangeOfRef el) (∃ f, WayElems el f)
  | .no => by unfold rangeOfRef; exact .none
  | .seq t => by
    have ih := way_type t
    unfold rangeOfRef
    exact (ih.map _).mono fun ⟨f, hf⟩ => ⟨.seq f, by simp only [WayElems]; exact ⟨f, hf, rfl⟩⟩
  | .set t => by
    have ih := way_type t
    unfold rangeOfRef
    exact (ih.map _).mono fun ⟨f, hf⟩ => ⟨.set f, by simp only [WayElems]; exact ⟨f, hf, rfl⟩⟩
  | .map k v => by
    have ik := way_type k
    have iv := way_type v
    unfold rangeOfRef
    exact ((ik.cons (iv.cons (V := True) fun _ _ => trivial)).map _).mono fun ⟨⟨f, hf⟩, ⟨g, hg⟩, _⟩ =>
      ⟨.map f g, by simp only [WayElems]; exact ⟨f, g, hf, hg, rfl⟩⟩

theorem way_members : ∀ (me : Members), FoundOnlyIf (membersOf me) (∃ f, WayMembers me f)
  | .no => by unfold membersOf; exact .none
  | .of ts => by
    have ih := way_list ts
    unfold membersOf
    exact ih.mono fun ⟨f, hf⟩ => ⟨f, by simp only [WayMembers]; exact hf⟩

theorem way_list : ∀ (ts : List CppTy), FoundOnlyIf (formattersOf ts) (∃ f, Ways ts f)
  | [] => fun _ _ => ⟨[], by simp [Ways]⟩
  | t :: ts => by
    have ih := way_type t
    have il := way_list ts
    unfold formattersOf
    exact (ih.cons il).mono fun ⟨⟨f, hf⟩, fs, hfs⟩ => ⟨f :: fs, by simp only [Ways]; exact ⟨f, fs, hf, hfs, rfl⟩⟩

end

/-- C91: a type that cannot be formatted in any way has no formatter, whatever its parts are. -/
theorem C91_without_a_way (t : CppTy) (h : ∀ f, ¬ Way t f) (f : FTy) : formatterOf t ≠ .found f :=
  fun hf => let ⟨g, hg⟩ := way_type t f hf; h g hg

/-- Maps of strings to vectors of pairs, and types without a formatter: `long double`, `int*`, scoped enumerations,
vectors of them. -/
example : OneWay (CppTy.stdMap CppTy.stdString (CppTy.vector (CppTy.pair CppTy.int CppTy.double))) ∧
    formatterOf (CppTy.stdMap CppTy.stdString (CppTy.vector (CppTy.pair CppTy.int CppTy.double))) =
      .found (.map (.core .string) (.seq (.tuple false [.core (.int i32), .core .double]))) ∧
    formatterOf (.floating 16) = .none ∧ formatterOf .pointer = .none ∧ formatterOf (.enumeration true CppTy.int .no) = .none ∧
    formatterOf (CppTy.vector (.enumeration true CppTy.int .no)) = .none := by
  refine ⟨?_, rfl, rfl, rfl, rfl, rfl⟩
  simp [OneWay, OneWays, OneWayAs, OneWayElems, OneWayMembers, CppTy.stdMap, CppTy.stdString, CppTy.vector, CppTy.pair, CppTy.int, CppTy.double,
    FormatAs.given, Elems.given, Members.given]

/-- A scoped enumeration with `format_as`. -/
example : OneWay (.enumeration true CppTy.int (.value .stringView)) ∧
    formatterOf (.enumeration true CppTy.int (.value .stringView)) = .found (.core .string) := by
  refine ⟨by simp [OneWay, OneWayAs, CppTy.int], rfl⟩

example : ∀ f, ¬ Way (CppTy.vector (.enumeration true CppTy.int .no)) f := by
  simp [Way, WayAs, WayElems, WayMembers, CppTy.vector]

end Emio
