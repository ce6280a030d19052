import Verif.Spec.ComposeTypes
import Verif.Props.AnyTypes
import Verif.Props.Compose
/-
Properties C77 and C78 for arguments of any types but tuples.
-/
namespace Emio
open Spec BufferImpl

/-- What a field is formatted as alone. -/
def aloneValue (x : Str × Str × Option (FTy × FVal)) : Str :=
  match x.2.2 with
  | some a =>
    match formatStr ('{' :: ':' :: x.2.1) [a.2.farg a.1] with
    | .ok _ text => text
    | _ => []
  | none => []

/-- The field asks for the type `O` of something. -/
def ShowsOctal (x : Str × Str × Option (FTy × FVal)) : Prop :=
  ∃ a s, x.2.2 = some a ∧ x.2.1 = s ++ ['}'] ∧ OctalIn a.2 s

open Classical in
/-- The outcome, given what the format string shows. -/
noncomputable def outcomeV (l : List (Str × Str × Option (FTy × FVal))) (last : Str) : Run Unit Str :=
  if ∃ x ∈ l, ShowsOctal x then .err () .invalidFormat else .ok () ((l.flatMap fun x => x.1 ++ aloneValue x) ++ last)

theorem showsV_at (t : FormatText) (args : List (FTy × FVal)) (i : Nat) :
    (t.shows args)[i]? = t.segs[i]?.map fun s => (s.1, s.2.body, args[s.2.argument i]?) := by
  unfold FormatText.shows
  rw [List.getElem?_mapIdx]

theorem fields_at (t : FormatText) (i : Nat) : t.fields[i]? = t.segs[i]?.map (·.2) := by
  unfold FormatText.fields
  rw [List.getElem?_map]

theorem showsOctal_iff (t : FormatText) (args : List (FTy × FVal)) :
    (∃ x ∈ t.shows args, ShowsOctal x) ↔ ∃ j, t.AsksOctal args j := by
  constructor
  · rintro ⟨x, hx, a, s, h1, h2, h3⟩
    obtain ⟨j, hj⟩ := List.mem_iff_getElem?.1 hx
    rw [showsV_at] at hj
    obtain ⟨y, hy, rfl⟩ := Option.map_eq_some_iff.1 hj
    exact ⟨j, y.2, a, s, by rw [fields_at, hy]; rfl, h1, h2, h3⟩
  · rintro ⟨j, f, a, s, h1, h2, h3, h4⟩
    rw [fields_at] at h1
    obtain ⟨y, hy, rfl⟩ := Option.map_eq_some_iff.1 h1
    exact ⟨_, List.mem_of_getElem? (show (t.shows args)[j]? = _ by rw [showsV_at, hy]; rfl), a, s, h2, h3, h4⟩

/-- The outcome depends on what the format string shows. -/
theorem formatV_shows {t : FormatText} {args : List (FTy × FVal)} (hn : ∀ a ∈ args, NoTuple a.1)
    (hv : ∀ a ∈ args, HasType a.2 a.1) (suits : t.SuitsTypes (args.map (·.1))) :
    formatStr t.text (vargs args) = outcomeV (t.shows args) t.last := by
  unfold outcomeV
  by_cases hO : ∃ j, t.AsksOctal args j
  · rw [if_pos ((showsOctal_iff t args).2 hO)]
    have := ((C61_fails_iff_O t [] args hn hv suits (Or.inl rfl)).2).2 hO
    rwa [List.append_nil] at this
  · rw [if_neg fun h => hO ((showsOctal_iff t args).1 h)]
    obtain ⟨texts, h1, h2, hd⟩ := C61_without_O_succeeds t [] args hn hv suits (Or.inl rfl) fun j hj => hO ⟨j, hj⟩
    have := hd.format
    rw [List.append_nil] at this
    rw [this]
    refine congrArg (Run.ok ()) ?_
    have hfl : t.fields.length = t.segs.length := by simp [FormatText.fields]
    have ht : texts = (t.shows args).map aloneValue := by
      refine List.ext_getElem? fun i => ?_
      rw [List.getElem?_map, showsV_at]
      by_cases hi : i < t.segs.length
      · have hs := List.getElem?_eq_getElem hi
        have ht := List.getElem?_eq_getElem (show i < texts.length by omega)
        rw [hs, ht]
        obtain ⟨a, ha, hf⟩ := h2 i _ _ (by rw [fields_at, hs]; rfl) ht
        simp only [Option.map_some, aloneValue, ha]
        rw [hf]
      · rw [List.getElem?_eq_none (by omega), List.getElem?_eq_none (by omega)]
        rfl
    unfold FormatText.output
    refine congrArg (· ++ t.last) ?_
    rw [ht]
    unfold FormatText.shows
    have key : ∀ (segs : List (Str × Field)) (g : Nat → Str × Field → Str × Str × Option (FTy × FVal)),
        (∀ i s, (g i s).1 = s.1) →
        ((segs.zip ((segs.mapIdx g).map aloneValue)).flatMap fun s => s.1.1 ++ s.2) =
          (segs.mapIdx g).flatMap fun x => x.1 ++ aloneValue x := by
      intro segs
      induction segs with
      | nil => intros; rfl
      | cons s segs ih =>
        intro g hg
        simp only [List.map_cons, List.mapIdx_cons, List.zip_cons_cons, List.flatMap_cons]
        rw [ih (fun i => g (i + 1)) (fun i s => hg (i + 1) s), hg]
    exact key t.segs _ fun i s => rfl

/-- C78 for any types but tuples: two accepted strings with the same literal text and the same specifications, whose fields
refer to the same arguments, one by one, yield the same, however the arguments are numbered. -/
theorem C78_numbers_select_any_types (t t' : FormatText) (args args' : List (FTy × FVal)) (hn : ∀ a ∈ args, NoTuple a.1)
    (hn' : ∀ a ∈ args', NoTuple a.1) (hv : ∀ a ∈ args, HasType a.2 a.1) (hv' : ∀ a ∈ args', HasType a.2 a.1)
    (suits : t.SuitsTypes (args.map (·.1))) (suits' : t'.SuitsTypes (args'.map (·.1)))
    (same : t.shows args = t'.shows args') (last : t.last = t'.last) :
    formatStr t.text (vargs args) = formatStr t'.text (vargs args') := by
  rw [formatV_shows hn hv suits, formatV_shows hn' hv' suits', same, last]

theorem memArguments (t : FormatText) (k : Nat) :
    k ∈ t.arguments ↔ ∃ (i : Nat) (f : Field), t.fields[i]? = some f ∧ f.argument i = k := by
  unfold FormatText.arguments
  rw [List.mem_iff_getElem?]
  simp only [List.getElem?_mapIdx, Option.map_eq_some_iff]

theorem suits_covers {t : FormatText} {types : List FTy} (s : t.SuitsTypes types) {k : Nat} (hk : k < types.length) :
    ∃ (i : Nat) (f : Field), t.fields[i]? = some f ∧ f.argument i = k := (memArguments t k).1 ((s.arguments k).2 hk)

/-- Sufficient conditions, field by field. -/
theorem suits_of {t : FormatText} {types : List FTy} (number : types.length ≤ 128)
    (digits : ∀ f ∈ t.fields, ∀ c ∈ f.idx, c.isDigit) (mode : t.Automatic ∨ t.Explicit)
    (covers : ∀ k < types.length, ∃ (i : Nat) (f : Field), t.fields[i]? = some f ∧ f.argument i = k)
    (taken : ∀ (i : Nat) (f : Field), t.fields[i]? = some f → ∃ ty, types[f.argument i]? = some ty ∧
      ∃ s, f.body = s ++ ['}'] ∧ (f.colon = false → s = []) ∧ TypeAccepts ty s) : t.SuitsTypes types := by
  refine ⟨number, digits, mode, fun k => ?_, taken⟩
  rw [memArguments]
  constructor
  · rintro ⟨i, f, h, rfl⟩
    obtain ⟨ty, hty, _⟩ := taken i f h
    exact (List.getElem?_eq_some_iff.1 hty).1
  · exact covers k

/-- C78 for any types but tuples: the arguments in another order, and the numbers changed accordingly. -/
theorem C78_reordered_any_types (t : FormatText) (args args' : List (FTy × FVal)) (f : Nat → Nat)
    (hn : ∀ a ∈ args, NoTuple a.1) (hv : ∀ a ∈ args, HasType a.2 a.1) (suits : t.SuitsTypes (args.map (·.1)))
    (explicit : t.Explicit) (hl : args'.length = args.length) (moved : ∀ k < args.length, args'[f k]? = args[k]?)
    (onto : ∀ k < args.length, ∃ j < args.length, f j = k) :
    (t.renumber f).SuitsTypes (args'.map (·.1)) ∧
    formatStr (t.renumber f).text (vargs args') = formatStr t.text (vargs args) := by
  have hfields : (t.renumber f).fields =
      t.fields.map fun g => { g with idx := numeral false 10 (f (numeralValue 10 g.idx)) } := by
    simp [FormatText.renumber, FormatText.fields]
  have hre : ∀ (g : Field) (i : Nat), ({ g with idx := numeral false 10 (f (numeralValue 10 g.idx)) } : Field).argument i =
      f (numeralValue 10 g.idx) := by
    intro g i
    obtain ⟨h1, h2, h3⟩ := numeral_digits (f (numeralValue 10 g.idx))
    unfold Field.argument
    rw [if_neg h1, h3]
  have harg : ∀ (i : Nat) (g : Field), t.fields[i]? = some g → g.argument i = numeralValue 10 g.idx ∧
      numeralValue 10 g.idx < args.length := by
    intro i g hg
    have e : g.argument i = numeralValue 10 g.idx := if_neg (explicit g (List.mem_of_getElem? hg))
    obtain ⟨a, ha, _⟩ := suits.taken i g hg
    have := (List.getElem?_eq_some_iff.1 ha).1
    rw [← e]
    exact ⟨rfl, by simpa using this⟩
  have hmem : ∀ a ∈ args', a ∈ args := by
    intro a ha
    obtain ⟨i, hi⟩ := List.mem_iff_getElem?.1 ha
    have hlt := (List.getElem?_eq_some_iff.1 hi).1
    obtain ⟨j, hj, rfl⟩ := onto i (by omega)
    rw [moved j hj] at hi
    exact List.mem_of_getElem? hi
  have suits' : (t.renumber f).SuitsTypes (args'.map (·.1)) := by
    refine suits_of (by have := suits.number; simp at this ⊢; omega) ?_ (Or.inr ?_) ?_ ?_
    · intro g hg
      rw [hfields] at hg
      obtain ⟨g', _, rfl⟩ := List.mem_map.1 hg
      exact (numeral_digits _).2.1
    · intro g hg
      rw [hfields] at hg
      obtain ⟨g', _, rfl⟩ := List.mem_map.1 hg
      exact (numeral_digits _).1
    · intro k hk
      obtain ⟨j, hj, rfl⟩ := onto k (by simp at hk; omega)
      obtain ⟨i, g, hg, rfl⟩ := suits_covers suits (k := j) (by simpa using hj)
      refine ⟨i, _, by rw [hfields, List.getElem?_map, hg]; rfl, ?_⟩
      rw [(harg i g hg).1]
      exact hre g i
    · intro i g hg
      rw [hfields, List.getElem?_map] at hg
      obtain ⟨g', hg', rfl⟩ := Option.map_eq_some_iff.1 hg
      obtain ⟨ty, hty, hrest⟩ := suits.taken i g' hg'
      obtain ⟨e1, e2⟩ := harg i g' hg'
      refine ⟨ty, ?_, hrest⟩
      rw [hre, List.getElem?_map, moved _ e2, ← e1, ← List.getElem?_map]
      exact hty
  refine ⟨suits', C78_numbers_select_any_types _ _ _ _ (fun a h => hn a (hmem a h)) hn (fun a h => hv a (hmem a h)) hv suits'
    suits ?_ rfl⟩
  refine List.ext_getElem? fun i => ?_
  rw [showsV_at, showsV_at]
  simp only [FormatText.renumber, List.getElem?_map]
  cases hs : t.segs[i]? with
  | none => rfl
  | some s =>
    obtain ⟨e1, e2⟩ := harg i s.2 (by rw [fields_at, hs]; rfl)
    simp only [Option.map_some]
    rw [hre, moved _ e2, e1]

/-! ### C77 -/

theorem appendV_text (a b : FormatText) : (a.append b).text = a.text ++ b.text := by
  obtain ⟨bs, bl⟩ := b
  cases bs with
  | nil => simp [FormatText.append, FormatText.text, escBraces_append]
  | cons s bs => simp [FormatText.append, FormatText.text, escBraces_append]

theorem appendV_fields (a b : FormatText) : (a.append b).fields = a.fields ++ b.fields := by
  obtain ⟨bs, bl⟩ := b
  cases bs with
  | nil => simp [FormatText.append, FormatText.fields]
  | cons s bs => simp [FormatText.append, FormatText.fields]

theorem appendV_last (a b : FormatText) : (a.append b).last = if b.segs = [] then a.last ++ b.last else b.last := by
  obtain ⟨bs, bl⟩ := b
  cases bs with
  | nil => simp [FormatText.append]
  | cons s bs => simp [FormatText.append]

theorem ShowsOctal.lit {lit lit' : Str} {x : Str × Option (FTy × FVal)} (h : ShowsOctal (lit, x)) : ShowsOctal (lit', x) := h

/-- The outcome of two lists, one behind the other. -/
theorem outcomeV_append (l l' : List (Str × Str × Option (FTy × FVal))) (la lb : Str) :
    (match l' with
      | [] => outcomeV l (la ++ lb)
      | (lit, x) :: r => outcomeV (l ++ (la ++ lit, x) :: r) lb) = both (outcomeV l la) (outcomeV l' lb) := by
  have e2 : ∀ (lit lit' : Str) (x : Str × Option (FTy × FVal)), aloneValue (lit, x) = aloneValue (lit', x) := fun _ _ _ => by
    simp only [aloneValue]
  cases l' with
  | nil =>
    simp only
    unfold outcomeV
    by_cases hl : ∃ x ∈ l, ShowsOctal x
    · rw [if_pos hl, if_pos hl]; rfl
    · rw [if_neg hl, if_neg hl]; simp [both]
  | cons y r =>
    obtain ⟨lit, x⟩ := y
    simp only
    unfold outcomeV
    by_cases hl : ∃ x ∈ l, ShowsOctal x
    · obtain ⟨z, hz, hz'⟩ := id hl
      rw [if_pos hl, if_pos ⟨z, by simp [hz], hz'⟩]; rfl
    · by_cases hr : ∃ z ∈ (lit, x) :: r, ShowsOctal z
      · rw [if_neg hl, if_pos hr, if_pos]
        · rfl
        · obtain ⟨z, hz, hz'⟩ := hr
          rcases List.mem_cons.1 hz with rfl | hz
          · exact ⟨(la ++ lit, x), by simp, hz'.lit⟩
          · exact ⟨z, by simp [hz], hz'⟩
      · rw [if_neg hl, if_neg hr, if_neg]
        · simp [both, e2 (la ++ lit) lit x]
        · rintro ⟨z, hz, hz'⟩
          rcases List.mem_append.1 hz with hz | hz
          · exact hl ⟨z, hz, hz'⟩
          · rcases List.mem_cons.1 hz with rfl | hz
            · exact hr ⟨(lit, x), by simp, hz'.lit⟩
            · exact hr ⟨z, by simp [hz], hz'⟩

theorem showsV_append {a b : FormatText} {args args₁ args₂ : List (FTy × FVal)}
    (hl : ∀ (i : Nat) (f : Field), a.fields[i]? = some f → args[f.argument i]? = args₁[f.argument i]?)
    (hr : ∀ (i : Nat) (f : Field), b.fields[i]? = some f → args[f.argument (a.segs.length + i)]? = args₂[f.argument i]?) :
    outcomeV ((a.append b).shows args) (a.append b).last = both (outcomeV (a.shows args₁) a.last) (outcomeV (b.shows args₂) b.last) := by
  rw [← outcomeV_append]
  have h1 : a.segs.mapIdx (fun i s => (s.1, s.2.body, args[s.2.argument i]?)) = a.shows args₁ := by
    refine List.ext_getElem? fun i => ?_
    rw [showsV_at, List.getElem?_mapIdx]
    cases hs : a.segs[i]? with
    | none => rfl
    | some s => simp only [Option.map_some]; rw [hl i s.2 (by rw [fields_at, hs]; rfl)]
  have h2 : b.segs.mapIdx (fun i s => (s.1, s.2.body, args[s.2.argument (a.segs.length + i)]?)) = b.shows args₂ := by
    refine List.ext_getElem? fun i => ?_
    rw [showsV_at, List.getElem?_mapIdx]
    cases hs : b.segs[i]? with
    | none => rfl
    | some s => simp only [Option.map_some]; rw [hr i s.2 (by rw [fields_at, hs]; rfl)]
  rw [← h1, ← h2]
  obtain ⟨bs, bl⟩ := b
  cases bs with
  | nil => rfl
  | cons s bs =>
    simp only [FormatText.append, FormatText.shows, List.mapIdx_cons, List.mapIdx_append, Nat.add_zero, Nat.zero_add]
    simp only [Nat.add_comm, Nat.add_left_comm, Nat.add_assoc]

/-- With automatic numbering there is a field for each argument. -/
theorem automaticV_count {t : FormatText} {types : List FTy} (h : t.Automatic) (suits : t.SuitsTypes types) :
    t.fields.length = types.length := by
  have harg : ∀ (i : Nat) (f : Field), t.fields[i]? = some f → f.argument i = i := fun i f hf =>
    if_pos (h f (List.mem_of_getElem? hf))
  apply Nat.le_antisymm
  · by_contra hgt
    have hs := List.getElem?_eq_getElem (show types.length < t.fields.length by omega)
    obtain ⟨a, ha, _⟩ := suits.taken _ _ hs
    rw [harg _ _ hs] at ha
    simp at ha
  · by_contra hgt
    obtain ⟨i, f, hs, hi⟩ := suits_covers suits (k := t.fields.length) (by omega)
    rw [harg i f hs] at hi
    have := (List.getElem?_eq_some_iff.1 hs).1
    omega

/-- C77 for any types but tuples: two strings with automatic numbering, one behind the other, with the arguments of both:
the two texts. -/
theorem C77_concatenation_any_types (a b : FormatText) (args₁ args₂ : List (FTy × FVal))
    (hn₁ : ∀ a ∈ args₁, NoTuple a.1) (hn₂ : ∀ a ∈ args₂, NoTuple a.1)
    (hv₁ : ∀ a ∈ args₁, HasType a.2 a.1) (hv₂ : ∀ a ∈ args₂, HasType a.2 a.1)
    (suits₁ : a.SuitsTypes (args₁.map (·.1))) (suits₂ : b.SuitsTypes (args₂.map (·.1)))
    (auto₁ : a.Automatic) (auto₂ : b.Automatic) (hn : args₁.length + args₂.length ≤ 128) :
    (a.append b).SuitsTypes ((args₁ ++ args₂).map (·.1)) ∧
    formatStr (a.text ++ b.text) (vargs (args₁ ++ args₂)) =
      both (formatStr a.text (vargs args₁)) (formatStr b.text (vargs args₂)) := by
  have hla := automaticV_count auto₁ suits₁
  have hlb := automaticV_count auto₂ suits₂
  rw [List.length_map] at hla hlb
  have hsa : a.segs.length = args₁.length := by rw [← hla]; simp [FormatText.fields]
  have ha : ∀ (i : Nat) (f : Field), a.fields[i]? = some f → ∀ j, f.argument j = j := fun i f hf j =>
    if_pos (auto₁ f (List.mem_of_getElem? hf))
  have hb : ∀ (i : Nat) (f : Field), b.fields[i]? = some f → ∀ j, f.argument j = j := fun i f hf j =>
    if_pos (auto₂ f (List.mem_of_getElem? hf))
  have suits : (a.append b).SuitsTypes ((args₁ ++ args₂).map (·.1)) := by
    have hauto : (a.append b).Automatic := by
      intro f hf
      rw [appendV_fields] at hf
      rcases List.mem_append.1 hf with hf | hf
      · exact auto₁ f hf
      · exact auto₂ f hf
    refine suits_of (by simpa using hn) ?_ (Or.inl hauto) ?_ ?_
    · intro f hf
      rw [hauto f hf]
      simp
    · intro k hk
      have hs := List.getElem?_eq_getElem (show k < (a.append b).fields.length by rw [appendV_fields]; simp at hk ⊢; omega)
      exact ⟨k, _, hs, if_pos (hauto _ (List.mem_of_getElem? hs))⟩
    · intro i f hf
      have harg : f.argument i = i := if_pos (hauto f (List.mem_of_getElem? hf))
      rw [harg]
      rw [appendV_fields] at hf
      by_cases hi : i < a.fields.length
      · rw [List.getElem?_append_left hi] at hf
        obtain ⟨ty, hty, hrest⟩ := suits₁.taken i f hf
        rw [ha i f hf] at hty
        refine ⟨ty, ?_, hrest⟩
        rw [List.map_append, List.getElem?_append_left (List.getElem?_eq_some_iff.1 hty).1, hty]
      · rw [List.getElem?_append_right (by omega)] at hf
        obtain ⟨ty, hty, hrest⟩ := suits₂.taken _ f hf
        rw [hb _ f hf] at hty
        refine ⟨ty, ?_, hrest⟩
        rw [List.map_append, List.getElem?_append_right (by simp; omega), List.length_map, ← hla, hty]
  refine ⟨suits, ?_⟩
  rw [← appendV_text, formatV_shows (by simpa using fun x y h => h.elim (hn₁ (x, y)) (hn₂ (x, y)))
    (by simpa using fun x y h => h.elim (hv₁ (x, y)) (hv₂ (x, y))) suits, formatV_shows hn₁ hv₁ suits₁, formatV_shows hn₂ hv₂ suits₂]
  refine showsV_append ?_ ?_
  · intro i f hf
    have := (List.getElem?_eq_some_iff.1 hf).1
    rw [ha i f hf, List.getElem?_append_left (by omega)]
  · intro i f hf
    rw [hb i f hf, hb i f hf, List.getElem?_append_right (by omega), hsa, show args₁.length + i - args₁.length = i by omega]

/-- C77 for any types but tuples: two strings with numbers for the same arguments. -/
theorem C77_same_arguments_any_types (a b : FormatText) (args : List (FTy × FVal)) (hn : ∀ a ∈ args, NoTuple a.1)
    (hv : ∀ a ∈ args, HasType a.2 a.1) (suits₁ : a.SuitsTypes (args.map (·.1))) (suits₂ : b.SuitsTypes (args.map (·.1)))
    (ex₁ : a.Explicit) (ex₂ : b.Explicit) :
    (a.append b).SuitsTypes (args.map (·.1)) ∧
    formatStr (a.text ++ b.text) (vargs args) = both (formatStr a.text (vargs args)) (formatStr b.text (vargs args)) := by
  have hb : ∀ (i : Nat) (f : Field), b.fields[i]? = some f → ∀ j, f.argument j = numeralValue 10 f.idx := fun i f hf j =>
    if_neg (ex₂ f (List.mem_of_getElem? hf))
  have suits : (a.append b).SuitsTypes (args.map (·.1)) := by
    refine suits_of suits₁.number ?_ (Or.inr ?_) ?_ ?_
    · intro f hf
      rw [appendV_fields] at hf
      rcases List.mem_append.1 hf with hf | hf
      · exact suits₁.digits f hf
      · exact suits₂.digits f hf
    · intro f hf
      rw [appendV_fields] at hf
      rcases List.mem_append.1 hf with hf | hf
      · exact ex₁ f hf
      · exact ex₂ f hf
    · intro k hk
      obtain ⟨i, f, hf, hi⟩ := suits_covers suits₁ hk
      refine ⟨i, f, ?_, hi⟩
      rw [appendV_fields, List.getElem?_append_left (List.getElem?_eq_some_iff.1 hf).1, hf]
    · intro i f hf
      rw [appendV_fields] at hf
      by_cases hi : i < a.fields.length
      · rw [List.getElem?_append_left hi] at hf
        exact suits₁.taken i f hf
      · rw [List.getElem?_append_right (by omega)] at hf
        have := suits₂.taken _ f hf
        rw [hb _ f hf] at this ⊢
        exact this
  refine ⟨suits, ?_⟩
  rw [← appendV_text, formatV_shows hn hv suits, formatV_shows hn hv suits₁, formatV_shows hn hv suits₂]
  refine showsV_append (fun _ _ _ => rfl) ?_
  intro i f hf
  rw [hb i f hf, hb i f hf]

theorem noNumbersV {t : FormatText} {tail : Str} {types : List FTy} (suits : t.SuitsTypes types)
    (htail : tail = [] ∨ Begins255 tail ∧ t.Explicit) (h : NoNumbers (t.text ++ tail)) : tail = [] ∧ t.Automatic := by
  constructor
  · rcases htail with h0 | ⟨⟨ds, c, rest, rfl, hne, hd, _⟩, _⟩
    · exact h0
    · obtain ⟨x, ds, rfl⟩ := List.exists_cons_of_ne_nil hne
      have := h t.text (ds ++ c :: rest) x (by simp)
      rw [hd x (by simp)] at this
      cases this
  · intro f hf
    have hd := suits.digits f hf
    simp only [FormatText.fields, List.mem_map] at hf
    obtain ⟨s, hs, rfl⟩ := hf
    by_contra hne
    obtain ⟨x, ds, hx⟩ := List.exists_cons_of_ne_nil (show s.2.idx ≠ [] from hne)
    obtain ⟨l1, l2, hl⟩ := List.append_of_mem hs
    have ht : ∃ p q, t.text = p ++ '{' :: x :: q := by
      unfold FormatText.text
      rw [hl]
      simp only [List.flatMap_append, List.flatMap_cons, Field.text, hx]
      exact ⟨l1.flatMap (fun s => escBraces s.1 ++ s.2.text) ++ escBraces s.1, _, by simp [Field.text]; rfl⟩
    obtain ⟨p, q, hpq⟩ := ht
    have := h p (q ++ tail) x (by rw [hpq]; simp)
    rw [hd x (by rw [hx]; simp)] at this
    cases this

/-- C77 for any two strings without numbers and any types but tuples: if both can be formatted, then they can be formatted
together. -/
theorem C77_any_strings_any_types (s₁ s₂ text₁ text₂ : Str) (args₁ args₂ : List (FTy × FVal))
    (hn : args₁.length + args₂.length ≤ 128) (hn₁ : ∀ a ∈ args₁, NoTuple a.1) (hn₂ : ∀ a ∈ args₂, NoTuple a.1)
    (hv₁ : ∀ a ∈ args₁, HasType a.2 a.1) (hv₂ : ∀ a ∈ args₂, HasType a.2 a.1) (no₁ : NoNumbers s₁) (no₂ : NoNumbers s₂)
    (h₁ : formatStr s₁ (vargs args₁) = .ok () text₁) (h₂ : formatStr s₂ (vargs args₂) = .ok () text₂) :
    formatStr (s₁ ++ s₂) (vargs (args₁ ++ args₂)) = .ok () (text₁ ++ text₂) := by
  have get : ∀ (s text : Str) (args : List (FTy × FVal)), args.length ≤ 128 → (∀ a ∈ args, NoTuple a.1) →
      formatStr s (vargs args) = .ok () text → NoNumbers s →
      ∃ t : FormatText, s = t.text ∧ t.SuitsTypes (args.map (·.1)) ∧ t.Automatic := by
    intro s text args hl hn h no
    by_cases hex : ∃ (t : FormatText) (tail : Str), s = t.text ++ tail ∧ t.SuitsTypes (args.map (·.1)) ∧
        (tail = [] ∨ Begins255 tail ∧ t.Explicit)
    · obtain ⟨t, tail, rfl, suits, htail⟩ := hex
      obtain ⟨rfl, auto⟩ := noNumbersV suits htail no
      exact ⟨t, by simp, suits, auto⟩
    · rw [((C63_accepted_strings_any_types s args hl hn).2 hex).1] at h
      cases h
  obtain ⟨a, rfl, suits₁, auto₁⟩ := get s₁ text₁ args₁ (by omega) hn₁ h₁ no₁
  obtain ⟨b, rfl, suits₂, auto₂⟩ := get s₂ text₂ args₂ (by omega) hn₂ h₂ no₂
  rw [(C77_concatenation_any_types a b args₁ args₂ hn₁ hn₂ hv₁ hv₂ suits₁ suits₂ auto₁ auto₂ hn).2, h₁, h₂]
  rfl

/-- The hypotheses are met: a sequence and an optional, behind a number. -/
example : formatStr ("a{:x}}}".toList ++ "{{{::x}{}".toList) (vargs ([(.int, .int 255)] ++
      [(.seq .int, .range [.int 10, .int 11]), (.optional .int, .none)])) =
    .ok () ("aff}".toList ++ "{[a, b]none".toList) :=
  C77_any_strings_any_types _ _ _ _ [(.int, .int 255)] [(.seq .int, .range [.int 10, .int 11]), (.optional .int, .none)] (by decide)
    (by simp [NoTuple, FTy.int]) (by simp [NoTuple, FTy.int, FTy.seq])
    (by
      intro a ha
      rw [List.mem_singleton.1 ha]
      exact .core (by unfold ValidArg; decide))
    (by
      intro a ha
      rcases List.mem_cons.1 ha with rfl | ha
      · refine .range fun v hv => ?_
        rcases List.mem_cons.1 hv with rfl | hv
        · exact .core (by unfold ValidArg; decide)
        · rw [List.mem_singleton.1 hv]
          exact .core (by unfold ValidArg; decide)
      · rw [List.mem_singleton.1 ha]
        exact .none)
    (by
      intro a b d h
      rcases a with _ | ⟨x0, _ | ⟨x1, _ | ⟨x2, _ | ⟨x3, _ | ⟨x4, _ | ⟨x5, _ | ⟨x6, a⟩⟩⟩⟩⟩⟩⟩ <;> simp at h
      rw [← h.2.1]; decide)
    (by
      intro a b d h
      rcases a with _ | ⟨x0, _ | ⟨x1, _ | ⟨x2, _ | ⟨x3, _ | ⟨x4, _ | ⟨x5, _ | ⟨x6, _ | ⟨x7, _ | ⟨x8, _ | ⟨x9, a⟩⟩⟩⟩⟩⟩⟩⟩⟩⟩ <;>
        simp at h
      · rw [← h.1]; decide
      · rw [← h.2.1]; decide
      · rw [← h.2.2.1]; decide
      · rw [← h.2.2.2.2.2.2.2.1]; decide)
    (by decide +kernel) (by decide +kernel)

/-- `"{0}/{1::x}"`. -/
def numberAndList : FormatText := ⟨[([], ⟨['0'], false, ['}']⟩), (['/'], ⟨['1'], true, ":x}".toList⟩)], []⟩

/-- It suits a number and a sequence; the arguments can be exchanged. -/
example : numberAndList.SuitsTypes [.int, .seq .int] ∧ numberAndList.Explicit ∧ numberAndList.text = "{0}/{1::x}".toList ∧
    (numberAndList.renumber (1 - ·)).text = "{1}/{0::x}".toList ∧
    formatStr "{0}/{1::x}".toList (vargs [(.int, .int 5), (.seq .int, .range [.int 10, .int 11])]) = .ok () "5/[a, b]".toList ∧
    formatStr "{1}/{0::x}".toList (vargs [(.seq .int, .range [.int 10, .int 11]), (.int, .int 5)]) = .ok () "5/[a, b]".toList := by
  have hsp : ∀ c : Option Char, (∀ d ∈ c, d.isAlpha ∨ d = '?') → SpecText.WellFormed { type := c } := fun c hc =>
    ⟨by simp, by simp, by simp, by simp, by simp, by simp, hc⟩
  have hpass : ∀ c : Option Char, SpecText.NumbersPass { type := c } := fun c =>
    ⟨passes_small (ds := []) (by decide +kernel), by simp⟩
  refine ⟨suits_of (by decide) (by decide) (Or.inr ?_) ?_ ?_, ?_, by decide +kernel, by decide +kernel, by decide +kernel,
    by decide +kernel⟩
  · unfold FormatText.Explicit; decide
  · intro k hk
    have : k = 0 ∨ k = 1 := by simp at hk; omega
    rcases this with rfl | rfl
    · exact ⟨0, _, rfl, by decide⟩
    · exact ⟨1, _, rfl, by decide⟩
  · intro i f hf
    match i with
    | 0 =>
      simp [numberAndList, FormatText.fields] at hf
      subst hf
      exact ⟨.int, rfl, [], rfl, by simp, TypeAccepts.core (sp := {}) (hsp _ (by decide)) (hpass _) (by
        simp [CoreTy.Allows, SpecText.ForInteger, SpecText.reduced])⟩
    | 1 =>
      simp [numberAndList, FormatText.fields] at hf
      subst hf
      exact ⟨.seq .int, rfl, ":x".toList, by decide, by simp, TypeAccepts.elements (n := false)
        (TypeAccepts.core (sp := { type := 'x' }) (hsp _ (by decide)) (hpass _) (by
          simp [CoreTy.Allows, SpecText.ForInteger, SpecText.reduced]; decide))⟩
    | i + 2 => simp [numberAndList, FormatText.fields] at hf
  · unfold FormatText.Explicit; decide

end Emio
