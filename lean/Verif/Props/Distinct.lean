import Verif.Lemmas.Distinct
import Verif.Props.Values
/-
Property C82: the default text tells values apart.
-/
namespace Emio
open Spec

/-- The property: values of the same type (without variants and NaNs) that `{}` makes the same text of are equal. -/
def TextsTellValuesApart : Prop :=
  ∀ (ty : FTy) (v w : FVal), NoVariant ty → HasType v ty → HasType w ty → NoNaN v → NoNaN w → ∀ text,
    formatStr "{}".toList [v.farg ty] = .ok () text → formatStr "{}".toList [w.farg ty] = .ok () text → v = w

/-- The strings of optionals are not quoted, so the property does not hold: two sequences of optional strings, one with a
single element, have the same text. -/
theorem C82_optional_strings_violated : ¬ TextsTellValuesApart := by
  intro h
  have hs : ∀ s : String, ValidArg (.string s.toList) → HasType (.some (.core (.string s.toList))) (.optional (.core .string)) :=
    fun s hv => .some (HasType.core (a := .string s.toList) hv)
  have hn : ∀ s : String, NoNaN (.some (.core (.string s.toList))) := fun s => .some (.core (by intro b hb; cases hb))
  have := h (.range false (.optional (.core .string)))
    (.range [.some (.core (.string "a), optional(b".toList))])
    (.range [.some (.core (.string "a".toList)), .some (.core (.string "b".toList))])
    (.range (.optional .core))
    (.range (by intro v hv; simp only [List.mem_singleton] at hv; subst hv; exact hs _ ⟨by decide, by decide⟩))
    (.range (by
      intro v hv
      simp only [List.mem_cons, List.not_mem_nil, or_false] at hv
      rcases hv with rfl | rfl
      · exact hs "a" ⟨by decide, by decide⟩
      · exact hs "b" ⟨by decide, by decide⟩))
    (.range (by intro v hv; simp only [List.mem_singleton] at hv; subst hv; exact hn _))
    (.range (by
      intro v hv
      simp only [List.mem_cons, List.not_mem_nil, or_false] at hv
      rcases hv with rfl | rfl
      · exact hn "a"
      · exact hn "b"))
    "[optional(a), optional(b)]".toList (by decide +kernel) (by decide +kernel)
  simp at this

/-- The property for variants of numbers, strings and so on (without NaNs): the text tells which alternative there is. -/
def TextsTellVariantsApart : Prop :=
  ∀ (ts : List CoreTy) (v w : FVal), HasType v (.variant (ts.map .core)) → HasType w (.variant (ts.map .core)) → NoNaN v → NoNaN w →
    ∀ text, formatStr "{}".toList [v.farg (.variant (ts.map .core))] = .ok () text →
      formatStr "{}".toList [w.farg (.variant (ts.map .core))] = .ok () text → v = w

/-- Integers and doubles may have the same text, so the property does not hold: a `variant<int, double>` of 1 and one of 1.0
are both `variant(1)`. -/
theorem C82_variants_violated : ¬ TextsTellVariantsApart := by
  intro h
  have := h [.int i32, .double] (.variant (.core (.int i32)) (.core (.int i32 1)))
    (.variant (.core .double) (.core (.double 0x3FF0000000000000)))
    (.variant (by simp) (HasType.core (a := .int i32 1) (by unfold ValidArg; decide)))
    (.variant (by simp) (HasType.core (a := .double 0x3FF0000000000000) (by unfold ValidArg; decide)))
    (.variant (.core (by intro b hb; cases hb)))
    (.variant (.core (by intro b hb; cases hb; unfold IsNaN exponentOf; decide)))
    "variant(1)".toList (by decide +kernel) (by decide +kernel)
  simp at this

/-- C82 without optional strings inside of ranges, tuples and variants, and where the alternatives of variants are of different
kinds: values of any such type, nested to any depth, that `{}` makes
the same text of are equal; and it makes a text of each of them. -/
theorem C82_values_are_told_apart_partial (ty : FTy) (telling : Telling true false ty) (v w : FVal) (hv : HasType v ty)
    (hw : HasType w ty) (nv : NoNaN v) (nw : NoNaN w) :
    ∃ t u, formatStr "{}".toList [v.farg ty] = .ok () t ∧ formatStr "{}".toList [w.farg ty] = .ok () u ∧ (t = u → v = w) := by
  have total : ∀ v, HasType v ty → ∃ t, Renders Written ty v false [] t := by
    intro v hv
    obtain ⟨_, h2⟩ := works coreEmits_written (by decide) (takes_nil ty)
    obtain ⟨f, _, _, h5⟩ := h2 none (by simp)
    rcases h5 coreTotal_written v hv with h | ⟨h, _⟩
    · exact h
    · simp at h
  obtain ⟨t, ht⟩ := total v hv
  obtain ⟨u, hu⟩ := total w hw
  refine ⟨t, u, (alone_plain_iff hv).2 ht, (alone_plain_iff hw).2 hu, ?_⟩
  rintro rfl
  exact (tells telling hv hw nv nw ht hu (r := []) (r' := []) (by simp [Delim]) (by simp [Delim]) (fun _ => rfl) rfl).1

/-- A map from strings to sequences of optional numbers, and an optional string that is not inside of anything. -/
example : Telling true false (.map (.core .string) (.seq (.optional (.core .double)))) ∧
    Telling true false (.optional (.core .string)) := by
  refine ⟨.range (.tuple ?_ (by simp)), .optional (.core (by simp))⟩
  intro t ht
  simp only [List.mem_cons, List.not_mem_nil, or_false] at ht
  rcases ht with rfl | rfl
  · exact .core (by simp)
  · exact .range (.optional (.core (by simp)))

/-- A sequence of variants of a number, a string, a sequence of truth values, nothing, or another variant. -/
example : Telling true false (.seq (.variant [.monostate, .core .double, .core .string, .seq (.core .bool),
    .variant [.core .char, .core .pointer]])) := by
  refine .range (.variant ?_ (by decide) ?_)
  · intro t ht
    simp only [List.mem_cons, List.not_mem_nil, or_false] at ht
    rcases ht with rfl | rfl | rfl | rfl | rfl
    · exact .monostate
    · exact .core (by simp)
    · exact .core (by simp)
    · exact .range (.core (by simp))
    · refine .variant ?_ (by decide) ?_
      · intro t ht
        simp only [List.mem_cons, List.not_mem_nil, or_false] at ht
        rcases ht with rfl | rfl <;> exact .core (by simp)
      · intro t ht us
        simp only [List.mem_cons, List.not_mem_nil, or_false] at ht
        rcases ht with rfl | rfl <;> simp
  · intro t ht us
    simp only [List.mem_cons, List.not_mem_nil, or_false] at ht
    rcases ht with rfl | rfl | rfl | rfl | rfl <;> simp [FTy.seq]

/-- Behind a value there may be more: elements of a range are told apart where they stand.  What stands behind them begins
with one of `,`, `)`, `]`, `}` and `:`. -/
theorem C82_elements_are_told_apart (ty : FTy) (telling : Telling false true ty) (v w : FVal) (hv : HasType v ty)
    (hw : HasType w ty) (nv : NoNaN v) (nw : NoNaN w) (t u rest rest' : Str)
    (ht : formatStr (elementField ty none) [v.farg ty] = .ok () t) (hu : formatStr (elementField ty none) [w.farg ty] = .ok () u)
    (hr : ∀ c ∈ rest.head?, c ∈ [',', ')', ']', '}', ':']) (hr' : ∀ c ∈ rest'.head?, c ∈ [',', ')', ']', '}', ':'])
    (h : t ++ rest = u ++ rest') : v = w ∧ rest = rest' := by
  have hd : ∀ r : Str, (∀ c ∈ r.head?, c ∈ [',', ')', ']', '}', ':']) → Delim r := by
    intro r h c hc
    have := h c hc
    unfold isDelim
    simp only [List.mem_cons, List.not_mem_nil, or_false] at this
    rcases this with rfl | rfl | rfl | rfl | rfl <;> decide
  exact tells telling hv hw nv nw ((element_iff (elem := none) hv (takes_nil ty)).1 ht) ((element_iff (elem := none) hw (takes_nil ty)).1 hu) (hd _ hr)
    (hd _ hr') (by simp) h

end Emio
