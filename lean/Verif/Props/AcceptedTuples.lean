import Verif.Props.AnyTypes
/-
Property C63 for tuples: which strings are accepted does not follow the grammar any more.
-/
namespace Emio
open Reader Spec BufferImpl

/-- The property for arguments of all types: an accepted string is a format string that suits the arguments
(without numbers, see `C63_accepted_violated`). -/
def AcceptedSuitValues : Prop :=
  ∀ (str : Str) (args : List (FTy × FVal)), args.length ≤ 128 → (∀ a ∈ args, HasType a.2 a.1) → (∀ c ∈ str, c.isDigit = false) →
    validateStr str (vargs args) = .ok () true → ∃ t : FormatText, str = t.text ∧ t.SuitsValues args

/-- The other direction: a format string that suits the arguments is accepted. -/
def SuitingAreAccepted : Prop :=
  ∀ (t : FormatText) (args : List (FTy × FVal)), t.SuitsValues args → validateStr t.text (vargs args) = .ok () true

/-- A tuple with one element. -/
def aSingle : FTy × FVal := (.tuple false [.int], .tuple [.int 1])

theorem aSingle_typed : HasType aSingle.2 aSingle.1 := by
  refine HasType.tuple rfl ?_
  intro i v t hv ht
  rcases i with _ | i
  · cases hv; cases ht; exact HasType.core ⟨by decide, by decide⟩
  · simp at hv

/-- A format string does not end with `}{`. -/
theorem text_end {t : FormatText} (hb : ∀ f ∈ t.fields, ∃ s, f.body = s ++ ['}']) (pre : Str) : t.text ≠ pre ++ ['}', '{'] := by
  intro h
  unfold FormatText.text at h
  rcases List.eq_nil_or_concat t.last with hl | ⟨l, c, hl⟩
  · rcases List.eq_nil_or_concat t.segs with hs | ⟨ss, s, hs⟩
    · rw [hl, hs] at h
      simp [escBraces] at h
    · obtain ⟨x, hx⟩ := hb s.2 (by unfold FormatText.fields; rw [hs]; simp)
      rw [hl, hs] at h
      simp only [List.concat_eq_append, List.flatMap_append, List.flatMap_cons, List.flatMap_nil, escBraces, List.append_nil,
        Field.text, hx] at h
      have := congrArg List.getLast? h
      rw [← List.cons_append, ← List.append_assoc, ← List.append_assoc, ← List.append_assoc, ← List.append_assoc, List.getLast?_concat] at this
      simp at this
  · rw [hl] at h
    simp only [List.concat_eq_append, escBraces, List.flatMap_append, List.flatMap_cons, List.flatMap_nil, List.append_nil] at h
    have h' := congrArg List.reverse h
    simp only [List.reverse_append, List.reverse_cons, List.reverse_nil, List.nil_append] at h'
    split at h'
    · simp at h'
    · split at h'
      · simp at h'
      · rename_i h1 h2
        simp at h'
        exact h1 h'.1

/-- Neither holds: behind a tuple, `{::d}{` goes without a closing brace, as the brace is skipped; and `{::d} {}` is refused,
as its second field is skipped. -/
theorem C63_tuples_violated : ¬ AcceptedSuitValues ∧ ¬ SuitingAreAccepted := by
  constructor
  · intro h
    obtain ⟨t, ht, hs⟩ := h "{::d}{".toList [aSingle] (by decide)
      (by intro a ha; obtain rfl := List.mem_singleton.1 ha; exact aSingle_typed) (by decide) (by decide +kernel)
    refine text_end (t := t) ?_ "{::d".toList ht.symm
    intro f hf
    obtain ⟨i, hi⟩ := List.getElem?_of_mem hf
    obtain ⟨a, _, s, h1, _⟩ := hs.taken i f hi
    exact ⟨s, h1⟩
  · intro h
    have := h ⟨[([], ⟨[], true, ":d}".toList⟩), ([' '], ⟨[], false, ['}']⟩)], []⟩ [aSingle, (.int, .int 2)] ⟨by decide, ?_, ?_, ?_, ?_, ?_⟩
    · have h2 : validateStr "{::d} {}".toList (vargs [aSingle, (.int, .int 2)]) = .ok () false := by decide +kernel
      have h3 : validateStr "{::d} {}".toList (vargs [aSingle, (.int, .int 2)]) = .ok () true := this
      rw [h2] at h3
      exact absurd (ok_inj h3).2 (by decide)
    · intro a ha
      simp only [List.mem_cons, List.not_mem_nil, or_false] at ha
      rcases ha with rfl | rfl
      · exact aSingle_typed
      · exact HasType.core ⟨by decide, by decide⟩
    · intro f hf
      simp [FormatText.fields] at hf
      rcases hf with rfl | rfl <;> simp
    · exact Or.inl (by intro f hf; simp [FormatText.fields] at hf; rcases hf with rfl | rfl <;> rfl)
    · intro k
      simp [FormatText.arguments, FormatText.fields, Field.argument]
      omega
    · intro i f hf
      rcases i with _ | _ | i
      · simp [FormatText.fields] at hf
        subst hf
        refine ⟨aSingle, rfl, ":d".toList, rfl, by simp, ?_⟩
        refine Takes.tuple (n := false) (elem := some ['d']) ?_ (by simp)
        intro t ht
        obtain rfl := List.mem_singleton.1 ht
        exact Takes.core (sp := { type := some 'd' })
          ⟨by simp, by simp, by simp, by simp, by simp, by simp, by decide⟩ (by unfold SpecText.Fits; decide)
          ⟨⟨rfl, by decide⟩, Or.inl rfl⟩
      · simp [FormatText.fields] at hf
        subst hf
        exact ⟨_, rfl, [], rfl, fun _ => rfl, takes_nil _⟩
      · simp [FormatText.fields] at hf

end Emio
