import Verif.Lemmas.TupleSkip
import Verif.Props.Values
/-
What is lost behind a tuple.
-/
namespace Emio
open Reader Spec

/-- Text (without braces) behind the field of a tuple with elements that are not tuples themselves: as many characters of
it are lost as the format string has in front of the specification of the elements (or in front of the closing brace,
without one).  Everything else is as it should be. -/
theorem C54_text_lost_exactly (front : List (Str × Field)) (lit : Str) (f : Field) (last : Str) (args : List (FTy × FVal))
    (texts : List Str) (suits : FormatText.SuitsValues ⟨front ++ [(lit, f)], last⟩ args)
    (alone : FormatText.AloneTexts ⟨front ++ [(lit, f)], last⟩ args texts)
    (others : ∀ (i : Nat) (s : Str × Field) (a : FTy × FVal), front[i]? = some s → args[s.2.argument i]? = some a → NoTuple a.1)
    (entry : Bool) (ts : List FTy) (v : FVal) (argument : args[f.argument front.length]? = some (.tuple entry ts, v))
    (nonempty : ts ≠ []) (flat : ∀ t ∈ ts, NoTuple t)
    (n : Bool) (elem : Option Str) (specification : f.body = rangeSpec n elem ++ ['}'])
    (noBraces : '{' ∉ last ∧ '}' ∉ last) :
    formatStr (FormatText.mk (front ++ [(lit, f)]) last).text (args.map fun a => a.2.farg a.1) =
      .ok () ((FormatText.mk (front ++ [(lit, f)])
        (last.drop ((FormatText.mk (front ++ [(lit, f)]) last).text.length - last.length - 1 - (elem.getD []).length))).output
          texts) := by
  have hfl : (FormatText.mk (front ++ [(lit, f)]) last).fields = front.map (·.2) ++ [f] := by simp [FormatText.fields]
  obtain ⟨hl, hal⟩ := alone
  rw [hfl] at hl
  rcases List.eq_nil_or_concat texts with h | ⟨texts, text, rfl⟩
  · subst h; simp at hl
  have hl' : texts.length = front.length := by simpa using hl
  have wf : ∀ s ∈ front ++ [(lit, f)], s.2.WellFormed := by
    intro s hs
    have hf : s.2 ∈ (FormatText.mk (front ++ [(lit, f)]) last).fields := List.mem_map_of_mem hs
    refine ⟨suits.digits s.2 hf, fun hc => ?_⟩
    obtain ⟨i, hi⟩ := List.getElem?_of_mem hf
    obtain ⟨a, _, s', hb, hs, _⟩ := suits.taken i s.2 hi
    rw [hb, hs hc]
    rfl
  have hfi : (FormatText.mk (front ++ [(lit, f)]) last).fields[front.length]? = some f := by simp [FormatText.fields]
  obtain ⟨a, ha, s, hb, _, hta⟩ := suits.taken _ f hfi
  rw [argument] at ha
  obtain rfl := Option.some.inj ha
  have hs : s = rangeSpec n elem := by
    rw [specification] at hb
    exact (List.append_cancel_right hb).symm
  subst hs
  have hty := suits.typed _ (List.mem_of_getElem? argument)
  have each : ∀ t ∈ ts, Spec.Takes t (elem.getD []) := by
    have : ∀ ty s, Spec.Takes ty s → ty = .tuple entry ts → s = rangeSpec n elem → ∀ t ∈ ts, Spec.Takes t (elem.getD []) := by
      intro ty s h
      cases h with
      | tuple each _ =>
        intro h1 h2
        cases h1
        obtain ⟨rfl, rfl⟩ := rangeSpec_inj h2
        exact each
      | _ => intro h; cases h
    exact this _ _ hta rfl rfl
  obtain ⟨a', ha', hal1⟩ := hal front.length f text hfi (by rw [← hl']; simp)
  rw [argument] at ha'
  obtain rfl := Option.some.inj ha'
  rw [specification] at hal1
  have hren := (alone_iff hty hta).1 hal1
  rw [List.concat_eq_append]
  refine (formats_skip front lit f last _ (v.farg (.tuple entry ts)) texts text 1421 _ (by simpa using suits.number) wf
    suits.mode (by simpa using suits.arguments) ?_ noBraces.1 noBraces.2 (by simp [argument]) ?_).str
  · refine readsSegs_of _ _ _ hl' ?_
    intro j sg t hj ht
    have hjl : j < front.length := (List.getElem?_eq_some_iff.1 hj).1
    have hf : (FormatText.mk (front ++ [(lit, f)]) last).fields[j]? = some sg.2 := by
      rw [hfl, List.getElem?_append_left (by simpa using hjl)]; simp [hj]
    obtain ⟨a, ha, s, hb, _, hta⟩ := suits.taken j sg.2 hf
    obtain ⟨a', ha', hal2⟩ := hal j sg.2 t hf (by
      rw [List.concat_eq_append, List.getElem?_append_left (by omega)]; exact ht)
    rw [ha] at ha'
    obtain rfl := Option.some.inj ha'
    have hty := suits.typed a (List.mem_of_getElem? ha)
    refine ⟨a.2.farg a.1, by simp [ha], ?_⟩
    rw [hb] at hal2 ⊢
    exact value_readsBefore coreEmits_written (by decide) hty hta ((alone_iff hty hta).1 hal2) (Or.inl (others j sg a hj ha))
  · intro r hsrc hat
    rw [specification] at hat
    have hpos := hat.pos
    rw [hsrc] at hpos
    have hat' : r.At (rangeSpec n elem ++ '}' :: last) := by simpa using hat
    have := tuple_skips coreEmits_written (by decide) nonempty flat each hty hren r last hat'
    simp only [List.length_append, List.length_cons, List.length_nil, rangeSpec_length] at hpos
    rw [show (FormatText.mk (front ++ [(lit, f)]) last).text.length - last.length - 1 - (elem.getD []).length =
      r.pos + ((if n then 1 else 0) + if elem.isSome then 1 else 0) by omega]
    exact this

/-- `ab{}cdefgh` with a pair: three characters are lost. -/
example : formatStr "ab{}cdefgh".toList [aPair.2.farg aPair.1] = .ok () "ab(1, 2)fgh".toList := by
  refine C54_text_lost_exactly [] "ab".toList ⟨[], false, ['}']⟩ "cdefgh".toList [aPair] ["(1, 2)".toList] ?_ ?_ (by simp)
    false [.int, .int] aPair.2 rfl (by simp) (by intro t ht; simp at ht; subst ht; exact trivial) false none rfl (by decide)
  · refine ⟨by decide, ?_, ?_, ?_, ?_, ?_⟩
    · intro a ha; simp at ha; subst ha; exact aPair_typed
    · intro f hf; simp [FormatText.fields] at hf; subst hf; simp
    · exact Or.inl (by intro f hf; simp [FormatText.fields] at hf; subst hf; rfl)
    · intro k; simp [FormatText.arguments, FormatText.fields, Field.argument]
    · intro i f hf
      rcases i with _ | i
      · simp [FormatText.fields] at hf
        subst hf
        exact ⟨aPair, rfl, [], rfl, fun _ => rfl, takes_nil _⟩
      · simp [FormatText.fields] at hf
  · refine ⟨rfl, ?_⟩
    intro i f text hf ht
    rcases i with _ | i
    · simp [FormatText.fields] at hf
      subst hf; cases ht
      exact ⟨aPair, rfl, by decide +kernel⟩
    · simp [FormatText.fields] at hf

end Emio
