import Verif.Lemmas.TupleLoss
import Verif.Props.TupleSkip
import Verif.Props.Outputs
/-
What is lost behind fields with tuples, wherever they are (property C54).
-/
namespace Emio
open Reader Spec

theorem readsLosing_of {args : List FArg} {k : Nat} {src last : Str} : ∀ (segs : List (Str × Field)) (ls : List Nat)
    (ts : List Str) (i : Nat), ls.length = segs.length → ts.length = segs.length →
    (∀ (j : Nat) (s : Str × Field) (l : Nat) (text : Str), segs[j]? = some s → ls[j]? = some l → ts[j]? = some text →
      ∃ a, args[s.2.argument (i + j)]? = some a ∧ ∀ r : Reader, r.src = src →
        r.At (s.2.body ++ restAt 0 (segs.drop (j + 1)) last) →
        ∃ rp act, a.parse r = .ok rp act ∧ Emits act text k ∧ rp.src = src ∧ rp.At (restAt l (segs.drop (j + 1)) last)) →
    ReadsLosing args k src last i segs ls ts := by
  intro segs
  induction segs with
  | nil =>
    intro ls ts i h1 h2 _
    obtain rfl := List.eq_nil_of_length_eq_zero h1
    obtain rfl := List.eq_nil_of_length_eq_zero h2
    trivial
  | cons s segs ih =>
    intro ls ts i h1 h2 h
    cases ls with
    | nil => simp at h1
    | cons l ls =>
      cases ts with
      | nil => simp at h2
      | cons t ts =>
        rw [ReadsLosing]
        refine ⟨h 0 s l t rfl rfl rfl, ih ls ts (i + 1) (by simpa using h1) (by simpa using h2) ?_⟩
        intro j s' l' t' hs hl ht
        have := h (j + 1) s' l' t' (by simpa using hs) (by simpa using hl) (by simpa using ht)
        rw [show i + 1 + j = i + (j + 1) by omega]
        exact this

theorem restAt_drop {segs : List (Str × Field)} {last : Str} {n : Nat} (h : n = 0 ∨
    ('{' ∉ (segs.head?.map (·.1)).getD last ∧ '}' ∉ (segs.head?.map (·.1)).getD last ∧
      (segs ≠ [] → n ≤ ((segs.head?.map (·.1)).getD last).length))) :
    (restAt 0 segs last).drop n = restAt n segs last := by
  rcases h with rfl | ⟨h1, h2, h3⟩
  · rfl
  · cases segs with
    | nil =>
      simp only [List.head?_nil, Option.map_none, Option.getD_none] at h1 h2
      simp only [restAt, List.drop_zero]
      rw [drop_plain h1 h2, escBraces_plain h1 h2]
    | cons s segs =>
      simp only [List.head?_cons, Option.map_some, Option.getD_some] at h1 h2 h3
      have h3 := h3 (by simp)
      simp only [restAt, List.drop_zero]
      rw [drop_plain h1 h2, escBraces_plain h1 h2, List.append_assoc, List.append_assoc,
        List.drop_append_of_le_length h3]

/-- C54: what is lost, for every accepted string, any number of fields, any types and any nesting of tuples, as long as the
text behind every field with a tuple has no braces and is long enough: as many characters as `lost` says.  Everything else
is as it should be, for all functions that format into memory. -/
theorem C54_lost_exactly (t : FormatText) (args : List (FTy × FVal)) (texts : List Str) (losses : List Nat)
    (suits : t.SuitsValues args) (alone : t.AloneTexts args texts) (loses : t.Losses args losses)
    (accepted : validateStr t.text (vargs args) = .ok () true) :
    InMemory t.text (vargs args) ((t.losing losses).output texts) := by
  obtain ⟨hl, hal⟩ := alone
  have wf : ∀ s ∈ t.segs, s.2.WellFormed := by
    intro s hs
    have hf : s.2 ∈ t.fields := List.mem_map_of_mem hs
    refine ⟨suits.digits s.2 hf, fun hc => ?_⟩
    obtain ⟨i, hi⟩ := List.getElem?_of_mem hf
    obtain ⟨a, _, s', hb, hs, _⟩ := suits.taken i s.2 hi
    rw [hb, hs hc]
    rfl
  have hfl : t.fields.length = t.segs.length := by simp [FormatText.fields]
  by_cases hne : args = []
  · subst hne
    have h0 : t.fields = [] := by
      cases hx : t.fields with
      | nil => rfl
      | cons f fs =>
        obtain ⟨a, ha, _⟩ := suits.taken 0 f (by rw [hx]; rfl)
        simp at ha
    have h1 : t.segs = [] := by rw [h0] at hfl; exact List.eq_nil_of_length_eq_zero hfl.symm
    have h2 : losses = [] := by
      have := loses.number
      rw [h0] at this
      exact List.eq_nil_of_length_eq_zero this
    have h3 := values_format suits ⟨hl, hal⟩ (by
      intro i f a hf
      rw [h0] at hf
      simp at hf)
    have h4 : (t.losing losses).output texts = t.output texts := by
      obtain ⟨segs, last⟩ := t
      simp only at h1
      subst h1 h2
      rfl
    rw [h4]
    exact h3.inMemory
  · refine (formats_losing t (vargs args) texts losses 1421 (by simpa [vargs] using suits.number) wf suits.mode
      (by simpa [vargs] using fun k hk => (suits.arguments k).1 hk) ?_ accepted (by simpa [vargs] using hne)).inMemory
    refine readsLosing_of _ _ _ _ (by rw [loses.number, hfl]) (by rw [hl, hfl]) ?_
    intro j s l text hs hlj htj
    rw [Nat.zero_add]
    have hf : t.fields[j]? = some s.2 := by simp [FormatText.fields, hs]
    obtain ⟨a, ha, sp, hb, _, hta⟩ := suits.taken j s.2 hf
    obtain ⟨a', ha', hal2⟩ := hal j s.2 text hf htj
    rw [ha] at ha'
    obtain rfl := Option.some.inj ha'
    have hty := suits.typed a (List.mem_of_getElem? ha)
    refine ⟨a.2.farg a.1, by simp [vargs, ha], fun r hsrc hat => ?_⟩
    have hpos := hat.pos
    have hat' : r.At (sp ++ '}' :: restAt 0 (t.segs.drop (j + 1)) t.last) := by
      rw [hb] at hat
      simpa using hat
    rw [hb] at hal2
    obtain ⟨rp, act, h1, h2, h3, h4⟩ := value_parsesTo coreEmits_written (by decide) hty hta ((alone_iff hty hta).1 hal2) r _ hat'
    refine ⟨rp, act, h1, h2, by rw [h3, hsrc], ?_⟩
    have htext : t.text.length = (FormatText.mk (t.segs.take (j + 1)) []).text.length +
        (restAt 0 (t.segs.drop (j + 1)) t.last).length := by
      rw [restAt_zero]
      conv => lhs; rw [show t.text = segsText t.segs ++ escBraces t.last from rfl, ← List.take_append_drop (j + 1) t.segs]
      rw [segsText_append]
      show _ = (segsText (t.segs.take (j + 1)) ++ escBraces []).length + _
      simp [escBraces]
    have hlost := loses.lost j s.2 a sp l hf ha hb hlj
    rw [show r.pos = t.specAt j s.2 by
      unfold FormatText.specAt
      rw [hsrc, List.length_append] at hpos
      omega, ← hlost, restAt_drop] at h4
    · exact h4
    · by_cases hl0 : l = 0
      · exact Or.inl hl0
      · obtain ⟨g1, g2, g3⟩ := loses.room j l hlj hl0
        have hh : ((t.segs.drop (j + 1)).head?.map (·.1)).getD t.last = t.textBehind j := by
          rw [List.head?_drop]
          rfl
        rw [hh]
        refine Or.inr ⟨g1, g2, fun hx => g3 ?_⟩
        rw [hfl]
        by_contra hc
        exact hx (List.drop_eq_nil_of_le (by omega))

/-- Two pairs, with text behind both. -/
def twoPairsText : FormatText := ⟨[(['a'], ⟨[], false, ['}']⟩), ("bcdefg".toList, ⟨[], false, ['}']⟩)], "hijklmnopqrst".toList⟩

/-- Two characters are lost behind the first one, ten behind the second one. -/
example : InMemory "a{}bcdefg{}hijklmnopqrst".toList (vargs [aPair, aPair]) "a(1, 2)defg(1, 2)rst".toList := by
  refine C54_lost_exactly twoPairsText [aPair, aPair] ["(1, 2)".toList, "(1, 2)".toList] [2, 10] ?_ ?_ ?_ (by decide +kernel)
  · refine ⟨by decide, ?_, ?_, ?_, ?_, ?_⟩
    · intro a ha; simp at ha; subst ha; exact aPair_typed
    · intro f hf; simp [twoPairsText, FormatText.fields] at hf; subst hf; simp
    · exact Or.inl (by intro f hf; simp [twoPairsText, FormatText.fields] at hf; subst hf; rfl)
    · intro k; simp [twoPairsText, FormatText.arguments, FormatText.fields, Field.argument]; omega
    · intro i f hf
      rcases i with _ | _ | i
      · simp [twoPairsText, FormatText.fields] at hf
        subst hf
        exact ⟨aPair, rfl, [], rfl, fun _ => rfl, takes_nil _⟩
      · simp [twoPairsText, FormatText.fields] at hf
        subst hf
        exact ⟨aPair, rfl, [], rfl, fun _ => rfl, takes_nil _⟩
      · simp [twoPairsText, FormatText.fields] at hf
  · refine ⟨rfl, ?_⟩
    intro i f text hf ht
    rcases i with _ | _ | i
    · simp [twoPairsText, FormatText.fields] at hf
      subst hf; cases ht
      exact ⟨aPair, rfl, by decide +kernel⟩
    · simp [twoPairsText, FormatText.fields] at hf
      subst hf; cases ht
      exact ⟨aPair, rfl, by decide +kernel⟩
    · simp [twoPairsText, FormatText.fields] at hf
  · refine ⟨rfl, ?_, ?_⟩
    · intro i f a s n hf ha hb hn
      rcases i with _ | _ | i
      · simp [twoPairsText, FormatText.fields] at hf
        subst hf; cases ha; cases hn
        have : s = [] := by cases s <;> simp_all
        subst this
        decide
      · simp [twoPairsText, FormatText.fields] at hf
        subst hf; cases ha; cases hn
        have : s = [] := by cases s <;> simp_all
        subst this
        decide
      · simp [twoPairsText, FormatText.fields] at hf
    · intro i n hn _
      rcases i with _ | _ | i
      · cases hn; decide
      · cases hn; decide
      · simp at hn

end Emio
