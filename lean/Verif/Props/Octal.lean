import Verif.Lemmas.UserFormatter
import Verif.Props.Total
import Verif.Props.Accepted
/-
Property C22 again: exactly which accepted format strings fail.
-/
namespace Emio
open Spec BufferImpl

/-- The `j`-th field asks for the type `O` of a number, a boolean or a character. -/
def AsksO (t : Template) (args : List CoreArg) (j : Nat) : Prop :=
  ∃ k s a, t.format.arguments[j]? = some k ∧ t.segs[j]? = some s ∧ args[k]? = some a ∧
    (s.2.spec.getD {}).type = some 'O' ∧
    match a with
    | .bool _ | .char _ | .int _ _ => True
    | _ => False

/-- The beginning of the template, up to its `j`-th field. -/
def Spec.Template.upTo (t : Template) (j : Nat) : Template := ⟨t.segs.take j, (t.segs[j]?.map (·.1)).getD t.last⟩

/-- `texts` are what the first fields (as many as there are texts) are formatted as alone. -/
def AloneUpTo (t : Template) (args : List CoreArg) (texts : List Str) : Prop :=
  ∀ (i k : Nat) (s : Str × Hole) (text : Str), t.format.arguments[i]? = some k → t.segs[i]? = some s → texts[i]? = some text →
    ∃ a : CoreArg, args[k]? = some a ∧ formatStr (Template.single s.2.spec).text [a.farg] = .ok () text

theorem octal_of_asks {t : Template} {args : List CoreArg} {j k : Nat} {s : Str × Hole} {a : CoreArg}
    (hk : t.format.arguments[j]? = some k) (hs : t.segs[j]? = some s) (ha : args[k]? = some a) :
    AsksO t args j ↔ OctalO a s.2.specs := by
  have hty : (s.2.spec.getD {}).type = some 'O' ↔ s.2.specs.type = 'O' := by
    unfold Hole.specs SpecText.meaning
    simp only
    cases (s.2.spec.getD {}).type with
    | none => simp
    | some c => simp
  unfold AsksO OctalO
  rw [← hty]
  constructor
  · rintro ⟨k', s', a', h1, h2, h3, h4, h5⟩
    rw [hk] at h1; rw [hs] at h2
    cases h1; cases h2
    rw [ha] at h3
    cases h3
    exact ⟨h4, h5⟩
  · rintro ⟨h4, h5⟩
    exact ⟨k, s, a, hk, hs, ha, h4, h5⟩

theorem mem_zip_get {α β : Type} {l : List α} {m : List β} {i : Nat} {x : α} {y : β} (h : l[i]? = some x)
    (h' : m[i]? = some y) : (x, y) ∈ l.zip m := by
  apply List.mem_of_getElem? (i := i)
  rw [List.getElem?_zip_eq_some]
  exact ⟨h, h'⟩

/-- The texts of the first fields. -/
theorem first_texts {t : Template} {args : List CoreArg} (suits : t.Suits args) (hv : ∀ a ∈ args, ValidArg a) :
    ∀ j, j ≤ t.segs.length → (∀ i < j, ¬ AsksO t args i) → ∃ texts : List Str, texts.length = j ∧
      ∀ (i k : Nat) (s : Str × Hole) (text : Str), t.format.arguments[i]? = some k → t.segs[i]? = some s → texts[i]? = some text →
        ∃ a : CoreArg, args[k]? = some a ∧ a.farg.Reads s.2.field.body text 1421 := by
  intro j
  induction j with
  | zero => intro _ _; exact ⟨[], rfl, by simp⟩
  | succ j ih =>
    intro hj hno
    obtain ⟨texts, h1, h2⟩ := ih (by omega) fun i hi => hno i (by omega)
    have hlt : j < t.segs.length := by omega
    have hlk : j < t.format.arguments.length := by rw [arguments_length]; exact hlt
    have hs : t.segs[j]? = some t.segs[j] := List.getElem?_eq_getElem hlt
    have hk : t.format.arguments[j]? = some t.format.arguments[j] := List.getElem?_eq_getElem hlk
    obtain ⟨a, ha, hal⟩ := suits.allowed _ (mem_zip_get hk hs)
    obtain ⟨text, ht⟩ := hole_reads_some a t.segs[j].2 (suits.grammar t.segs[j] (List.getElem_mem _)) hal
      (hv a (List.mem_of_getElem? ha)) (fun hO => hno j (by omega) ((octal_of_asks hk hs ha).2 hO))
    refine ⟨texts ++ [text], by simp [h1], fun i k s x hik his hix => ?_⟩
    by_cases hi : i < j
    · rw [List.getElem?_append_left (by omega)] at hix
      exact h2 i k s x hik his hix
    · have hij : i = j := by
        have := (List.getElem?_eq_some_iff.1 hix).1
        simp [h1] at this
        omega
      subst hij
      rw [hk] at hik; rw [hs] at his
      rw [← h1, List.getElem?_append_right (Nat.le_refl _)] at hix
      simp at hix
      cases hik; cases his; subst hix
      exact ⟨a, ha, ht⟩

theorem arguments_get (t : Template) (i : Nat) :
    t.format.arguments[i]? = t.segs[i]?.map (·.2.field.argument i) := by
  rw [argsFrom_eq, argsFrom_at, template_fields]
  simp only [List.getElem?_map, Option.map_map, Nat.zero_add]
  rfl

theorem readsAll_first {t : Template} {args : List CoreArg} {texts : List Str} {j kk : Nat} (hl : texts.length = j)
    (hj : j ≤ t.segs.length)
    (h : ∀ (i k : Nat) (s : Str × Hole) (text : Str), t.format.arguments[i]? = some k → t.segs[i]? = some s →
      texts[i]? = some text → ∃ a : CoreArg, args[k]? = some a ∧ a.farg.Reads s.2.field.body text kk) :
    ReadsAll (fargs args) kk 0 ((t.format.segs.take j).map (·.2)) texts := by
  apply readsAll_of
  · simp [Template.format, hl]; omega
  · intro x hx
    obtain ⟨i, hi⟩ := List.mem_iff_getElem?.1 hx
    rw [List.getElem?_zip_eq_some, List.getElem?_zip_eq_some, argsFrom_at] at hi
    obtain ⟨⟨h1, h2⟩, h3⟩ := hi
    have hij : i < j := by rw [← hl]; exact (List.getElem?_eq_some_iff.1 h3).1
    rw [List.getElem?_map, List.getElem?_take_of_lt hij] at h1 h2
    simp only [Template.format, List.getElem?_map] at h1 h2
    cases hs : t.segs[i]? with
    | none => rw [hs] at h2; simp at h2
    | some s =>
      rw [hs] at h1 h2
      simp only [Option.map_some, Option.some.injEq, Nat.zero_add] at h1 h2
      obtain ⟨a, ha, hr⟩ := h i x.1.1 s x.2 (by rw [arguments_get, hs, ← h1]; simp) hs h3
      exact ⟨a.farg, by simp [fargs, ha], by rw [← h2]; exact hr⟩

/-- Which of the accepted format strings succeed: those that ask for the type `O` nowhere.  Every function then delivers
the text with the fields replaced by what they are alone. -/
theorem C22_without_O_succeeds (t : Template) (args : List CoreArg) (suits : t.Suits args) (hv : ∀ a ∈ args, ValidArg a)
    (hO : ∀ j, ¬ AsksO t args j) :
    ∃ texts : List Str, texts.length = t.segs.length ∧ AloneUpTo t args texts ∧
      Delivers t.text (fargs args) (t.output texts) none := by
  obtain ⟨texts, h1, h2⟩ := first_texts suits hv t.segs.length (Nat.le_refl _) fun i _ => hO i
  refine ⟨texts, h1, fun i k s text hk hs ht => ?_, ?_⟩
  · obtain ⟨a, ha, hr⟩ := h2 i k s text hk hs ht
    exact ⟨a, ha, (formats_single hr).str⟩
  have hr := readsAll_first h1 (Nat.le_refl _) h2
  rw [List.take_of_length_le (by simp [Template.format])] at hr
  have hf := (formats_text t.format (fargs args) texts 1421 (by simpa [fargs] using suits.number) (by
    intro f hf
    rw [template_fields, List.mem_map] at hf
    obtain ⟨s, hs, rfl⟩ := hf
    exact field_wellFormed (suits.digits s hs)) suits.mode (by simpa [fargs] using suits.arguments) hr).str
  obtain ⟨text, fail, hd, _⟩ := C71_core t.text args suits.number hv
  have := hd.format
  have hf : formatStr t.text (fargs args) = .ok () (t.output texts) := hf
  rw [hf] at this
  cases fail with
  | some => cases this
  | none =>
    injection this with _ this
    rw [this]
    exact hd

/-- Which of the accepted format strings fail: those that ask for the type `O` somewhere.  Every function then delivers
the text up to the first such field and says `invalid_format`. -/
theorem C22_with_O_fails (t : Template) (args : List CoreArg) (suits : t.Suits args) (hv : ∀ a ∈ args, ValidArg a)
    (j : Nat) (hO : AsksO t args j) (first : ∀ i < j, ¬ AsksO t args i) :
    ∃ texts : List Str, texts.length = j ∧ AloneUpTo t args texts ∧
      Delivers t.text (fargs args) ((t.upTo j).output texts) (some .invalidFormat) := by
  obtain ⟨k, s, a, hk, hs, ha, _⟩ := id hO
  have hlt : j < t.segs.length := (List.getElem?_eq_some_iff.1 hs).1
  obtain ⟨texts, h1, h2⟩ := first_texts suits hv j (by omega) first
  refine ⟨texts, h1, fun i k s text hk hs ht => ?_, ?_⟩
  · obtain ⟨a, ha, hr⟩ := h2 i k s text hk hs ht
    exact ⟨a, ha, (formats_single hr).str⟩
  have hsplit : t.format.segs = t.format.segs.take j ++ [(s.1, s.2.field)] ++ t.format.segs.drop (j + 1) := by
    have hj : t.format.segs[j]? = some (s.1, s.2.field) := by simp [Template.format, hs]
    obtain ⟨hl, hj⟩ := List.getElem?_eq_some_iff.1 hj
    rw [← hj, List.append_assoc, List.singleton_append, List.getElem_cons_drop, List.take_append_drop]
  have hfields : t.format.fields = (t.format.segs.take j ++ [(s.1, s.2.field)]).map (·.2) ++
      (t.format.segs.drop (j + 1)).map (·.2) := by
    show t.format.segs.map (·.2) = _
    rw [← List.map_append, ← hsplit]
  have htext : t.text = segsText (t.format.segs.take j ++ [(s.1, s.2.field)]) ++
      (segsText (t.format.segs.drop (j + 1)) ++ escBraces t.last) := by
    show segsText t.format.segs ++ escBraces t.last = _
    rw [← List.append_assoc]
    congr 1
    unfold segsText
    rw [← List.flatMap_append, ← hsplit]
  have hmode : ModeOk none t.format.fields := by
    rcases suits.mode with h | h
    · exact Or.inl ⟨h, by simp⟩
    · exact Or.inr ⟨h, by simp⟩
  have hgram : (s.2.spec.getD {}).WellFormed ∧ (s.2.spec.getD {}).Fits := by
    cases hsp : s.2.spec with
    | none => exact noSpec_ok
    | some sp => exact suits.grammar s (List.mem_of_getElem? hs) sp hsp
  have hjl : (t.format.segs.take j).length = j := by simp [Template.format]; omega
  have hkj : k = s.2.field.argument j := by
    rw [arguments_get, hs] at hk
    simpa using hk.symm
  have hbody : s.2.field.body = (s.2.spec.getD {}).text ++ ['}'] := by
    unfold Hole.field
    cases s.2.spec <;> rfl
  obtain ⟨st, new, g1, g2, g3, g4⟩ := loop_stops (fargs args) (by simpa [fargs] using suits.number) 1421
    (segsText (t.format.segs.drop (j + 1)) ++ escBraces t.last) s.1 s.2.field [] .invalidFormat (t.format.segs.take j) texts
    (t.text.length + 1) ⟨Reader.ofStr t.text, none, 0⟩ [] (by rw [← htext]; exact Reader.at_ofStr _)
    (by
      have := segs_length_le t.format
      have h' : t.format.segs.length = t.segs.length := by simp [Template.format]
      have ht : t.text = t.format.text := rfl
      rw [ht]
      omega)
    (by
      intro x hx
      have hx' : x.2 ∈ t.format.fields := by
        rw [hfields]
        exact List.mem_append_left _ (List.mem_map_of_mem hx)
      rw [template_fields, List.mem_map] at hx'
      obtain ⟨y, hy, hyx⟩ := hx'
      rw [← hyx]
      exact field_wellFormed (suits.digits y hy))
    (by
      rw [hfields] at hmode
      rcases hmode with ⟨h, h'⟩ | ⟨h, h'⟩
      · exact Or.inl ⟨fun f hf => h f (List.mem_append_left _ hf), h'⟩
      · exact Or.inr ⟨fun f hf => h f (List.mem_append_left _ hf), h'⟩)
    (by
      intro n hn
      obtain ⟨i, hi⟩ := List.mem_iff_getElem?.1 hn
      rw [argsFrom_at] at hi
      have : n ∈ t.format.arguments := by
        rw [argsFrom_eq, hfields]
        refine List.mem_of_getElem? (i := i) ?_
        rw [argsFrom_at, List.getElem?_append_left, hi]
        by_contra hge
        rw [List.getElem?_eq_none (by omega)] at hi
        simp at hi
      simpa [fargs] using (suits.arguments n).1 this)
    (readsAll_first h1 (by omega) h2)
    ⟨a.farg, by
      simp only [hjl, Nat.zero_add]
      rw [← hkj]
      simp [fargs, ha], by
      rw [hbody]
      exact core_balks a _ hgram.1 hgram.2 ((octal_of_asks hk hs ha).1 hO)⟩
  have hval := template_validates suits
  have hp : ¬ ((fargs args).length = 0 ∧ checkIfPlainString t.text = true) := by
    rintro ⟨hp, _⟩
    have h0 : args = [] := by simpa [fargs] using hp
    rw [h0] at ha
    simp at ha
  have hset := settled_of_stop hval hp g1 (by rw [g2]; exact fun op ho => g4 op (by simpa using ho))
  have hout : render st.ops = (t.upTo j).output texts := by
    rw [g2, List.nil_append, g3, List.append_nil]
    unfold Template.output Template.format FormatText.output Spec.Template.upTo segsOut
    simp [hs]
  rw [hout] at hset
  exact hset.delivers

/-- In short: an accepted format string fails exactly if it asks for the type `O` somewhere. -/
theorem C22_fails_iff_O (t : Template) (args : List CoreArg) (suits : t.Suits args) (hv : ∀ a ∈ args, ValidArg a) :
    ((∃ text, formatStr t.text (fargs args) = .ok () text) ↔ ∀ j, ¬ AsksO t args j) ∧
    (formatStr t.text (fargs args) = .err () .invalidFormat ↔ ∃ j, AsksO t args j) := by
  by_cases hO : ∃ j, AsksO t args j
  · classical
    obtain ⟨texts, _, _, hd⟩ := C22_with_O_fails t args suits hv (Nat.find hO) (Nat.find_spec hO)
      fun i hi => Nat.find_min hO hi
    have hf := hd.format
    simp only [ended] at hf
    rw [hf]
    exact ⟨⟨fun ⟨_, h⟩ => (by cases h), fun h => absurd hO (by simpa using h)⟩, ⟨fun _ => hO, fun _ => rfl⟩⟩
  · have hno : ∀ j, ¬ AsksO t args j := by simpa using hO
    obtain ⟨texts, _, _, hd⟩ := C22_without_O_succeeds t args suits hv hno
    have hf := hd.format
    simp only [ended] at hf
    rw [hf]
    exact ⟨⟨fun _ => hno, fun _ => ⟨_, rfl⟩⟩, ⟨fun h => (by cases h), fun h => absurd h hO⟩⟩

/-- `"a{}b{:O}"`. -/
def octalExample : Template := ⟨[(['a'], ⟨[], none⟩), (['b'], ⟨[], some { type := 'O' }⟩)], []⟩

/-- The second field of it is the first one that asks for `O`; formatting fails, and a memory buffer has got `a7b`. -/
example : octalExample.text = "a{}b{:O}".toList ∧ AsksO octalExample [.int i32 7, .int i32 8] 1 ∧
    ¬ AsksO octalExample [.int i32 7, .int i32 8] 0 ∧
    (octalExample.upTo 1).output ["7".toList] = "a7b".toList ∧
    (formatStr octalExample.text (fargs [.int i32 7, .int i32 8])).err? = some .invalidFormat := by
  refine ⟨by decide +kernel, ⟨1, _, _, by decide +kernel, rfl, rfl, rfl, trivial⟩, ?_, by decide +kernel, by decide +kernel⟩
  rw [octal_of_asks (k := 0) (s := (['a'], ⟨[], none⟩)) (a := .int i32 7) (by decide +kernel) rfl rfl]
  rintro ⟨h, _⟩
  exact absurd h (by decide)

/-- It suits the arguments. -/
example : octalExample.Suits [.int i32 7, .int i32 8] := by
  refine ⟨by decide, by simp [octalExample], ?_, ?_, ?_, ?_⟩
  · simp only [octalExample, List.mem_cons, List.not_mem_nil, or_false]
    rintro s (rfl | rfl) sp hsp
    · simp at hsp
    · simp only [Option.mem_def, Option.some.injEq] at hsp
      subst hsp
      exact ⟨⟨by simp, by simp, by simp, by simp, by simp, by simp, by simp⟩, by decide +kernel, by decide +kernel⟩
  · left
    simp [FormatText.Automatic, FormatText.fields, Template.format, octalExample, Hole.field]
  · intro k
    simp [FormatText.arguments, FormatText.fields, Template.format, octalExample, Hole.field, Field.argument]
    omega
  · simp [FormatText.arguments, FormatText.fields, Template.format, octalExample, Hole.field, Field.argument,
      CoreArg.ty, CoreTy.Allows, SpecText.ForInteger]
    decide

end Emio
