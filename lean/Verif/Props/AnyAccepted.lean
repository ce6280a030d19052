import Verif.Props.Octal
import Verif.Props.WideNumbers
/-
Properties C22 and C24 for every accepted format string: with widths and precisions of any size and with ignored text
behind a field for argument number 255.
-/
namespace Emio
open Spec BufferImpl

theorem asks_reduced (t : Template) (args : List CoreArg) (j : Nat) : AsksO t.reduced args j ↔ AsksO t args j := by
  have hty : ∀ h : Hole, (h.reduced.spec.getD {}).type = (h.spec.getD {}).type := by
    intro h; rw [hole_reduced_spec]; rfl
  have hsegs : ∀ s, t.reduced.segs[j]? = some s ↔ ∃ s', t.segs[j]? = some s' ∧ (s'.1, s'.2.reduced) = s := by
    intro s; simp [Template.reduced]
  unfold AsksO
  rw [reduced_arguments]
  constructor
  · rintro ⟨k, s, a, h1, h2, h3, h4, h5⟩
    obtain ⟨s', h6, rfl⟩ := (hsegs s).1 h2
    exact ⟨k, s', a, h1, h6, h3, by rw [← hty]; exact h4, h5⟩
  · rintro ⟨k, s, a, h1, h2, h3, h4, h5⟩
    exact ⟨k, (s.1, s.2.reduced), a, h1, (hsegs _).2 ⟨s, h2, rfl⟩, h3, by rw [hty]; exact h4, h5⟩

theorem first_texts_wide {t : Template} {args : List CoreArg} (pass : t.NumbersPass) (suits : t.reduced.Suits args)
    (hv : ∀ a ∈ args, ValidArg a) (j : Nat) (hj : j ≤ t.segs.length) (hO : ∀ i < j, ¬ AsksO t args i) :
    ∃ texts : List Str, texts.length = j ∧
      ∀ (i k : Nat) (s : Str × Hole) (text : Str), t.format.arguments[i]? = some k → t.segs[i]? = some s →
        texts[i]? = some text → ∃ a : CoreArg, args[k]? = some a ∧ a.farg.Reads s.2.field.body text 1421 := by
  obtain ⟨texts, h1, h2⟩ := first_texts suits hv j (by simpa [Template.reduced] using hj)
    fun i hi h => hO i hi ((asks_reduced t args i).1 h)
  refine ⟨texts, h1, fun i k s text hk hs ht => ?_⟩
  obtain ⟨a, ha, hr⟩ := h2 i k (s.1, s.2.reduced) text (by rw [reduced_arguments]; exact hk)
    (by simp [Template.reduced, hs]) ht
  refine ⟨a, ha, ?_⟩
  obtain ⟨_, hg, _⟩ := wide_hole pass suits (mem_zip_get hk hs)
  simp only at hr hg
  rw [hole_body]
  rw [hole_body, hole_reduced_spec] at hr
  exact core_reads_wide a hg.1 hg.2 hr

theorem core_balks_wide (a : CoreArg) (t : SpecText) (wf : t.WellFormed) (hp : t.NumbersPass) (hO : OctalO a t.taken) :
    a.farg.Balks (t.text ++ ['}']) [] .invalidFormat := by
  intro r tail hat
  have hrest : r.rest = t.text ++ '}' :: tail := by simpa using hat.2
  have h2 := (specs_agree hat.1 (specs_forward_wide wf hp (u := r) ⟨hat.1, hrest⟩)).1
  have hl : (t.text ++ ['}']).length = t.text.length + 1 := by simp
  rw [hl]
  refine ⟨_, ?_, (core_refuses a _ hO).stops⟩
  show (do let s ← parseFormatSpecs {}; return a.write s : M Reader (Fmt Unit)) r = _
  rw [M.bind_ok h2]
  rfl

/-- Which of the accepted format strings succeed: those that ask for the type `O` nowhere.  Every function then delivers
the text with the fields replaced by what they are alone; ignored text adds nothing. -/
theorem C22_accepted_without_O_succeeds (t : Template) (tail : Str) (args : List CoreArg) (pass : t.NumbersPass)
    (suits : t.reduced.Suits args) (htail : tail = [] ∨ Begins255 tail ∧ t.format.Explicit)
    (hv : ∀ a ∈ args, ValidArg a) (hO : ∀ j, ¬ AsksO t args j) :
    ∃ texts : List Str, texts.length = t.segs.length ∧ AloneUpTo t args texts ∧
      Delivers (t.text ++ tail) (fargs args) (t.output texts) none := by
  obtain ⟨texts, h1, h2⟩ := first_texts_wide pass suits hv t.segs.length (Nat.le_refl _) fun i _ => hO i
  refine ⟨texts, h1, fun i k s text hk hs ht => ?_, ?_⟩
  · obtain ⟨a, ha, hr⟩ := h2 i k s text hk hs ht
    exact ⟨a, ha, (formats_single hr).str⟩
  have hr := readsAll_first h1 (Nat.le_refl _) h2
  rw [List.take_of_length_le (by simp [Template.format])] at hr
  have hf := (formats_tail t.format tail (fargs args) texts 1421 (by simpa [fargs] using suits.number) (by
    intro f hf
    rw [template_fields, List.mem_map] at hf
    obtain ⟨s, hs, rfl⟩ := hf
    exact field_wellFormed (wide_digits suits s hs)) (wide_mode suits) (by simpa [fargs] using wide_arguments suits)
    (readsSegs_of_all _ _ _ hr) htail).str
  obtain ⟨text, fail, hd, _⟩ := C71_core (t.text ++ tail) args suits.number hv
  have := hd.format
  have hf : formatStr (t.text ++ tail) (fargs args) = .ok () (t.output texts) := hf
  rw [hf] at this
  cases fail with
  | some => cases this
  | none =>
    injection this with _ this
    rw [this]
    exact hd

/-- Which of the accepted format strings fail: those that ask for the type `O` somewhere.  Every function then delivers
the text up to the first such field and says `invalid_format`. -/
theorem C22_accepted_with_O_fails (t : Template) (tail : Str) (args : List CoreArg) (pass : t.NumbersPass)
    (suits : t.reduced.Suits args) (htail : tail = [] ∨ Begins255 tail ∧ t.format.Explicit) (hv : ∀ a ∈ args, ValidArg a)
    (j : Nat) (hO : AsksO t args j) (first : ∀ i < j, ¬ AsksO t args i) :
    ∃ texts : List Str, texts.length = j ∧ AloneUpTo t args texts ∧
      Delivers (t.text ++ tail) (fargs args) ((t.upTo j).output texts) (some .invalidFormat) := by
  obtain ⟨k, s, a, hk, hs, ha, _⟩ := id hO
  have hlt : j < t.segs.length := (List.getElem?_eq_some_iff.1 hs).1
  obtain ⟨texts, h1, h2⟩ := first_texts_wide pass suits hv j (by omega) first
  refine ⟨texts, h1, fun i k s text hk hs ht => ?_, ?_⟩
  · obtain ⟨a, ha, hr⟩ := h2 i k s text hk hs ht
    exact ⟨a, ha, (formats_single hr).str⟩
  have hsplit : t.format.segs = t.format.segs.take j ++ [(s.1, s.2.field)] ++ t.format.segs.drop (j + 1) := by
    have hj : t.format.segs[j]? = some (s.1, s.2.field) := by simp [Template.format, hs]
    obtain ⟨hl, hj⟩ := List.getElem?_eq_some_iff.1 hj
    rw [← hj, List.append_assoc, List.singleton_append, List.getElem_cons_drop, List.take_append_drop]
  have hfields : t.format.fields = (t.format.segs.take j ++ [(s.1, s.2.field)]).map (·.2) ++
      (t.format.segs.drop (j + 1)).map (·.2) := by
    show t.format.segs.map (·.2) = _
    rw [← List.map_append, ← hsplit]
  have htext : t.text ++ tail = segsText (t.format.segs.take j ++ [(s.1, s.2.field)]) ++
      (segsText (t.format.segs.drop (j + 1)) ++ (escBraces t.last ++ tail)) := by
    show segsText t.format.segs ++ escBraces t.last ++ tail = _
    rw [List.append_assoc, ← List.append_assoc (segsText _) (segsText _)]
    congr 1
    unfold segsText
    rw [← List.flatMap_append, ← hsplit]
  have hmode : ModeOk none t.format.fields := by
    rcases wide_mode suits with h | h
    · exact Or.inl ⟨h, by simp⟩
    · exact Or.inr ⟨h, by simp⟩
  have hgram := (wide_hole pass suits (mem_zip_get hk hs)).2.1
  have hjl : (t.format.segs.take j).length = j := by simp [Template.format]; omega
  have hkj : k = s.2.field.argument j := by
    rw [arguments_get, hs] at hk
    simpa using hk.symm
  have hbody : s.2.field.body = (s.2.spec.getD {}).text ++ ['}'] := by
    unfold Hole.field
    cases s.2.spec <;> rfl
  obtain ⟨st, new, g1, g2, g3, g4⟩ := loop_stops (fargs args) (by simpa [fargs] using suits.number) 1421
    (segsText (t.format.segs.drop (j + 1)) ++ (escBraces t.last ++ tail)) s.1 s.2.field [] .invalidFormat (t.format.segs.take j) texts
    ((t.text ++ tail).length + 1) ⟨Reader.ofStr (t.text ++ tail), none, 0⟩ [] (by rw [← htext]; exact Reader.at_ofStr _)
    (by
      have := segs_length_le t.format
      have h' : t.format.segs.length = t.segs.length := by simp [Template.format]
      have ht : t.text = t.format.text := rfl
      rw [ht, List.length_append]
      omega)
    (by
      intro x hx
      have hx' : x.2 ∈ t.format.fields := by
        rw [hfields]
        exact List.mem_append_left _ (List.mem_map_of_mem hx)
      rw [template_fields, List.mem_map] at hx'
      obtain ⟨y, hy, hyx⟩ := hx'
      rw [← hyx]
      exact field_wellFormed (wide_digits suits y hy))
    (by
      rw [hfields] at hmode
      rcases hmode with ⟨h, h'⟩ | ⟨h, h'⟩
      · exact Or.inl ⟨fun f hf => h f (List.mem_append_left _ hf), h'⟩
      · exact Or.inr ⟨fun f hf => h f (List.mem_append_left _ hf), h'⟩)
    (by
      intro n hn
      obtain ⟨i, hi⟩ := List.mem_iff_getElem?.1 hn
      rw [argsFrom_at] at hi
      have : n ∈ t.format.arguments := by
        rw [argsFrom_eq, hfields]
        refine List.mem_of_getElem? (i := i) ?_
        rw [argsFrom_at, List.getElem?_append_left, hi]
        by_contra hge
        rw [List.getElem?_eq_none (by omega)] at hi
        simp at hi
      simpa [fargs] using (wide_arguments suits n).1 this)
    (readsAll_first h1 (by omega) h2)
    ⟨a.farg, by
      simp only [hjl, Nat.zero_add]
      rw [← hkj]
      simp [fargs, ha], by
      rw [hbody]
      exact core_balks_wide a _ hgram.1 hgram.2 ((octal_of_asks hk hs ha).1 hO)⟩
  have hval := template_tail_validates_wide pass suits htail
  have hp : ¬ ((fargs args).length = 0 ∧ checkIfPlainString (t.text ++ tail) = true) := by
    rintro ⟨hp, _⟩
    have h0 : args = [] := by simpa [fargs] using hp
    rw [h0] at ha
    simp at ha
  have hset := settled_of_stop hval hp g1 (by rw [g2]; exact fun op ho => g4 op (by simpa using ho))
  have hout : render st.ops = (t.upTo j).output texts := by
    rw [g2, List.nil_append, g3, List.append_nil]
    unfold Template.output Template.format FormatText.output Spec.Template.upTo segsOut
    simp [hs]
  rw [hout] at hset
  exact hset.delivers

/-- All of it in one statement: an accepted string is a template perhaps followed by ignored text.  If no field asks for
the type `O`, formatting succeeds, and the result is the literal text with the fields replaced by what formatting each of
them alone yields; otherwise it fails with `invalid_format`. -/
theorem C24_any_accepted (str : Str) (args : List CoreArg) (hn : args.length ≤ 128) (hv : ∀ a ∈ args, ValidArg a)
    (acc : validateStr str (fargs args) = .ok () true) :
    ∃ (t : Template) (tail : Str), str = t.text ++ tail ∧ (tail = [] ∨ Begins255 tail ∧ t.format.Explicit) ∧
      ((∀ j, ¬ AsksO t args j) → ∃ texts : List Str, texts.length = t.segs.length ∧ AloneUpTo t args texts ∧
        formatStr str (fargs args) = .ok () (t.output texts)) ∧
      ((∃ j, AsksO t args j) → formatStr str (fargs args) = .err () .invalidFormat) := by
  obtain ⟨t, tail, rfl, pass, suits, htail⟩ := accepted_template_wide hn acc
  refine ⟨t, tail, rfl, htail, fun hO => ?_, fun hO => ?_⟩
  · obtain ⟨texts, h1, h2, h3⟩ := C22_accepted_without_O_succeeds t tail args pass suits htail hv hO
    exact ⟨texts, h1, h2, h3.format⟩
  · classical
    obtain ⟨texts, _, _, hd⟩ := C22_accepted_with_O_fails t tail args pass suits htail hv (Nat.find hO) (Nat.find_spec hO)
      fun i hi => Nat.find_min hO hi
    exact hd.format

/-- The property as one would expect it: the result of an accepted format string that does not fail is the literal text
with the fields replaced by texts, one for each field. -/
def C24_full : Prop :=
  ∀ (str : Str) (args : List CoreArg), args.length ≤ 128 → (∀ a ∈ args, ValidArg a) →
    ∀ text, formatStr str (fargs args) = .ok () text →
      ∀ t : Template, str = t.text → (∀ s ∈ t.segs, ∀ c ∈ s.2.idx, c.isDigit) →
        ∃ texts : List Str, texts.length = t.segs.length ∧ text = t.output texts

/-- It does not hold: `"{255}!"` is accepted without arguments, and the result is empty. -/
theorem C24_violated : ¬ C24_full := by
  intro h
  obtain ⟨texts, h1, h2⟩ := h "{255}!".toList [] (by decide) (by simp) [] (by decide +kernel)
    ⟨[([], ⟨"255".toList, none⟩)], ['!']⟩ (by decide +kernel) (by decide)
  match texts, h1 with
  | [x], _ =>
    simp [Template.output, FormatText.output, Template.format] at h2

/-- `"<{:x<.9999999999}>"` is accepted and formatted; `"{0}{255:{{"` is accepted, and what stands behind the first field is
ignored. -/
example : validateStr wideExample.text (fargs [.string "ab".toList]) = .ok () true ∧
    (∀ a ∈ [CoreArg.string "ab".toList], ValidArg a) ∧
    formatStr wideExample.text (fargs [.string "ab".toList]) = .ok () "<ab>".toList ∧
    formatStr "{0}{255:{{".toList (fargs [.string "ab".toList]) = .ok () "ab".toList := by
  refine ⟨by decide +kernel, by simp only [List.mem_singleton, forall_eq]; unfold ValidArg; decide, by decide +kernel, by decide +kernel⟩

end Emio
