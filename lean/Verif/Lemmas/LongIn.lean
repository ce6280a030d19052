import Verif.Lemmas.Uniform
import Verif.Props.AnyTypes
import Verif.Props.Outputs
import Verif.Props.Cache
import Verif.Spec.LongIn
/-
Which values fit into a cache of 128 characters piece by piece.
-/
namespace Emio
open Reader Spec

theorem WideCall.left {α β : Type} {m : Fmt α} {f : α → Fmt β} {c : Nat} (h : WideCall m c) (hf : ∀ a, Uniform (f a)) :
    WideCall (m >>= f) c := by
  intro ops ops' b hr
  obtain ⟨s, a, h1, h2⟩ := bind_ok_inv hr
  obtain ⟨op, ho, hc⟩ := h ops s a h1
  rw [hf a s] at h2
  cases hx : f a [] with
  | ok s' b' =>
    rw [hx] at h2
    simp only [Run.after] at h2
    cases h2
    exact ⟨op, List.mem_append_left _ ho, hc⟩
  | err s' e => rw [hx] at h2; cases h2
  | bad b => rw [hx] at h2; cases h2

theorem WideCall.right {α β : Type} {m : Fmt α} {f : α → Fmt β} {c : Nat} (h : ∀ a, WideCall (f a) c) :
    WideCall (m >>= f) c := by
  intro ops ops' b hr
  obtain ⟨s, a, h1, h2⟩ := bind_ok_inv hr
  exact h a s ops' b h2

theorem formatRange_wide {sep : Str} {f : Fmtr} {c : Nat} {v : FVal} (h : WideCall (v.format f) c) :
    ∀ (vs : List FVal) (first : Bool), v ∈ vs → WideCall (FVal.formatRange sep f first vs) c := by
  intro vs
  induction vs with
  | nil => intro first hm; simp at hm
  | cons w vs ih =>
    intro first hm
    have hrest : WideCall (w.format f >>= fun _ => FVal.formatRange sep f false vs) c := by
      rcases List.mem_cons.1 hm with rfl | hm
      · exact h.left fun _ => uniform_formatRange _ _ _ _
      · exact WideCall.right fun _ => ih false hm
    rw [FVal.formatRange.eq_def]
    cases first with
    | true => exact hrest
    | false => exact WideCall.right (m := emit (.str sep)) fun _ => hrest

/-- Formatting with the formatter needs more than 128 characters in one piece exactly if there is such a number. -/
def Sizes (ty : FTy) (s : Str) (f : Fmtr) : Prop :=
  ∀ v, HasType v ty → ∀ text, Emits (v.format f) text 1421 →
    (LongIn v s ∧ WideCall (v.format f) 128) ∨ (¬ LongIn v s ∧ Emits (v.format f) text 128)

theorem emits_not_stops {m : Fmt Unit} {x y : Str} {k : Nat} {e : Err} (h : Emits m x k) (h' : Stops m y e) : False := by
  obtain ⟨_, h1, _⟩ := h []
  obtain ⟨_, h2, _⟩ := h' []
  rw [h1] at h2
  cases h2

theorem brace_short {ty : FTy} (hnt : NoTuple ty) (d : Option Bool) :
    ∃ f, (∀ v, HasType v ty → ∃ text, Emits (v.format f) text 128) ∧
      ∀ (r : Reader) (tail : Str), r.At ('}' :: tail) → ty.fresh.parseWith d r = .ok (r.adv 1) f := by
  obtain ⟨_, h2⟩ := works coreEmits_written (by decide) (takes_nil ty)
  obtain ⟨f, h3, _, h5⟩ := h2 d (fun _ => rfl)
  obtain ⟨_, g2⟩ := works coreEmits_short (by decide) (takes_nil ty)
  obtain ⟨f', g3, g4, _⟩ := g2 d (fun _ => rfl)
  have hf : f' = f := by
    have e1 := h3 _ [] (Or.inl hnt) (Reader.at_ofStr ([] ++ '}' :: []))
    have e2 := g3 _ [] (Or.inl hnt) (Reader.at_ofStr ([] ++ '}' :: []))
    rw [e1] at e2
    exact (ok_inj e2).2.symm
  subst hf
  refine ⟨f', fun v hv => ?_, fun r tail hat => h3 r tail (Or.inl hnt) hat⟩
  rcases h5 coreTotal_written v hv with ⟨text, h⟩ | ⟨h, _⟩
  · exact ⟨text, g4 v text hv (renders_short h hv (shortUnder_nil v))⟩
  · simp at h

theorem taken_unique {a b : SpecText} (ha : a.WellFormed) (hb : b.WellFormed) (pa : a.NumbersPass) (pb : b.NumbersPass)
    (h : a.text = b.text) : a.taken = b.taken := by
  have h1 := specs_forward_wide ha pa (Reader.at_ofStr (a.text ++ '}' :: []))
  have h2 := specs_forward_wide hb pb (Reader.at_ofStr (b.text ++ '}' :: []))
  rw [h] at h1
  rw [h1] at h2
  exact (ok_inj h2).2

theorem longIn_number {bits : Nat} {sp : SpecText} (wf : sp.WellFormed) (pass : sp.NumbersPass) :
    LongIn (.core (.double bits)) sp.text ↔ IsFinite bits ∧ 128 < onePiece sp.taken bits := by
  constructor
  · intro h
    generalize hs : sp.text = s at h
    cases h with
    | number wf' pass' finite long => exact ⟨finite, by rwa [taken_unique wf wf' pass pass' hs]⟩
  · exact fun h => .number wf pass h.1 h.2

theorem longIn_range {vs : List FVal} {n : Bool} {e : Str} :
    LongIn (.range vs) (rangeSpec n (some e)) ↔ ∃ v ∈ vs, LongIn v e := by
  constructor
  · intro h
    generalize hs : rangeSpec n (some e) = s at h
    cases h with
    | element mem h =>
      obtain ⟨_, h2⟩ := rangeSpec_inj hs
      cases h2
      exact ⟨_, mem, h⟩
  · rintro ⟨v, hm, h⟩
    exact .element hm h

theorem not_longIn_range {vs : List FVal} {n : Bool} : ¬ LongIn (.range vs) (rangeSpec n none) := by
  intro h
  generalize hs : rangeSpec n none = s at h
  cases h with
  | element mem h => exact absurd (rangeSpec_inj hs).2 (by simp)

theorem longIn_core {a : CoreArg} {s : Str} (h : LongIn (.core a) s) : ∃ bits, a = .double bits := by
  cases h with
  | number => exact ⟨_, rfl⟩

theorem range_sizes {curly : Bool} {t : FTy} {e : Str} {f : Fmtr} {o c sep : Str} (h : Sizes t e f) (hset : Settles t e f)
    {n : Bool} : Sizes (.range curly t) (rangeSpec n (some e)) (.range (if n then [] else o) (if n then [] else c) sep f) := by
  intro v hty text hem
  cases hty with
  | @range _ _ vs each =>
    rw [format_range] at hem ⊢
    rcases first_failing (P := fun i t => ∀ v, vs[i]? = some v → Emits (v.format f) t 1421)
      (Q := fun i => ∃ v, vs[i]? = some v ∧ ∃ x, Stops (v.format f) x .invalidFormat) vs.length (fun i hi => by
        rcases hset vs[i] (each _ (List.getElem_mem hi)) with ⟨_, h⟩ | ⟨_, t, ht⟩
        · exact Or.inr ⟨vs[i], List.getElem?_eq_getElem hi, h⟩
        · left
          refine ⟨t, fun v hv => ?_⟩
          rw [List.getElem?_eq_getElem hi] at hv
          cases hv; exact ht) with ⟨ts, g1, g2⟩ | ⟨i, hi, ⟨v, hv, hf⟩, hj⟩
    swap
    · obtain ⟨x, hx⟩ := formatRange_stops (sep := sep) (k := 1421) vs true i v hv hf (fun j hji w hw => by
        obtain ⟨t, ht⟩ := hj j hji
        exact ⟨t, ht w hw⟩)
      exact (emits_not_stops hem ((emits_str _ 1421).stops hx.bind)).elim
    rw [longIn_range]
    by_cases hl : ∃ v ∈ vs, LongIn v e
    · left
      refine ⟨hl, ?_⟩
      obtain ⟨v, hm, hv⟩ := hl
      obtain ⟨i, hi⟩ := List.getElem?_of_mem hm
      have hlt : i < ts.length := by rw [g1]; exact (List.getElem?_eq_some_iff.1 hi).1
      rcases h v (each v hm) _ (g2 i ts[i] (List.getElem?_eq_getElem hlt) v hi) with ⟨_, hw⟩ | ⟨hn, _⟩
      · exact WideCall.right fun _ => (formatRange_wide hw vs true hm).left fun _ => uniform_emit _
      · exact absurd hv hn
    · right
      refine ⟨hl, ?_⟩
      have hem' := bracketed_emits (n := n) (o := o) (c := c) (formatRange_emits (sep := sep) (k := 128) vs ts true g1
        (fun i v t hv ht => by
          rcases h v (each v (List.mem_of_getElem? hv)) _ (g2 i t ht v hv) with ⟨hn, _⟩ | ⟨_, hs⟩
          · exact absurd ⟨v, List.mem_of_getElem? hv, hn⟩ hl
          · exact hs))
      rw [hem.unique hem']
      exact hem'

theorem accepts_sizes {ty : FTy} {s : Str} (hs : TypeAccepts ty s) (hnt : NoTuple ty) :
    ∃ f, Sizes ty s f ∧ ∀ (r : Reader) (tail : Str), r.At (s ++ '}' :: tail) →
      ty.fresh.parseWith none r = .ok (r.adv (s.length + 1)) f := by
  induction hs with
  | @core t sp wf pass allows =>
    have hc : t.check sp.taken = true := by
      rw [← reduced_meaning]
      exact (allows_iff t (reduced_wellFormed wf)).2 allows
    refine ⟨.core t sp.taken, ?_, ?_⟩
    · intro v hty text hem
      obtain ⟨b, rfl, rfl, valid⟩ := hasType_core hty t rfl
      have hat := Reader.at_ofStr (sp.text ++ ['}'])
      have hok := specs_ok hat.1 (specs_forward_wide wf pass (u := Reader.ofStr (sp.text ++ ['}'])) hat)
      rw [format_core] at hem ⊢
      by_cases hl : LongNumber b sp.taken
      · left
        obtain ⟨bits, rfl, hf, hw⟩ := id hl
        refine ⟨.number wf pass hf hw, fun ops ops' _ hr => ?_⟩
        obtain ⟨l, op, r, e1, e2, _⟩ := float_need hok hc valid hf hr
        exact ⟨op, by rw [e1]; simp, by omega⟩
      · right
        refine ⟨fun h => hl ?_, emits_128 hok hc valid hem hl⟩
        obtain ⟨bits, rfl⟩ := longIn_core h
        obtain ⟨h1, h2⟩ := (longIn_number wf pass).1 h
        exact ⟨bits, rfl, h1, h2⟩
    · intro r tail hat
      rw [FTy.fresh, Fmtr.parseWith, M.bind_ok (specs_agree hat.1 (specs_forward_wide wf pass (u := r) hat)).1]
      rfl
  | @range curly t n =>
    obtain ⟨f, h1, h2⟩ := brace_short (ty := t) hnt (some true)
    refine ⟨.range (if n then [] else if curly then ['{'] else ['[']) (if n then [] else if curly then ['}'] else [']'])
      [',', ' '] f, ?_, ?_⟩
    · intro v hty text hem
      cases hty with
      | @range _ _ vs each =>
        right
        refine ⟨not_longIn_range, ?_⟩
        rw [format_range] at hem ⊢
        rcases first_failing (P := fun i t => ∀ v, vs[i]? = some v → Emits (v.format f) t 128)
          (Q := fun _ => False) vs.length (fun i hi => by
            obtain ⟨t, ht⟩ := h1 vs[i] (each _ (List.getElem_mem hi))
            left
            refine ⟨t, fun v hv => ?_⟩
            rw [List.getElem?_eq_getElem hi] at hv
            cases hv; exact ht) with ⟨ts, g1, g2⟩ | ⟨i, hi, h, hj⟩
        · have hem' := bracketed_emits (n := n) (o := if curly then ['{'] else ['['])
            (c := if curly then ['}'] else [']']) (formatRange_emits (sep := [',', ' ']) (k := 128) vs ts true g1
            (fun i v t hv ht => g2 i t ht v hv))
          rw [hem.unique hem']
          exact hem'
        · exact h.elim
    intro r tail hat
    have hlen : (rangeSpec n none).length + 1 = (if n then 1 else 0) + 1 := by cases n <;> rfl
    have hh := head_at hat
    simp only [Option.isSome_none, Bool.false_eq_true, if_false, Nat.add_zero, Option.getD_none, List.nil_append] at hh
    rw [FTy.fresh, Fmtr.parseWith, M.bind_ok (parseHead hat)]
    simp only [Option.isSome_none, Bool.false_eq_true, if_false, Nat.add_zero]
    rw [M.bind_ok (h2 _ tail hh), M.pure_run, adv_adv, hlen]
  | @elements curly t n e each ih =>
    obtain ⟨f, h1, h2⟩ := ih hnt
    obtain ⟨f', g1, g2⟩ := accepts_works each hnt
    have hf : f' = f := by
      have e1 := h2 _ [] (Reader.at_ofStr (e ++ '}' :: []))
      have e2 := (g2 _ [] (Reader.at_ofStr (e ++ '}' :: []))).2
      rw [e1] at e2
      exact (ok_inj e2).2.symm
    subst hf
    refine ⟨_, range_sizes h1 g1 (n := n) (o := if curly then ['{'] else ['[']) (c := if curly then ['}'] else [']']) (sep := [',', ' ']), ?_⟩
    intro r tail hat
    have hlen : (rangeSpec n (some e)).length + 1 = (if n then 1 else 0) + 1 + (e.length + 1) := by
      cases n <;> simp [rangeSpec] <;> omega
    have hh := head_at hat
    simp only [Option.isSome_some, if_true, Option.getD_some] at hh
    have g2 := h2 _ tail hh
    rw [adv_adv] at g2
    rw [FTy.fresh, Fmtr.parseWith, M.bind_ok (parseHead hat)]
    simp only [Option.isSome_some, if_true]
    rw [M.bind_ok g2, M.pure_run, hlen]
  | @optional t s content ih =>
    obtain ⟨f, h1, h2⟩ := ih hnt
    refine ⟨.optional f, ?_, ?_⟩
    · intro v hty text hem
      cases hty with
      | none =>
        right
        rw [format_none] at hem ⊢
        rw [hem.unique (emits_str _ 128)]
        exact ⟨fun h => (by cases h), emits_str _ _⟩
      | @some _ w hc =>
        rw [format_some] at hem ⊢
        have hO : LongIn (.some w) s ↔ LongIn w s := ⟨fun h => (by cases h with | content h => exact h), .content⟩
        rw [hO]
        obtain ⟨f', g1, g2⟩ := accepts_works content hnt
        have hf : f' = f := by
          have e1 := h2 _ [] (Reader.at_ofStr (s ++ '}' :: []))
          have e2 := (g2 _ [] (Reader.at_ofStr (s ++ '}' :: []))).2
          rw [e1] at e2
          exact (ok_inj e2).2.symm
        subst hf
        rcases g1 w hc with ⟨_, x, hx⟩ | ⟨_, x, hx⟩
        · exact (emits_not_stops hem ((emits_str _ 1421).stops hx.bind)).elim
        · rcases h1 w hc x hx with ⟨h, hw⟩ | ⟨h, hs⟩
          · exact Or.inl ⟨h, WideCall.right fun _ => hw.left fun _ => uniform_emit _⟩
          · have hem' := Emits.seq (emits_str ['o', 'p', 't', 'i', 'o', 'n', 'a', 'l', '('] 128)
              (Emits.seq hs (emits_char ')' (by decide)))
            rw [hem.unique hem']
            exact Or.inr ⟨h, hem'⟩
    · intro r tail hat
      rw [FTy.fresh, Fmtr.parseWith, M.bind_ok (h2 r tail hat)]
      rfl
  | monostate =>
    obtain ⟨f, h1, h2⟩ := brace_short (ty := .monostate) hnt none
    refine ⟨f, fun v hv text hem => ?_, h2⟩
    obtain ⟨t, ht⟩ := h1 v hv
    rw [hem.unique ht]
    cases hv with
    | monostate => exact Or.inr ⟨fun h => (by cases h), ht⟩
  | @variant ts =>
    obtain ⟨f, h1, h2⟩ := brace_short (ty := .variant ts) hnt none
    refine ⟨f, fun v hv text hem => ?_, h2⟩
    obtain ⟨t, ht⟩ := h1 v hv
    rw [hem.unique ht]
    cases hv with
    | variant => exact Or.inr ⟨fun h => (by cases h), ht⟩
    | valueless => exact Or.inr ⟨fun h => (by cases h), ht⟩

end Emio
