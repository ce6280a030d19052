import Verif.Lemmas.UserFormatter
import Verif.Lemmas.WideNumbers
import Verif.Lemmas.ValuesArg
import Verif.Spec.AnyTypes
/-
Format strings for arguments of any type but tuples: what is accepted, and what fails.
-/
namespace Emio
open Reader Spec BufferImpl

/-! ### Writing and failing -/

theorem Stops.bind {m : Fmt Unit} {f : Unit → Fmt Unit} {text : Str} {e : Err} (h : Stops m text e) :
    Stops (m >>= f) text e := by
  intro ops
  obtain ⟨new, h1, h2⟩ := h ops
  exact ⟨new, by rw [M.bind_err h1], h2⟩

theorem Emits.stops {m : Fmt Unit} {f : Unit → Fmt Unit} {x y : Str} {k : Nat} {e : Err} (h : Emits m x k)
    (h' : Stops (f ()) y e) : Stops (m >>= f) (x ++ y) e := by
  intro ops
  obtain ⟨new, h1, hr, h3⟩ := h ops
  obtain ⟨new', h4, h5, h6⟩ := h' (ops ++ new)
  refine ⟨new ++ new', by rw [M.bind_ok h1, h4, List.append_assoc], by rw [render_append, hr, h5], ?_⟩
  intro op ho
  rcases List.mem_append.1 ho with ho | ho
  · exact h3.1 op ho
  · exact h6 op ho

theorem formatRange_stops {sep : Str} {f : Fmtr} {k : Nat} {e : Err} : ∀ (vs : List FVal) (first : Bool) (i : Nat) (v : FVal),
    vs[i]? = some v → (∃ x, Stops (v.format f) x e) →
    (∀ j < i, ∀ w, vs[j]? = some w → ∃ t, Emits (w.format f) t k) → ∃ x, Stops (FVal.formatRange sep f first vs) x e := by
  intro vs
  induction vs with
  | nil => intro first i v h; simp at h
  | cons w vs ih =>
    intro first i v hv hf hj
    rw [FVal.formatRange]
    have hr : ∃ x, Stops (do w.format f; FVal.formatRange sep f false vs) x e := by
      cases i with
      | zero =>
        simp only [List.getElem?_cons_zero, Option.some.injEq] at hv
        obtain ⟨x, hx⟩ := hf
        rw [hv]; exact ⟨x, hx.bind⟩
      | succ i =>
        obtain ⟨t, ht⟩ := hj 0 (by omega) w rfl
        obtain ⟨x, hx⟩ := ih false i v (by simpa using hv) hf (fun j hji u hu => hj (j + 1) (by omega) u (by simpa using hu))
        exact ⟨_, ht.stops hx⟩
    obtain ⟨x, hx⟩ := hr
    cases first with
    | true => exact ⟨x, hx⟩
    | false => exact ⟨_, (emits_str sep k).stops hx⟩

/-! ### The letter at the end -/

theorem spec_last_octal {sp : SpecText} (wf : sp.WellFormed) : sp.text.getLast? = some 'O' ↔ sp.type = some 'O' := by
  cases ht : sp.type with
  | some c =>
    unfold SpecText.text
    rw [ht]
    simp
  | none =>
    refine ⟨fun h => ?_, fun h => by cases h⟩
    exfalso
    have hdig : ∀ {l : Str}, (∀ c ∈ l, c.isDigit) → l.getLast? ≠ some 'O' := by
      intro l hl h
      exact absurd (hl _ (List.mem_of_getLast? h)) (by decide)
    unfold SpecText.text at h
    rw [ht] at h
    simp only [Option.toList_none, List.append_nil] at h
    cases hp : sp.prec with
    | some p =>
      obtain ⟨h1, h2⟩ := wf.prec p hp
      rw [hp] at h
      simp only [List.getLast?_append] at h
      obtain ⟨c, hc⟩ : ∃ c, p.getLast? = some c := by
        cases hl : p.getLast? with
        | none => exact absurd (List.getLast?_eq_none_iff.1 hl) h1
        | some c => exact ⟨c, rfl⟩
      rw [List.getLast?_cons, hc] at h
      simp at h
      exact hdig h2 (h ▸ hc)
    | none =>
      rw [hp] at h
      simp only [List.append_nil, List.getLast?_append] at h
      cases hw : sp.width.getLast? with
      | some c =>
        rw [hw] at h
        simp at h
        exact hdig wf.width (h ▸ hw)
      | none =>
        rw [hw] at h
        simp only [Option.none_or] at h
        cases hz : sp.zero with
        | true => rw [hz] at h; simp at h
        | false =>
          rw [hz] at h
          simp only [Bool.false_eq_true, if_false, List.getLast?_nil, Option.none_or] at h
          cases hal : sp.alt with
          | true => rw [hal] at h; simp at h
          | false =>
            rw [hal] at h
            simp only [Bool.false_eq_true, if_false, List.getLast?_nil, Option.none_or] at h
            cases hsg : sp.sign with
            | some c =>
              have := wf.sign c hsg
              rw [hsg] at h
              simp at h this
              rw [h] at this
              exact absurd this (by decide)
            | none =>
              rw [hsg] at h
              simp only [Option.toList_none, List.getLast?_nil, Option.none_or] at h
              cases hali : sp.align with
              | some c =>
                have := wf.align c hali
                rw [hali] at h
                simp at h this
                rw [h] at this
                exact absurd this (by decide)
              | none =>
                rw [hali] at h
                cases hfi : sp.fill with
                | none => rw [hfi] at h; simp at h
                | some c =>
                  have := (wf.fill c hfi).1
                  rw [hali] at this
                  cases this

theorem rangeSpec_last {n : Bool} {e : Str} : (rangeSpec n (some e)).getLast? = some 'O' ↔ e.getLast? = some 'O' := by
  unfold rangeSpec
  rw [List.getLast?_append, List.getLast?_cons]
  cases h : e.getLast? with
  | none => simp
  | some c => simp

theorem rangeSpec_none_last {n : Bool} : (rangeSpec n none).getLast? ≠ some 'O' := by cases n <;> simp [rangeSpec]

/-! ### Values -/

/-- Formatting a value with the formatter fails exactly if the type `O` is asked for. -/
def Settles (ty : FTy) (s : Str) (f : Fmtr) : Prop :=
  ∀ v, HasType v ty → (OctalIn v s ∧ ∃ x, Stops (v.format f) x .invalidFormat) ∨
    (¬ OctalIn v s ∧ ∃ text, Emits (v.format f) text 1421)

theorem brace_works {ty : FTy} (hnt : NoTuple ty) (d : Option Bool) :
    ∃ f, Settles ty [] f ∧ ∀ (r : Reader) (tail : Str), r.At ('}' :: tail) → ty.fresh.parseWith d r = .ok (r.adv 1) f := by
  obtain ⟨_, h2⟩ := works coreEmits_written (by decide) (takes_nil ty)
  obtain ⟨f, h3, h4, h5⟩ := h2 d (fun _ => rfl)
  refine ⟨f, fun v hv => Or.inr ⟨fun h => by simp [OctalIn] at h, ?_⟩, fun r tail hat => h3 r tail (Or.inl hnt) hat⟩
  rcases h5 coreTotal_written v hv with ⟨text, h⟩ | ⟨h, _⟩
  · exact ⟨text, h4 v text hv h⟩
  · simp at h

theorem range_settles {curly : Bool} {t : FTy} {s e : Str} {f : Fmtr} {o c sep : Str}
    (hl : s.getLast? = some 'O' ↔ e.getLast? = some 'O') (h : Settles t e f) {n : Bool} :
    Settles (.range curly t) s (.range (if n then [] else o) (if n then [] else c) sep f) := by
  intro v hty
  cases hty with
  | @range _ _ vs each =>
    rw [format_range]
    rcases first_failing (P := fun i t => ∀ v, vs[i]? = some v → ¬ OctalIn v e ∧ Emits (v.format f) t 1421)
      (Q := fun i => ∃ v, vs[i]? = some v ∧ OctalIn v e ∧ ∃ x, Stops (v.format f) x .invalidFormat) vs.length (fun i hi => by
        rcases h vs[i] (each _ (List.getElem_mem hi)) with h | ⟨hO, t, ht⟩
        · exact Or.inr ⟨vs[i], List.getElem?_eq_getElem hi, h⟩
        · left
          refine ⟨t, fun v hv => ?_⟩
          rw [List.getElem?_eq_getElem hi] at hv
          cases hv; exact ⟨hO, ht⟩) with ⟨ts, g1, g2⟩ | ⟨i, hi, ⟨v, hv, hO, hf⟩, hj⟩
    · right
      refine ⟨?_, _, bracketed_emits (formatRange_emits vs ts true g1 (fun i v t hv ht => (g2 i t ht v hv).2))⟩
      rintro ⟨hs, hh⟩
      cases hh with
      | @element _ w mem hw =>
        obtain ⟨i, hi⟩ := List.getElem?_of_mem mem
        have hlt : i < ts.length := by rw [g1]; exact (List.getElem?_eq_some_iff.1 hi).1
        exact (g2 i ts[i] (List.getElem?_eq_getElem hlt) w hi).1 ⟨hl.1 hs, hw⟩
    · left
      refine ⟨⟨hl.2 hO.1, .element (List.mem_of_getElem? hv) hO.2⟩, ?_⟩
      obtain ⟨x, hx⟩ := formatRange_stops (sep := sep) (k := 1421) vs true i v hv hf (fun j hji w hw => by
        obtain ⟨t, ht⟩ := hj j hji
        exact ⟨t, (ht w hw).2⟩)
      exact ⟨_, (emits_str _ 1421).stops hx.bind⟩

theorem accepts_works {ty : FTy} {s : Str} (hs : TypeAccepts ty s) (hnt : NoTuple ty) :
    ∃ f, Settles ty s f ∧ ∀ (r : Reader) (tail : Str), r.At (s ++ '}' :: tail) →
      ty.validate r = .ok (r.adv (s.length + 1)) () ∧ ty.fresh.parseWith none r = .ok (r.adv (s.length + 1)) f := by
  induction hs with
  | @core t sp wf pass allows =>
    have hc : t.check sp.taken = true := by
      rw [← reduced_meaning]
      exact (allows_iff t (reduced_wellFormed wf)).2 allows
    refine ⟨.core t sp.taken, ?_, ?_⟩
    · intro v hty
      obtain ⟨b, rfl, rfl, valid⟩ := hasType_core hty t rfl
      have hat := Reader.at_ofStr (sp.text ++ ['}'])
      have hsp := specs_forward_wide wf pass (u := Reader.ofStr (sp.text ++ ['}'])) hat
      have hok := specs_ok hat.1 hsp
      have hO : OctalIn (.core b) sp.text ↔ OctalO b sp.taken := by
        unfold OctalIn OctalO
        rw [spec_last_octal wf]
        have hty : sp.taken.type = 'O' ↔ sp.type = some 'O' := by
          rw [← reduced_meaning]
          exact meaning_type_some (reduced_wellFormed wf) 'O' (by decide)
        rw [hty]
        refine and_congr_right fun _ => ?_
        cases b with
        | int => exact ⟨fun _ => trivial, fun _ => .int⟩
        | bool => exact ⟨fun _ => trivial, fun _ => .bool⟩
        | char => exact ⟨fun _ => trivial, fun _ => .char⟩
        | double => exact ⟨fun h => (by cases h), fun h => h.elim⟩
        | pointer => exact ⟨fun h => (by cases h), fun h => h.elim⟩
        | string => exact ⟨fun h => (by cases h), fun h => h.elim⟩
      rw [format_core, hO]
      by_cases h : OctalO b sp.taken
      · exact Or.inl ⟨h, [], (core_refuses b _ h).stops⟩
      · exact Or.inr ⟨h, core_emits_some b _ hok valid hc h (needs_any b _ hok hc)⟩
    · intro r tail hat
      have hv := C29_type_check t sp wf pass r hat.1 tail hat.2
      rw [if_pos hc] at hv
      refine ⟨by rw [FTy.validate]; exact hv, ?_⟩
      rw [FTy.fresh, Fmtr.parseWith, M.bind_ok (specs_agree hat.1 (specs_forward_wide wf pass (u := r) hat)).1]
      rfl
  | @range curly t n =>
    obtain ⟨f, h1, h2⟩ := brace_works (ty := t) hnt (some true)
    refine ⟨_, range_settles (s := rangeSpec n none) (e := []) (by simp [rangeSpec_none_last]) h1 (n := n) (o := if curly then ['{'] else ['[']) (c := if curly then ['}'] else [']']) (sep := [',', ' ']), ?_⟩
    intro r tail hat
    have hlen : (rangeSpec n none).length + 1 = (if n then 1 else 0) + 1 := by cases n <;> rfl
    constructor
    · rw [FTy.validate, M.bind_ok (validateHead hat), hlen]
      rfl
    · have hh := head_at hat
      simp only [Option.isSome_none, Bool.false_eq_true, if_false, Nat.add_zero, Option.getD_none, List.nil_append] at hh
      rw [FTy.fresh, Fmtr.parseWith, M.bind_ok (parseHead hat)]
      simp only [Option.isSome_none, Bool.false_eq_true, if_false, Nat.add_zero]
      rw [M.bind_ok (h2 _ tail hh), M.pure_run, adv_adv, hlen]
  | @elements curly t n e each ih =>
    obtain ⟨f, h1, h2⟩ := ih hnt
    refine ⟨_, range_settles (s := rangeSpec n (some e)) rangeSpec_last h1 (n := n) (o := if curly then ['{'] else ['[']) (c := if curly then ['}'] else [']']) (sep := [',', ' ']), ?_⟩
    intro r tail hat
    have hlen : (rangeSpec n (some e)).length + 1 = (if n then 1 else 0) + 1 + (e.length + 1) := by
      cases n <;> simp [rangeSpec] <;> omega
    have hh := head_at hat
    simp only [Option.isSome_some, if_true, Option.getD_some] at hh
    obtain ⟨g1, g2⟩ := h2 _ tail hh
    rw [adv_adv] at g1 g2
    constructor
    · rw [FTy.validate, M.bind_ok (validateHead hat), hlen, if_pos (by rfl), g1]
    · rw [FTy.fresh, Fmtr.parseWith, M.bind_ok (parseHead hat)]
      simp only [Option.isSome_some, if_true]
      rw [M.bind_ok g2, M.pure_run, hlen]
  | @optional t s content ih =>
    obtain ⟨f, h1, h2⟩ := ih hnt
    refine ⟨.optional f, ?_, ?_⟩
    · intro v hty
      cases hty with
      | none =>
        right
        rw [format_none]
        exact ⟨fun h => (by cases h.2), _, emits_str _ _⟩
      | @some _ w hc =>
        rw [format_some]
        have hO : OctalIn (.some w) s ↔ OctalIn w s := by
          unfold OctalIn
          exact and_congr_right fun _ => ⟨fun h => (by cases h with | content h => exact h), .content⟩
        rw [hO]
        rcases h1 _ hc with ⟨h, x, hx⟩ | ⟨h, text, hx⟩
        · exact Or.inl ⟨h, _, (emits_str _ 1421).stops hx.bind⟩
        · exact Or.inr ⟨h, _, Emits.seq (emits_str _ _) (Emits.seq hx (emits_char _ (by decide)))⟩
    · intro r tail hat
      obtain ⟨g1, g2⟩ := h2 r tail hat
      refine ⟨by rw [FTy.validate]; exact g1, ?_⟩
      rw [FTy.fresh, Fmtr.parseWith, M.bind_ok g2]
      rfl
  | monostate =>
    obtain ⟨f, h1, h2⟩ := brace_works (ty := .monostate) hnt none
    exact ⟨f, h1, fun r tail hat => ⟨by rw [FTy.validate, M.bind_ok (matchBrace hat)]; rfl, h2 r tail hat⟩⟩
  | @variant ts =>
    obtain ⟨f, h1, h2⟩ := brace_works (ty := .variant ts) hnt none
    exact ⟨f, h1, fun r tail hat => ⟨by rw [FTy.validate, M.bind_ok (matchBrace hat)]; rfl, h2 r tail hat⟩⟩

/-- What is validated is a specification the type takes. -/
theorem accepts_of_validate : ∀ ty : FTy, NoTuple ty → ∀ (r r' : Reader), r.Inv → ty.validate r = .ok r' () →
    ∃ s tail, TypeAccepts ty s ∧ r.At (s ++ '}' :: tail) ∧ r' = r.adv (s.length + 1)
  | .core t, _, r, r', hr, hv => by
    rw [FTy.validate] at hv
    unfold CoreTy.validate at hv
    obtain ⟨r1, s, h1, hv⟩ := bind_ok_inv hv
    split at hv
    · rename_i hc
      rw [M.pure_run] at hv
      obtain ⟨rfl, _⟩ := ok_inj hv
      obtain ⟨sp, tail, wf, hrest, hr', hp, hs⟩ := specs_backward_wide hr h1
      refine ⟨sp.text, tail, .core wf hp ?_, ⟨hr, hrest⟩, hr'⟩
      rw [← allows_iff t (reduced_wellFormed wf), reduced_meaning, ← hs]
      exact hc
    · cases hv
  | .range curly t, ht, r, r', hr, hv => by
    rw [FTy.validate] at hv
    rcases validateHead_cases hr with ⟨r', e, h⟩ | ⟨n, tail, ⟨h, hat⟩ | ⟨h, hat⟩⟩
    · rw [M.bind_err h] at hv; cases hv
    · rw [M.bind_ok h, if_neg (by simp), M.pure_run] at hv
      obtain ⟨rfl, _⟩ := ok_inj hv
      exact ⟨rangeSpec n none, tail, .range, by simpa [rangeSpec] using hat, by cases n <;> rfl⟩
    · rw [M.bind_ok h, if_pos rfl] at hv
      have hat' : r.At (((if n then ['n'] else []) ++ [':']) ++ tail) := by simpa using hat
      have hl : ((if n then ['n'] else []) ++ [':']).length = (if n then 1 else 0) + 1 := by cases n <;> rfl
      have hat2 := hat'.adv
      rw [hl] at hat2
      obtain ⟨s, tail', h1, h2, h3⟩ := accepts_of_validate t ht _ r' hat2.1 hv
      have htail : tail = s ++ '}' :: tail' := hat2.unique h2
      subst htail
      refine ⟨rangeSpec n (some s), tail', .elements h1, by simpa [rangeSpec] using hat, ?_⟩
      rw [h3, adv_adv]
      cases n <;> simp [rangeSpec]
      · congr 1; omega
      · congr 1; omega
  | .tuple entry ts, ht, _, _, _, _ => ht.elim
  | .optional t, ht, r, r', hr, hv => by
    rw [FTy.validate] at hv
    obtain ⟨s, tail, h1, h2, h3⟩ := accepts_of_validate t ht r r' hr hv
    exact ⟨s, tail, .optional h1, h2, h3⟩
  | .monostate, ht, r, r', hr, hv => by
    rcases matchBrace_cases hr with ⟨u, e, h⟩ | ⟨tail, h⟩
    · rw [FTy.validate, M.bind_err h] at hv; cases hv
    · rw [FTy.validate, M.bind_ok (matchBrace h)] at hv
      obtain ⟨rfl, _⟩ := ok_inj hv
      exact ⟨[], tail, .monostate, h, rfl⟩
  | .variant ts, ht, r, r', hr, hv => by
    rcases matchBrace_cases hr with ⟨u, e, h⟩ | ⟨tail, h⟩
    · rw [FTy.validate, M.bind_err h] at hv; cases hv
    · rw [FTy.validate, M.bind_ok (matchBrace h)] at hv
      obtain ⟨rfl, _⟩ := ok_inj hv
      exact ⟨[], tail, .variant, h, rfl⟩

theorem accepts_of_takes {ty : FTy} (hnt : NoTuple ty) {v : FVal} {body : Str} (h : (v.farg ty).Takes body) :
    ∃ s, body = s ++ ['}'] ∧ TypeAccepts ty s := by
  obtain ⟨r, tail, hat, hv⟩ := h
  obtain ⟨s, tail', h1, h2, h3⟩ := accepts_of_validate ty hnt r _ hat.1 hv
  refine ⟨s, ?_, h1⟩
  have hlen : body.length = (s ++ ['}']).length := by
    have := congrArg Reader.pos h3
    simp [Reader.adv] at this ⊢
    omega
  have he : body ++ tail = (s ++ ['}']) ++ tail' := by
    rw [← hat.2, h2.2]; simp
  exact (List.append_inj he hlen).1

theorem accepts_no_brace {ty : FTy} {s : Str} (h : TypeAccepts ty s) : '}' ∉ s := by
  induction h with
  | core wf => exact spec_text_no_brace wf
  | @range _ _ n => cases n <;> simp [rangeSpec]
  | @elements _ _ n e _ ih => cases n <;> simpa [rangeSpec] using ih
  | optional _ ih => exact ih
  | monostate => simp
  | variant => simp

end Emio
