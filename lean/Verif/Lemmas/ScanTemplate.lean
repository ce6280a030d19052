import Verif.Lemmas.ScanLoop
/-
Scan strings that suit the variables, and what is accepted.
-/
namespace Emio
open Reader Spec

theorem matchAll_cases : ∀ (ps : List Str) (r : Reader),
    (∃ r', matchAll ps r = .ok r' ()) ∨ ∃ r' e, matchAll ps r = .err r' e := by
  intro ps
  induction ps with
  | nil => intro r; exact Or.inl ⟨r, rfl⟩
  | cons p ps ih =>
    intro r
    unfold matchAll
    cases hm : readIfMatchStr p r with
    | ok r' a => rw [M.bind_ok hm]; exact ih r'
    | err r' e => rw [M.bind_err hm]; exact Or.inr ⟨_, _, rfl⟩
    | bad b =>
      rw [C06_read_if_match_str] at hm
      split_ifs at hm

theorem explicit_scanSegs (tys : List ScanTy) (last tail : Str) : ∀ (segs : List (Str × ScanHole)) (i j : Nat),
    (∀ s ∈ segs, s.2.idx ≠ []) → scanSegs tys last tail i segs = scanSegs tys last tail j segs := by
  intro segs
  induction segs with
  | nil => intros; rfl
  | cons s segs ih =>
    intro i j h
    obtain ⟨lit, hole⟩ := s
    have hi : hole.idx ≠ [] := h (lit, hole) (by simp)
    have ha : ∀ n, hole.field.argument n = numeralValue 10 hole.idx := by
      intro n; simp [Field.argument, ScanHole.field, hi]
    unfold scanSegs
    rw [ha i, ha j, ih (i + 1) (j + 1) (fun s hs => h s (by simp [hs]))]

theorem scanParse_stop {p : PSt} {lit tail : Str} (hat : p.rdr.At (escBraces lit ++ tail)) (hst : Begins255 tail)
    (hm : p.positional ≠ some false) (inp : Reader) (vars : List ScanVal) :
    (∀ r, matchLit lit inp = .ok r () → ∃ q, scanParse ⟨p, inp, vars⟩ = .ok ⟨q, r, vars⟩ noMoreArgs) ∧
    (∀ r e, matchLit lit inp = .err r e → ∃ q, scanParse ⟨p, inp, vars⟩ = .err ⟨q, r, vars⟩ e) := by
  obtain ⟨p', hp, _⟩ := parse_fwd_stop hat hst hm
  obtain ⟨ds, c, rest, rfl, hne, hd, hval, hc⟩ := hst
  simp only [← isDigit_eq] at hd
  have key : ∀ (colon : Bool) (rest' : Str), c :: rest = (if colon then [':'] else []) ++ rest' →
      (colon = false → rest'.head? = some '}') →
      (∀ r, matchLit lit inp = .ok r () → scanParse ⟨p, inp, vars⟩ = .ok ⟨p', r, vars⟩ noMoreArgs) ∧
      (∀ r e, matchLit lit inp = .err r e → ∃ q, scanParse ⟨p, inp, vars⟩ = .err ⟨q, r, vars⟩ e) := by
    intro colon rest' he hb
    rw [he] at hat
    exact scanParse_field hat hd hb hp inp vars
  have : (∀ r, matchLit lit inp = .ok r () → scanParse ⟨p, inp, vars⟩ = .ok ⟨p', r, vars⟩ noMoreArgs) ∧
      (∀ r e, matchLit lit inp = .err r e → ∃ q, scanParse ⟨p, inp, vars⟩ = .err ⟨q, r, vars⟩ e) := by
    rcases hc with rfl | rfl
    · exact key false ('}' :: rest) rfl (fun _ => rfl)
    · exact key true rest rfl (by simp)
  exact ⟨fun r h => ⟨p', this.1 r h⟩, this.2⟩

theorem scanLoop_eq (tys : List ScanTy) (hlen : tys.length ≤ 128) (last tail : Str) :
    ∀ (segs : List (Str × ScanHole)) (fuel : Nat) (p : PSt) (inp : Reader) (vars : List ScanVal),
      p.rdr.At (ScanTemplate.text ⟨segs, last⟩ ++ tail) → segs.length < fuel → (∀ s ∈ segs, ∀ c ∈ s.2.idx, isDigit c = true) →
      (∀ s ∈ segs, s.2.sp.WellFormed ∧ s.2.sp.NumbersPass) → ModeOk p.positional (segs.map (·.2.field)) → p.incr ≤ 128 →
      (∀ k ∈ argsFrom p.incr (segs.map (·.2.field)), k < tys.length) →
      (tail = [] ∨ Begins255 tail ∧ (∀ f ∈ segs.map (·.2.field), f.idx ≠ []) ∧ p.positional ≠ some false) →
      ioOf (scanLoop tys fuel ⟨p, inp, vars⟩) = scanSegs tys last tail p.incr segs ⟨inp, vars⟩ := by
  intro segs
  induction segs with
  | nil =>
    intro fuel p inp vars hat hfuel _ _ _ _ _ htail
    cases fuel with
    | zero => simp at hfuel
    | succ fuel =>
      rw [scanTemplate_text_nil] at hat
      have hend : (∀ r, matchLit last inp = .ok r () → ∃ q, scanParse ⟨p, inp, vars⟩ = .ok ⟨q, r, vars⟩ noMoreArgs) ∧
          (∀ r e, matchLit last inp = .err r e → ∃ q, scanParse ⟨p, inp, vars⟩ = .err ⟨q, r, vars⟩ e) := by
        rcases htail with rfl | ⟨h, _, hm⟩
        · rw [List.append_nil] at hat
          exact scanParse_end hat inp vars
        · exact scanParse_stop hat h hm inp vars
      obtain ⟨h1, h2⟩ := hend
      unfold scanLoop scanSegs ScanIO.onInp
      rcases matchAll_cases (litPieces [] last) inp with ⟨r, hr⟩ | ⟨r, e, hr⟩
      · obtain ⟨q, hq⟩ := h1 r hr
        rw [M.bind_ok hq, if_pos rfl]
        unfold matchLit
        simp only [hr]
        rfl
      · obtain ⟨q, hq⟩ := h2 r e hr
        rw [M.bind_err hq]
        unfold matchLit
        simp only [hr]
        rfl
  | cons s segs ih =>
    intro fuel p inp vars hat hfuel hd hsp hmode hincr hargs htail
    obtain ⟨lit, hole⟩ := s
    cases fuel with
    | zero => simp at hfuel
    | succ fuel =>
      rw [scanTemplate_text_cons, hole_sp_text] at hat
      simp only [List.append_assoc, List.cons_append] at hat
      have hd0 := hd (lit, hole) (by simp)
      obtain ⟨hwf, hfit⟩ := hsp (lit, hole) (by simp)
      simp only at hd0 hwf hfit
      have hb : hole.spec.isSome = false →
          (hole.sp.text ++ '}' :: (ScanTemplate.text ⟨segs, last⟩ ++ tail)).head? = some '}' := by
        intro h
        have : hole.spec = none := by cases hh : hole.spec <;> simp_all
        simp [ScanHole.sp, this, ScanSpec.text]
      have hk0 := hargs (hole.field.argument p.incr) (by simp [argsFrom])
      have hm : (hole.idx = [] ∧ p.positional ≠ some true) ∨
          (hole.idx ≠ [] ∧ p.positional ≠ some false ∧ numeralValue 10 hole.idx < 256) := by
        rcases hmode with ⟨h1, h2⟩ | ⟨h1, h2⟩
        · exact Or.inl ⟨h1 hole.field (by simp), h2⟩
        · have hne : hole.idx ≠ [] := h1 hole.field (by simp)
          refine Or.inr ⟨hne, h2, ?_⟩
          have : hole.field.argument p.incr = numeralValue 10 hole.idx := by simp [Field.argument, ScanHole.field, hne]
          omega
      obtain ⟨p', k, hp, hh, _⟩ := parse_fwd hat hd0 hb hm
      obtain ⟨h1, h2⟩ := scanParse_field hat hd0 hb hp inp vars
      have hk : k = hole.field.argument p.incr := by
        rcases hh.mode with ⟨g1, _, _, _, g5⟩ | ⟨g1, _, _, _, g5, _⟩
        · simp [Field.argument, ScanHole.field, g1]; exact g5
        · simp [Field.argument, ScanHole.field, g1]; exact g5
      unfold scanLoop scanSegs
      rcases matchAll_cases (litPieces [] lit) inp with ⟨r, hr⟩ | ⟨r, e, hr⟩
      swap
      · obtain ⟨q, hq⟩ := h2 r e hr
        rw [M.bind_err hq]
        have : ScanIO.onInp (matchLit lit) ⟨inp, vars⟩ = .err ⟨r, vars⟩ e := by
          unfold ScanIO.onInp matchLit
          simp only [hr]
        rw [M.bind_err this]
        rfl
      · have hq := h1 r hr
        have hio : ScanIO.onInp (matchLit lit) ⟨inp, vars⟩ = .ok ⟨r, vars⟩ () := by
          unfold ScanIO.onInp matchLit
          simp only [hr]
        rw [M.bind_ok hq, M.bind_ok hio, if_neg (by unfold noMoreArgs; omega), ← hk]
        rw [← hk] at hk0
        obtain ⟨ty, hty⟩ : ∃ ty, tys[k]? = some ty := ⟨_, List.getElem?_eq_getElem hk0⟩
        simp only [hty]
        have hat' : p'.rdr.At (hole.sp.text ++ '}' :: (ScanTemplate.text ⟨segs, last⟩ ++ tail)) := by
          rw [hh.rdr, adv_adv]
          have hx : p.rdr.At ((escBraces lit ++ '{' :: (hole.idx ++ (if hole.spec.isSome then [':'] else []))) ++
              (hole.sp.text ++ '}' :: (ScanTemplate.text ⟨segs, last⟩ ++ tail))) := by simpa using hat
          have := hx.adv
          have hl : (escBraces lit ++ '{' :: (hole.idx ++ (if hole.spec.isSome then [':'] else []))).length =
              (escBraces lit).length + 1 + (hole.idx.length + if hole.spec.isSome = true then 1 else 0) := by
            simp only [List.length_append, List.length_cons]
            split <;> simp <;> omega
          rwa [hl] at this
        have hparse := scan_parse_fwd ty hwf hfit hat'
        have hat'' : (p'.rdr.adv (hole.sp.text.length + 1)).At (ScanTemplate.text ⟨segs, last⟩ ++ tail) := by
          have hx : p'.rdr.At ((hole.sp.text ++ ['}']) ++ (ScanTemplate.text ⟨segs, last⟩ ++ tail)) := by simpa using hat'
          simpa using hx.adv
        have hmode' : ModeOk p'.positional (segs.map (·.2.field)) := by
          rcases hmode with ⟨g1, g2⟩ | ⟨g1, g2⟩
          · refine Or.inl ⟨fun f hf => g1 f (List.mem_cons_of_mem _ hf), ?_⟩
            rcases hh.mode with ⟨_, _, x, _⟩ | ⟨x, _⟩
            · rw [x]; simp
            · exact absurd (g1 hole.field (by simp)) x
          · refine Or.inr ⟨fun f hf => g1 f (List.mem_cons_of_mem _ hf), ?_⟩
            rcases hh.mode with ⟨x, _⟩ | ⟨_, _, x, _⟩
            · exact absurd x (g1 hole.field (by simp))
            · rw [x]; simp
        have hi' : p'.incr ≤ 128 ∧ (p'.incr = p.incr + 1 ∨ ∀ f ∈ segs.map (·.2.field), f.idx ≠ []) := by
          rcases hh.mode with ⟨g1, _, _, g4, g5⟩ | ⟨g1, _, _, g4, _⟩
          · simp only at g4 g5
            have : p.incr < 128 := by omega
            rw [g4]
            omega
          · simp only at g4
            rw [g4]
            refine ⟨hincr, Or.inr ?_⟩
            rcases hmode with ⟨x, _⟩ | ⟨x, _⟩
            · exact absurd (x hole.field (by simp)) g1
            · exact fun f hf => x f (List.mem_cons_of_mem _ hf)
        have hargs' : argsFrom p'.incr (segs.map (·.2.field)) = argsFrom (p.incr + 1) (segs.map (·.2.field)) := by
          rcases hi'.2 with h | h
          · rw [h]
          · exact explicit_argsFrom _ _ _ h
        have hsegs' : scanSegs tys last tail p'.incr segs = scanSegs tys last tail (p.incr + 1) segs := by
          rcases hi'.2 with h | h
          · rw [h]
          · refine explicit_scanSegs tys last tail segs _ _ fun s hs => ?_
            exact h s.2.field (by simp; exact ⟨s.1, s.2, hs, rfl⟩)
        have htail' : tail = [] ∨ Begins255 tail ∧ (∀ f ∈ segs.map (·.2.field), f.idx ≠ []) ∧ p'.positional ≠ some false := by
          refine htail.imp id fun ⟨g1, g2, g3⟩ => ⟨g1, fun f hf => g2 f (List.mem_cons_of_mem _ hf), ?_⟩
          rcases hh.mode with ⟨x, _⟩ | ⟨_, _, x, _⟩
          · exact absurd x (g2 hole.field (by simp))
          · rw [x]; simp
        have hrec : ∀ inp' vars', ioOf (scanLoop tys fuel
            ⟨{ p' with rdr := p'.rdr.adv (hole.sp.text.length + 1) }, inp', vars'⟩) =
            scanSegs tys last tail (p.incr + 1) segs ⟨inp', vars'⟩ := by
          intro inp' vars'
          rw [← hsegs']
          refine ih fuel { p' with rdr := p'.rdr.adv (hole.sp.text.length + 1) } inp' vars' hat'' (by simp at hfuel; omega)
            (fun s hs => hd s (by simp [hs])) (fun s hs => hsp s (by simp [hs])) hmode' hi'.1 ?_ htail'
          intro j hj
          refine hargs j ?_
          simp only [List.map_cons, argsFrom, List.mem_cons]
          right
          rw [← hargs']
          exact hj
        cases hv : vars[k]? with
        | none =>
          have e1 : scanArg k ty ⟨p', r, vars⟩ = .bad .ub := by
            unfold scanArg; simp only [hparse, hv]
          have e2 : ScanIO.onVar k (ty.scan hole.sp.taken (.ofStr (ScanTemplate.text ⟨segs, last⟩ ++ tail))) ⟨r, vars⟩ =
              .bad .ub := by unfold ScanIO.onVar; simp only [hv]
          rw [M.bind_bad e1, M.bind_bad e2]
          rfl
        | some v =>
          cases ha : ty.scan hole.sp.taken (.ofStr (ScanTemplate.text ⟨segs, last⟩ ++ tail)) ⟨r, v⟩ with
          | ok sl u =>
            have e1 : scanArg k ty ⟨p', r, vars⟩ = .ok ⟨{ p' with rdr := p'.rdr.adv (hole.sp.text.length + 1) },
                sl.inp, vars.set k sl.var⟩ () := by
              unfold scanArg; simp only [hparse, hv, ha]
            have e2 : ScanIO.onVar k (ty.scan hole.sp.taken (.ofStr (ScanTemplate.text ⟨segs, last⟩ ++ tail))) ⟨r, vars⟩ =
                .ok ⟨sl.inp, vars.set k sl.var⟩ () := by unfold ScanIO.onVar; simp only [hv, ha]
            rw [M.bind_ok e1, M.bind_ok e2]
            exact hrec _ _
          | err sl e =>
            have e1 : scanArg k ty ⟨p', r, vars⟩ = .err ⟨{ p' with rdr := p'.rdr.adv (hole.sp.text.length + 1) },
                sl.inp, vars.set k sl.var⟩ e := by
              unfold scanArg; simp only [hparse, hv, ha]
            have e2 : ScanIO.onVar k (ty.scan hole.sp.taken (.ofStr (ScanTemplate.text ⟨segs, last⟩ ++ tail))) ⟨r, vars⟩ =
                .err ⟨sl.inp, vars.set k sl.var⟩ e := by unfold ScanIO.onVar; simp only [hv, ha]
            rw [M.bind_err e1, M.bind_err e2]
            rfl
          | bad b =>
            have e1 : scanArg k ty ⟨p', r, vars⟩ = .bad b := by
              unfold scanArg; simp only [hparse, hv, ha]
            have e2 : ScanIO.onVar k (ty.scan hole.sp.taken (.ofStr (ScanTemplate.text ⟨segs, last⟩ ++ tail))) ⟨r, vars⟩ =
                .bad b := by unfold ScanIO.onVar; simp only [hv, ha]
            rw [M.bind_bad e1, M.bind_bad e2]
            rfl

/-! ### Validation -/

/-- Validation looks at nothing but the validation of the arguments. -/
theorem validateLoop_congr {args args' : List FArg} (h : args.map FArg.validate = args'.map FArg.validate) :
    ∀ (fuel : Nat) (p : PSt) (m : Bitset), validateLoop args fuel p m = validateLoop args' fuel p m := by
  have hl : args.length = args'.length := by simpa using congrArg List.length h
  have hg : ∀ n : Nat, (args[n]?).map FArg.validate = (args'[n]?).map FArg.validate := by
    intro n
    have := congrArg (fun l => l[n]?) h
    simpa using this
  intro fuel
  induction fuel with
  | zero => intros; rfl
  | succ fuel ih =>
    intro p m
    unfold validateLoop
    rw [hl]
    cases hp : Checked.parse p with
    | bad b => rfl
    | err q e => rfl
    | ok q n =>
      simp only
      have hn := hg n
      cases ha : args[n]? <;> cases ha' : args'[n]? <;> rw [ha, ha'] at hn <;> simp at hn
      simp only [hn, ih]

/-- Same validation, nothing printed. -/
def ScanTy.silent (ty : ScanTy) : FArg := ⟨ty.validate, do let _ ← ty.validate; return (pure ())⟩

theorem silent_reads (ty : ScanTy) {sp : ScanSpec} (wf : sp.WellFormed) (pass : sp.NumbersPass)
    (ha : ScanTy.Allows ty sp.reduced) : ty.silent.Reads (sp.text ++ ['}']) [] 0 := by
  intro r tail h
  have h' : r.At (sp.text ++ '}' :: tail) := by simpa using h
  have hv := validate_fwd_wide ty wf pass h' ha
  refine ⟨by simpa [ScanTy.silent] using hv, pure (), ?_, ?_⟩
  · show (ty.validate >>= fun _ => pure (pure ())) r = _
    rw [M.bind_ok hv]
    simp
  · intro ops; exact ⟨[], by simp, rfl, by simp, by simp⟩

theorem scan_hole_body (h : ScanHole) : h.field.body = h.sp.text ++ ['}'] := by
  unfold ScanHole.field ScanHole.sp
  cases h.spec <;> rfl

theorem silent_readsAll {tys : List ScanTy} : ∀ (segs : List (Str × ScanHole)) (i : Nat),
    (∀ s ∈ segs, s.2.sp.WellFormed ∧ s.2.sp.NumbersPass) →
    (∀ x ∈ (argsFrom i (segs.map (·.2.field))).zip segs, ∃ ty, tys[x.1]? = some ty ∧ ScanTy.Allows ty x.2.2.sp.reduced) →
    ReadsAll (tys.map ScanTy.silent) 0 i (segs.map (·.2.field)) (segs.map fun _ => []) := by
  intro segs
  induction segs with
  | nil => intros; simp [ReadsAll]
  | cons s segs ih =>
    intro i h1 h2
    simp only [List.map_cons, argsFrom, List.zip_cons_cons, List.mem_cons, forall_eq_or_imp] at h1 h2
    obtain ⟨⟨ty, hty, hal⟩, h2⟩ := h2
    refine ⟨⟨ty.silent, by simp [hty], ?_⟩, ih (i + 1) h1.2 h2⟩
    rw [scan_hole_body]
    exact silent_reads ty h1.1.1 h1.1.2 hal

theorem scan_fields (t : ScanTemplate) : t.format.fields = t.segs.map (·.2.field) := by
  simp [ScanTemplate.format, FormatText.fields]

/-- The template suits the variables, apart from widths that are taken as reduced. -/
structure WideSuits (t : ScanTemplate) (tys : List ScanTy) : Prop where
  number : tys.length ≤ 128
  digits : ∀ s ∈ t.segs, ∀ c ∈ s.2.idx, c.isDigit
  grammar : t.NumbersPass
  mode : t.format.Automatic ∨ t.format.Explicit
  arguments : ∀ k, k ∈ t.format.arguments ↔ k < tys.length
  allowed : ∀ x ∈ t.format.arguments.zip t.segs, ∃ ty, tys[x.1]? = some ty ∧ ScanTy.Allows ty x.2.2.sp.reduced

theorem suits_wide {t : ScanTemplate} {tys : List ScanTy} (hs : t.Suits tys) : WideSuits t tys where
  number := hs.number
  digits := hs.digits
  grammar := fun s h => ⟨(hs.grammar s h).1, (scan_fits_pass (hs.grammar s h).2).1⟩
  mode := hs.mode
  arguments := hs.arguments
  allowed := fun x hx => by
    obtain ⟨ty, h1, h2⟩ := hs.allowed x hx
    exact ⟨ty, h1, (scan_allows_reduced ty (hs.grammar x.2 (List.of_mem_zip hx).2).2).2 h2⟩

theorem empty_scan_reduced : ({} : ScanSpec).reduced = {} := by
  simp [ScanSpec.reduced]

theorem scan_hole_reduced (h : ScanHole) : h.reduced.sp = h.sp.reduced := by
  unfold ScanHole.reduced ScanHole.sp
  cases h.spec with
  | none => exact empty_scan_reduced.symm
  | some sp => rfl

theorem scan_reduced_argument (h : ScanHole) (i : Nat) : h.reduced.field.argument i = h.field.argument i := rfl

theorem scan_reduced_argsFrom : ∀ (segs : List (Str × ScanHole)) (i : Nat),
    argsFrom i ((segs.map fun s => (s.1, s.2.reduced)).map (·.2.field)) = argsFrom i (segs.map (·.2.field)) := by
  intro segs
  induction segs with
  | nil => intro i; rfl
  | cons s segs ih =>
    intro i
    simp only [List.map_cons, argsFrom, ih (i + 1)]
    rfl

theorem scan_args {t : ScanTemplate} : t.format.arguments = argsFrom 0 (t.segs.map (·.2.field)) := by
  rw [argsFrom_eq, scan_fields]

theorem scan_reduced_arguments (t : ScanTemplate) : t.reduced.format.arguments = t.format.arguments := by
  rw [scan_args, scan_args]
  exact scan_reduced_argsFrom t.segs 0

theorem scan_reduced_mode (t : ScanTemplate) : (t.reduced.format.Automatic ↔ t.format.Automatic) ∧
    (t.reduced.format.Explicit ↔ t.format.Explicit) := by
  unfold FormatText.Automatic FormatText.Explicit
  rw [scan_fields, scan_fields]
  simp only [ScanTemplate.reduced, List.map_map, List.forall_mem_map, Function.comp_apply]
  exact ⟨Iff.rfl, Iff.rfl⟩

theorem wide_iff {t : ScanTemplate} {tys : List ScanTy} : WideSuits t tys ↔ t.NumbersPass ∧ t.reduced.Suits tys := by
  have hz : ∀ P : Nat × (Str × ScanHole) → Prop, (∀ x ∈ t.reduced.format.arguments.zip t.reduced.segs, P x) ↔
      ∀ x ∈ t.format.arguments.zip t.segs, P (x.1, (x.2.1, x.2.2.reduced)) := by
    intro P
    rw [scan_reduced_arguments]
    simp only [ScanTemplate.reduced, List.zip_map_right, List.forall_mem_map]
    exact Iff.rfl
  constructor
  · intro h
    refine ⟨h.grammar, h.number, ?_, ?_, ?_, ?_, ?_⟩
    · simp only [ScanTemplate.reduced, List.forall_mem_map]
      exact h.digits
    · simp only [ScanTemplate.reduced, List.forall_mem_map]
      intro s hs
      rw [scan_hole_reduced]
      exact ⟨scan_reduced_wellFormed (h.grammar s hs).1, scan_reduced_fits (h.grammar s hs).2⟩
    · rw [(scan_reduced_mode t).1, (scan_reduced_mode t).2]; exact h.mode
    · rw [scan_reduced_arguments]; exact h.arguments
    · rw [hz]
      intro x hx
      simp only [scan_hole_reduced]
      exact h.allowed x hx
  · rintro ⟨hp, h⟩
    refine ⟨h.number, ?_, hp, ?_, ?_, ?_⟩
    · have := h.digits
      simp only [ScanTemplate.reduced, List.forall_mem_map] at this
      exact this
    · rw [← (scan_reduced_mode t).1, ← (scan_reduced_mode t).2]; exact h.mode
    · rw [← scan_reduced_arguments]; exact h.arguments
    · have := (hz _).1 h.allowed
      intro x hx
      have := this x hx
      simp only [scan_hole_reduced] at this
      exact this

theorem wide_field_wf {t : ScanTemplate} {tys : List ScanTy} (hs : WideSuits t tys) {s : Str × ScanHole} (h : s ∈ t.segs) :
    s.2.field.WellFormed := by
  refine ⟨hs.digits s h, fun hc => ?_⟩
  rw [scan_hole_body]
  have : s.2.spec = none := by
    cases hh : s.2.spec <;> simp_all [ScanHole.field]
  simp [ScanHole.sp, this, ScanSpec.text]

theorem scan_field_wf {t : ScanTemplate} {tys : List ScanTy} (hs : t.Suits tys) {s : Str × ScanHole} (h : s ∈ t.segs) :
    s.2.field.WellFormed := wide_field_wf (suits_wide hs) h

theorem scan_mode {t : ScanTemplate} {tys : List ScanTy} (hs : WideSuits t tys) : ModeOk none (t.segs.map (·.2.field)) := by
  rw [← scan_fields]
  rcases hs.mode with h | h
  · exact Or.inl ⟨h, by simp⟩
  · exact Or.inr ⟨h, by simp⟩

theorem scan_segs_length (t : ScanTemplate) : t.segs.length ≤ t.text.length := by
  have := segs_length_le t.format
  simpa [ScanTemplate.format, ScanTemplate.text] using this

theorem wide_tail_validates {t : ScanTemplate} {tys : List ScanTy} (hs : WideSuits t tys) {tail : Str}
    (htail : tail = [] ∨ Begins255 tail ∧ t.format.Explicit) :
    validateStr (t.text ++ tail) (tys.map ScanTy.farg) = .ok () true := by
  unfold validateStr
  rw [validateLoop_congr (args' := tys.map ScanTy.silent) (by simp [ScanTy.farg, ScanTy.silent])]
  have hmap : t.format.segs.map (·.2) = t.segs.map (·.2.field) := by simp [ScanTemplate.format]
  obtain ⟨⟨b, hb, hb'⟩, _⟩ := loop_forward_tail (tys.map ScanTy.silent) (by simpa using hs.number) 0 t.last tail t.format.segs
    (t.segs.map fun _ => []) ((t.text ++ tail).length + 1) ⟨Reader.ofStr (t.text ++ tail), none, 0⟩ (Bitset.new 128) [] []
    (Bitset.rep_new 128) rfl
    (by
      have := Reader.at_ofStr (t.text ++ tail)
      unfold ScanTemplate.text FormatText.text at this ⊢
      rw [List.append_assoc] at this ⊢
      exact this)
    (by have := scan_segs_length t; simp [ScanTemplate.format]; omega)
    (by
      intro s h
      simp only [ScanTemplate.format, List.mem_map] at h
      obtain ⟨s', h', rfl⟩ := h
      exact wide_field_wf hs h')
    (by rw [hmap]; exact scan_mode hs) (by simp)
    (by
      intro k hk
      rw [hmap] at hk
      simp only [List.length_map]
      exact (hs.arguments k).1 (by rw [scan_args]; exact hk))
    (readsSegs_of_all _ _ _ (by
      rw [hmap]
      refine silent_readsAll t.segs 0 hs.grammar ?_
      intro x hx
      exact hs.allowed x (by rw [scan_args]; exact hx)))
    (htail.imp id fun h => ⟨h.1, h.2, by simp⟩)
  have : b = true := hb'.2 fun k hk => Or.inr (by
    simp only [List.length_map] at hk
    rw [hmap]
    have := (hs.arguments k).2 hk
    rw [scan_args] at this
    exact this)
  rw [hb, this]

theorem scan_tail_validates {t : ScanTemplate} {tys : List ScanTy} (hs : t.Suits tys) {tail : Str}
    (htail : tail = [] ∨ Begins255 tail ∧ t.format.Explicit) :
    validateStr (t.text ++ tail) (tys.map ScanTy.farg) = .ok () true := wide_tail_validates (suits_wide hs) htail

theorem scan_validates {t : ScanTemplate} {tys : List ScanTy} (hs : t.Suits tys) :
    validateStr t.text (tys.map ScanTy.farg) = .ok () true := by
  have := scan_tail_validates hs (tail := []) (Or.inl rfl)
  simpa using this

theorem wide_eq {t : ScanTemplate} {tys : List ScanTy} (hs : WideSuits t tys) {tail : Str}
    (htail : tail = [] ∨ Begins255 tail ∧ t.format.Explicit) (io : ScanIO) :
    scanFrom (t.text ++ tail) tys io = scanSegs tys t.last tail 0 t.segs io := by
  unfold scanFrom VStr.make
  by_cases hp : (tys.map ScanTy.farg).length = 0 ∧ checkIfPlainString (t.text ++ tail) = true
  · have htn : tail = [] := by
      rcases htail with h | ⟨⟨ds, c, rest, rfl, _⟩, _⟩
      · exact h
      · have := ((plain_iff _).1 hp.2).1
        simp at this
    subst htn
    rw [List.append_nil] at hp ⊢
    obtain ⟨hsg, ht⟩ := plain_text hp.2
    have hsg' : t.segs = [] := by simpa [ScanTemplate.format] using hsg
    have ht' : t.text = t.last := ht
    have hpl := (plain_iff _).1 hp.2
    rw [if_pos hp, hsg']
    simp only [vscanFrom, if_true, scanSegs, ScanIO.onInp, matchLit]
    rw [litPieces_plain _ _ (by rw [← ht']; exact hpl.1) (by rw [← ht']; exact hpl.2), ht']
    by_cases hn : t.last = []
    · rw [hn]
      simp only [List.append_nil, ne_eq, not_true, if_false, matchAll]
      rw [C06_read_if_match_str]
      simp
    · simp only [List.nil_append, ne_eq, hn, not_false_iff, if_true, matchAll]
      cases hm : readIfMatchStr t.last io.inp with
      | ok r a => rw [M.bind_ok hm]; rfl
      | err r e => rw [M.bind_err hm]
      | bad b => rw [M.bind_bad hm]
  · rw [if_neg hp, wide_tail_validates hs htail]
    simp only [vscanFrom, Bool.false_eq_true, if_false]
    have := scanLoop_eq tys hs.number t.last tail t.segs ((t.text ++ tail).length + 1) ⟨Reader.ofStr (t.text ++ tail), none, 0⟩
      io.inp io.vars (Reader.at_ofStr _) (by have := scan_segs_length t; simp; omega) (fun s h => (wide_field_wf hs h).idx)
      hs.grammar (scan_mode hs) (by simp) (fun k hk => (hs.arguments k).1 (by rw [scan_args]; exact hk))
      (htail.imp id fun h => ⟨h.1, by rw [← scan_fields]; exact h.2, by simp⟩)
    simp only at this
    rw [← this]
    cases scanLoop tys ((t.text ++ tail).length + 1) ⟨⟨Reader.ofStr (t.text ++ tail), none, 0⟩, io.inp, io.vars⟩ <;> rfl

theorem scan_eq {t : ScanTemplate} {tys : List ScanTy} (hs : t.Suits tys) (io : ScanIO) :
    scanFrom t.text tys io = scanSegs tys t.last [] 0 t.segs io := by
  have := wide_eq (suits_wide hs) (tail := []) (Or.inl rfl) io
  rwa [List.append_nil] at this

/-- The text of a scan string from the second of two fields on. -/
theorem reduced_sameLit (segs : List (Str × ScanHole)) (last tail : Str) (hd : ∀ s ∈ segs, ∀ c ∈ s.2.idx, isDigit c = true) :
    ScanTemplate.text ⟨segs.map fun s => (s.1, s.2.reduced), last⟩ ++ tail = ScanTemplate.text ⟨segs, last⟩ ++ tail ∨
    SameLit (ScanTemplate.text ⟨segs.map fun s => (s.1, s.2.reduced), last⟩ ++ tail) (ScanTemplate.text ⟨segs, last⟩ ++ tail) := by
  cases segs with
  | nil => exact Or.inl rfl
  | cons s segs =>
    obtain ⟨lit, hole⟩ := s
    right
    simp only [List.map_cons]
    rw [scanTemplate_text_cons, hole_sp_text, scanTemplate_text_cons, hole_sp_text]
    simp only [List.append_assoc, List.cons_append]
    have hd0 := hd (lit, hole) (by simp)
    have hb : ∀ (h : ScanHole) (y : Str), h.spec.isSome = false → (h.sp.text ++ '}' :: y).head? = some '}' := by
      intro h y hn
      have : h.spec = none := by cases hh : h.spec <;> simp_all
      simp [ScanHole.sp, this, ScanSpec.text]
    obtain ⟨d, tl, hdt, hne⟩ := field_head (colon := hole.reduced.spec.isSome) (idx := hole.reduced.idx) hd0
      (hb hole.reduced (ScanTemplate.text ⟨segs.map fun s => (s.1, s.2.reduced), last⟩ ++ tail))
    obtain ⟨d', tl', hdt', hne'⟩ := field_head hd0 (hb hole (ScanTemplate.text ⟨segs, last⟩ ++ tail))
    exact ⟨lit, d, d', tl, tl', by rw [hdt], by rw [hdt'], hne, hne'⟩

theorem scanSegs_reduced (tys : List ScanTy) (last tail : Str) : ∀ (segs : List (Str × ScanHole)) (i : Nat),
    (∀ s ∈ segs, ∀ c ∈ s.2.idx, isDigit c = true) → (∀ s ∈ segs, s.2.sp.NumbersPass) →
    scanSegs tys last tail i segs = scanSegs tys last tail i (segs.map fun s => (s.1, s.2.reduced)) := by
  intro segs
  induction segs with
  | nil => intros; rfl
  | cons s segs ih =>
    intro i hd hp
    obtain ⟨lit, hole⟩ := s
    simp only [List.map_cons]
    unfold scanSegs
    rw [scan_reduced_argument, ← ih (i + 1) (fun s hs => hd s (by simp [hs])) (fun s hs => hp s (by simp [hs]))]
    have ht : hole.reduced.sp.taken = hole.sp.taken := by
      rw [scan_hole_reduced, (scan_fits_pass (scan_reduced_fits (hp (lit, hole) (by simp)))).2, scan_reduced_meaning]
    have hs : ∀ ty : ScanTy, ty.scan hole.sp.taken (.ofStr (ScanTemplate.text ⟨segs, last⟩ ++ tail)) =
        ty.scan hole.reduced.sp.taken (.ofStr (ScanTemplate.text ⟨segs.map fun s => (s.1, s.2.reduced), last⟩ ++ tail)) := by
      intro ty
      rw [ht]
      rcases reduced_sameLit segs last tail (fun s hs => hd s (by simp [hs])) with h | h
      · rw [h]
      · exact (scan_same ty _ h).symm
    simp only [hs]

/-- The scan of any accepted scan string, in terms of the reduced one. -/
theorem wide_eq_reduced {t : ScanTemplate} {tys : List ScanTy} (hs : WideSuits t tys) {tail : Str}
    (htail : tail = [] ∨ Begins255 tail ∧ t.format.Explicit) (io : ScanIO) :
    scanFrom (t.text ++ tail) tys io = scanSegs tys t.reduced.last tail 0 t.reduced.segs io := by
  rw [wide_eq hs htail, scanSegs_reduced tys t.last tail t.segs 0 (fun s h => (wide_field_wf hs h).idx)
    (fun s h => (hs.grammar s h).2)]
  rfl

/-! ### Accepted scan strings -/

theorem scan_text_no_brace {sp : ScanSpec} (wf : sp.WellFormed) : '}' ∉ sp.text := by
  intro h
  unfold ScanSpec.text at h
  simp only [List.mem_append, Option.mem_toList] at h
  rcases h with (h | h) | h
  · split at h <;> simp at h
  · have := wf.width _ h; revert this; decide
  · have := wf.type _ h; revert this; decide

theorem scan_text_nil {sp : ScanSpec} (h : sp.text = []) : sp = {} := by
  obtain ⟨a, w, t⟩ := sp
  unfold ScanSpec.text at h
  simp only [List.append_eq_nil_iff, Option.toList_eq_nil_iff] at h
  obtain ⟨⟨h1, h2⟩, h3⟩ := h
  subst h2 h3
  cases a <;> simp_all

theorem scan_takes (ty : ScanTy) {body : Str} (h : ty.farg.Takes body) :
    ∃ sp : ScanSpec, (sp.WellFormed ∧ sp.NumbersPass) ∧ body = sp.text ++ ['}'] ∧ ScanTy.Allows ty sp.reduced := by
  obtain ⟨r, tail, hat, hv⟩ := h
  have hv' : ty.validate r = .ok (r.adv body.length) () := hv
  unfold ScanTy.validate at hv'
  obtain ⟨r1, s, h1, h2⟩ := bind_ok_inv hv'
  obtain ⟨sp, tail', wf, hrest, hr', hpass, hs⟩ := scan_specs_backward hat.1 h1
  by_cases hc : ty.check s = true
  swap
  · rw [if_neg hc] at h2; simp at h2
  rw [if_pos hc] at h2
  obtain ⟨rfl, _⟩ := ok_inj h2
  refine ⟨sp, ⟨wf, hpass⟩, ?_, (scan_allows_iff ty (scan_reduced_wellFormed wf) (scan_reduced_fits hpass)).1
    (by rw [scan_reduced_meaning, ← hs]; exact hc)⟩
  have hlen : body.length = (sp.text ++ ['}']).length := by
    have := congrArg Reader.pos hr'
    simp [Reader.adv] at this ⊢
    omega
  have he : body ++ tail = (sp.text ++ ['}']) ++ tail' := by
    rw [← hat.2, hrest]; simp
  exact (List.append_inj he hlen).1

theorem scan_hole_of_field (ty : ScanTy) (f : Field) (wf : f.WellFormed) (h : ty.farg.Takes f.body) :
    ∃ hole : ScanHole, hole.field = f ∧ (hole.sp.WellFormed ∧ hole.sp.NumbersPass) ∧
      ScanTy.Allows ty hole.sp.reduced := by
  obtain ⟨sp, hwf, hb, hc⟩ := scan_takes ty h
  obtain ⟨idx, colon, body⟩ := f
  simp only at hb
  cases colon with
  | true => exact ⟨⟨idx, some sp⟩, by simp [ScanHole.field, hb], hwf, hc⟩
  | false =>
    have hn : sp.text = [] := by
      have := wf.body rfl
      simp only [hb] at this
      cases hs : sp.text with
      | nil => rfl
      | cons c l =>
        rw [hs] at this
        simp only [List.cons_append, List.head?_cons, Option.some.injEq] at this
        exact absurd (by rw [hs, this]; simp) (scan_text_no_brace hwf.1)
    obtain rfl := scan_text_nil hn
    exact ⟨⟨idx, none⟩, by simp [ScanHole.field, hb, hn], hwf, hc⟩

theorem scan_holes_of_segs (tys : List ScanTy) : ∀ (segs : List (Str × Field)) (i : Nat),
    (∀ s ∈ segs, s.2.WellFormed) →
    (∀ x ∈ (argsFrom i (segs.map (·.2))).zip (segs.map (·.2)), ∃ a, (tys.map ScanTy.farg)[x.1]? = some a ∧
      a.Takes x.2.body) →
    ∃ hs : List (Str × ScanHole), hs.map (fun s => (s.1, s.2.field)) = segs ∧
      (∀ s ∈ hs, s.2.sp.WellFormed ∧ s.2.sp.NumbersPass) ∧
      ∀ x ∈ (argsFrom i (segs.map (·.2))).zip hs, ∃ ty, tys[x.1]? = some ty ∧ ScanTy.Allows ty x.2.2.sp.reduced := by
  intro segs
  induction segs with
  | nil => intro i _ _; exact ⟨[], rfl, by simp, by simp⟩
  | cons s segs ih =>
    intro i hwf h
    simp only [List.map_cons, argsFrom, List.zip_cons_cons, List.mem_cons, forall_eq_or_imp] at h hwf
    obtain ⟨⟨fa, hfa, htakes⟩, h⟩ := h
    obtain ⟨hs, g1, g2, g3⟩ := ih (i + 1) hwf.2 h
    rw [List.getElem?_map, Option.map_eq_some_iff] at hfa
    obtain ⟨ty, ha, rfl⟩ := hfa
    obtain ⟨hole, h1, h2, h3⟩ := scan_hole_of_field ty s.2 hwf.1 htakes
    refine ⟨(s.1, hole) :: hs, by simp [g1, h1], ?_, ?_⟩
    · simp only [List.mem_cons, forall_eq_or_imp]
      exact ⟨h2, g2⟩
    · simp only [List.map_cons, argsFrom, List.zip_cons_cons, List.mem_cons, forall_eq_or_imp]
      exact ⟨⟨ty, ha, h3⟩, g3⟩

theorem scan_accepted {str : Str} {tys : List ScanTy} (hlen : tys.length ≤ 128)
    (hv : validateStr str (tys.map ScanTy.farg) = .ok () true) :
    ∃ (t : ScanTemplate) (tail : Str), str = t.text ++ tail ∧
      (tail = [] ∨ Begins255 tail ∧ t.format.Explicit) ∧ WideSuits t tys := by
  have ht : ∀ a ∈ tys.map ScanTy.farg, a.Tame := by
    intro a ha
    rw [List.mem_map] at ha
    obtain ⟨c, _, rfl⟩ := ha
    exact scan_tame c
  obtain ⟨t, tail, g1, g2, g3, g4, g5, g6, g7⟩ := loop_backward _ ht (str.length + 1) ⟨Reader.ofStr str, none, 0⟩
    (Bitset.new 128) [] (Bitset.rep_new 128) rfl (Reader.at_ofStr _).1 (by simp) hv
  obtain ⟨hs, h1, h2, h3⟩ := scan_holes_of_segs tys t.segs 0
    (fun s hs => g2 s.2 (List.mem_map_of_mem hs)) g6
  have hf : (ScanTemplate.mk hs t.last).format = t := by
    unfold ScanTemplate.format
    simp only [h1]
  refine ⟨⟨hs, t.last⟩, tail, ?_, g7.imp id fun h => ⟨h.1, by rw [hf]; exact h.2.1⟩, hlen, ?_, h2, ?_, ?_, ?_⟩
  · unfold ScanTemplate.text
    rw [hf, ← g1]
    exact (Reader.at_ofStr _).2.symm
  · intro s hmem c hc
    have : s.2.field ∈ t.fields := by
      unfold FormatText.fields
      rw [← h1]
      simp only [List.map_map, List.mem_map]
      exact ⟨s, hmem, rfl⟩
    exact (g2 _ this).idx c hc
  · rw [hf]
    rcases g3 with ⟨h, _⟩ | ⟨h, _⟩
    · exact Or.inl h
    · exact Or.inr h
  · intro k
    rw [hf, argsFrom_eq]
    simp only [List.length_map, List.not_mem_nil, false_or] at g4 g5
    exact ⟨g4 k, g5 k⟩
  · intro x hx
    rw [hf, argsFrom_eq] at hx
    exact h3 x hx

end Emio
