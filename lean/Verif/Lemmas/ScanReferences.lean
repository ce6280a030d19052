import Verif.Spec.ScanReferences
/-
Lemmas about scanning into variables that are referred to by addresses.
-/
namespace Emio

/-- What is done does not depend on the value the variable has. -/
def Blind (act : M Slot Unit) : Prop :=
  ∀ inp, (∃ inp' w, ∀ v, act ⟨inp, v⟩ = .ok ⟨inp', w⟩ ()) ∨
    (∃ inp' e, ∃ w : Option ScanVal, ∀ v, act ⟨inp, v⟩ = .err ⟨inp', w.getD v⟩ e) ∨ ∃ b, ∀ v, act ⟨inp, v⟩ = .bad b

theorem readInt_blind (t : IntTy) (s : ScanSpecs) : Blind (readInt t s) := by
  intro inp
  unfold readInt
  simp only
  cases scanWindow s inp with
  | bad b => exact Or.inr (Or.inr ⟨b, fun _ => rfl⟩)
  | err u e => exact Or.inr (Or.inl ⟨inp, e, none, fun _ => rfl⟩)
  | ok u r =>
    simp only
    cases scanNumber t s r with
    | bad b => exact Or.inr (Or.inr ⟨b, fun _ => rfl⟩)
    | err u e => exact Or.inr (Or.inl ⟨inp, e, none, fun _ => rfl⟩)
    | ok r v =>
      simp only
      by_cases hw : s.width ≠ noWidth
      · simp only [if_pos hw]
        by_cases he : (!r.eof) = true
        · simp only [if_pos he]
          exact Or.inr (Or.inl ⟨inp, .invalidData, some (.int v), fun _ => rfl⟩)
        · simp only [if_neg he]
          exact Or.inl ⟨_, _, fun _ => rfl⟩
      · simp only [if_neg hw]
        exact Or.inl ⟨_, _, fun _ => rfl⟩

theorem readInteger_blind (t : IntTy) (s : ScanSpecs) : Blind (readInteger t s) := by
  intro inp
  unfold readInteger
  by_cases ht : t.upcast = t
  · simp only [if_pos ht]
    exact readInt_blind t s inp
  · simp only [if_neg ht]
    cases readInt t.upcast s ⟨inp, .int 0⟩ with
    | bad b => exact Or.inr (Or.inr ⟨b, fun _ => rfl⟩)
    | err st e => exact Or.inr (Or.inl ⟨st.inp, e, none, fun _ => rfl⟩)
    | ok st u =>
      simp only
      cases st.var with
      | int w =>
        simp only
        by_cases hr : w < t.min ∨ w > t.max
        · simp only [if_pos hr]
          exact Or.inr (Or.inl ⟨st.inp, .outOfRange, none, fun _ => rfl⟩)
        · simp only [if_neg hr]
          exact Or.inl ⟨_, _, fun _ => rfl⟩
      | char c => exact Or.inr (Or.inr ⟨_, fun _ => rfl⟩)
      | str c => exact Or.inr (Or.inr ⟨_, fun _ => rfl⟩)

theorem scan_blind (ty : ScanTy) (s : ScanSpecs) (fmt : Reader) : Blind (ty.scan s fmt) := by
  cases ty with
  | char =>
    intro inp
    show (∃ inp' w, ∀ v, readCharArg ⟨inp, v⟩ = _) ∨ _ ∨ ∃ b, ∀ v, readCharArg ⟨inp, v⟩ = _
    unfold ScanTy.scan readCharArg
    simp only
    cases Reader.readChar inp with
    | bad b => exact Or.inr (Or.inr ⟨b, fun _ => rfl⟩)
    | err r e => exact Or.inr (Or.inl ⟨inp, e, none, fun _ => rfl⟩)
    | ok r c => exact Or.inl ⟨_, _, fun _ => rfl⟩
  | int t => exact readInteger_blind t s
  | string =>
    intro inp
    show (∃ inp' w, ∀ v, readStringArg s fmt ⟨inp, v⟩ = _) ∨ _ ∨ ∃ b, ∀ v, readStringArg s fmt ⟨inp, v⟩ = _
    unfold ScanTy.scan readStringArg
    simp only
    cases readString s fmt inp with
    | bad b => exact Or.inr (Or.inr ⟨b, fun _ => rfl⟩)
    | err r e => exact Or.inr (Or.inl ⟨r, e, none, fun _ => rfl⟩)
    | ok r c => exact Or.inl ⟨_, _, fun _ => rfl⟩

theorem parse_blind {ty : ScanTy} {r r' : Reader} {act : M Slot Unit} (h : ty.parse r = .ok r' act) : Blind act := by
  unfold ScanTy.parse at h
  cases hp : parseScanSpecs {} r with
  | bad b => rw [M.bind_bad hp] at h; cases h
  | err r1 e => rw [M.bind_err hp] at h; cases h
  | ok r1 s =>
    rw [M.bind_ok hp] at h
    have : (Run.ok r1 (ty.scan s r1) : Run Reader (M Slot Unit)) = .ok r' act := h
    cases this
    exact scan_blind ty s _

/-- The assignments have the same effect. -/
def SSt.OnMem (addrs : List Nat) (vars : List ScanVal) (mem : ScanMemory) (x : Run SSt Unit) (y : Run MSt Unit) : Prop :=
  ∃ ws, (∀ w ∈ ws, w.1 < addrs.length) ∧
    ((∃ p inp, x = .ok ⟨p, inp, assignVars vars ws⟩ () ∧ y = .ok ⟨p, inp, assignMem addrs mem ws⟩ ()) ∨
    (∃ p inp e, x = .err ⟨p, inp, assignVars vars ws⟩ e ∧ y = .err ⟨p, inp, assignMem addrs mem ws⟩ e) ∨
    ∃ b, x = .bad b ∧ y = .bad b)

theorem scanParse_vars (s : SSt) (vars : List ScanVal) :
    scanParse ⟨s.p, s.inp, vars⟩ =
      match scanParse s with
      | .ok s' n => .ok ⟨s'.p, s'.inp, vars⟩ n
      | .err s' e => .err ⟨s'.p, s'.inp, vars⟩ e
      | .bad b => .bad b := by
  unfold scanParse
  simp only
  cases Unchecked.scan [] s.p.rdr.rest 0 with
  | none => rfl
  | some x =>
    obtain ⟨n, field, pieces⟩ := x
    simp only
    cases matchAll pieces s.inp with
    | bad b => rfl
    | err r e => rfl
    | ok r u =>
      simp only
      cases field with
      | false => rfl
      | true =>
        simp only [Bool.not_true, Bool.false_eq_true, if_false]
        generalize Unchecked.replacementField _ = y
        cases y <;> rfl

theorem loop_onMem (refs : List (Nat × ScanTy)) :
    ∀ (fuel : Nat) (p : PSt) (inp : Reader) (vars : List ScanVal) (mem : ScanMemory), vars.length = refs.length →
      (∀ r ∈ refs, mem r.1 ≠ none) →
      SSt.OnMem (refs.map (·.1)) vars mem (scanLoop (refs.map (·.2)) fuel ⟨p, inp, vars⟩) (memLoop refs fuel ⟨p, inp, mem⟩) := by
  intro fuel
  induction fuel with
  | zero => intro p inp vars mem _ _; exact ⟨[], by simp, Or.inr (Or.inr ⟨_, rfl, rfl⟩)⟩
  | succ fuel ih =>
    intro p inp vars mem hlen hmem
    rw [scanLoop, memLoop]
    have hv := scanParse_vars ⟨p, inp, []⟩ vars
    cases hs : scanParse ⟨p, inp, []⟩ with
    | bad b =>
      rw [hs] at hv
      have hm : memParse ⟨p, inp, mem⟩ = .bad b := by unfold memParse; rw [hs]
      rw [M.bind_bad hv, M.bind_bad hm]
      exact ⟨[], by simp, Or.inr (Or.inr ⟨_, rfl, rfl⟩)⟩
    | err s' e =>
      rw [hs] at hv
      have hm : memParse ⟨p, inp, mem⟩ = .err ⟨s'.p, s'.inp, mem⟩ e := by unfold memParse; rw [hs]
      rw [M.bind_err hv, M.bind_err hm]
      exact ⟨[], by simp, Or.inr (Or.inl ⟨_, _, _, rfl, rfl⟩)⟩
    | ok s' n =>
      rw [hs] at hv
      have hm : memParse ⟨p, inp, mem⟩ = .ok ⟨s'.p, s'.inp, mem⟩ n := by unfold memParse; rw [hs]
      rw [M.bind_ok hv, M.bind_ok hm]
      by_cases hn : n = noMoreArgs
      · rw [if_pos hn, if_pos hn]
        exact ⟨[], by simp, Or.inl ⟨_, _, rfl, rfl⟩⟩
      · rw [if_neg hn, if_neg hn]
        cases hr : refs[n]? with
        | none =>
          have : (refs.map (·.2))[n]? = none := by rw [List.getElem?_map, hr]; rfl
          rw [this]
          exact ⟨[], by simp, Or.inr (Or.inr ⟨_, rfl, rfl⟩)⟩
        | some ref =>
          have : (refs.map (·.2))[n]? = some ref.2 := by rw [List.getElem?_map, hr]; rfl
          rw [this]
          simp only
          have hlt : n < refs.length := (List.getElem?_eq_some_iff.1 hr).1
          have hvn : vars[n]? = some (vars[n]'(by omega)) := List.getElem?_eq_getElem _
          obtain ⟨mv, hmv⟩ := Option.ne_none_iff_exists'.1 (hmem ref (List.mem_of_getElem? hr))
          have hset : ∀ w, mem.set ref.1 w = assignMem (refs.map (·.1)) mem [(n, w)] := by
            intro w
            funext a
            simp only [ScanMemory.set, assignMem, List.getElem?_map, hr, Option.map_some, Option.some.injEq]
            by_cases h : a = ref.1
            · rw [if_pos h, if_pos h.symm]
            · rw [if_neg h, if_neg (fun h' => h h'.symm)]
          have hsame : mem.set ref.1 mv = mem := by
            funext a
            unfold ScanMemory.set
            split
            · rename_i h; rw [h, hmv]
            · rfl
          have hsame' : vars.set n (vars[n]'(by omega)) = vars := List.set_getElem_self _
          cases hp : ref.2.parse s'.p.rdr with
          | bad b =>
            have h1 : scanArg n ref.2 ⟨s'.p, s'.inp, vars⟩ = .bad b := by unfold scanArg; simp only [hp]
            have h2 : memArg ref.1 ref.2 ⟨s'.p, s'.inp, mem⟩ = .bad b := by unfold memArg; simp only [hp]
            rw [M.bind_bad h1, M.bind_bad h2]
            exact ⟨[], by simp, Or.inr (Or.inr ⟨_, rfl, rfl⟩)⟩
          | err r e =>
            have h1 : scanArg n ref.2 ⟨s'.p, s'.inp, vars⟩ = .err ⟨{ s'.p with rdr := r }, s'.inp, vars⟩ e := by
              unfold scanArg; simp only [hp]
            have h2 : memArg ref.1 ref.2 ⟨s'.p, s'.inp, mem⟩ = .err ⟨{ s'.p with rdr := r }, s'.inp, mem⟩ e := by
              unfold memArg; simp only [hp]
            rw [M.bind_err h1, M.bind_err h2]
            exact ⟨[], by simp, Or.inr (Or.inl ⟨_, _, _, rfl, rfl⟩)⟩
          | ok r act =>
            rcases parse_blind hp s'.inp with ⟨inp', w, hact⟩ | ⟨inp', e, w, hact⟩ | ⟨b, hact⟩
            · have h1 : scanArg n ref.2 ⟨s'.p, s'.inp, vars⟩ = .ok ⟨{ s'.p with rdr := r }, inp', vars.set n w⟩ () := by
                unfold scanArg; simp only [hp, hvn, hact]
              have h2 : memArg ref.1 ref.2 ⟨s'.p, s'.inp, mem⟩ = .ok ⟨{ s'.p with rdr := r }, inp', mem.set ref.1 w⟩ () := by
                unfold memArg; simp only [hp, hmv, hact]
              rw [M.bind_ok h1, M.bind_ok h2]
              obtain ⟨ws, g1, g2⟩ := ih { s'.p with rdr := r } inp' (vars.set n w) (mem.set ref.1 w) (by simpa using hlen) (by
                intro x hx
                unfold ScanMemory.set
                split
                · simp
                · exact hmem x hx)
              refine ⟨(n, w) :: ws, ?_, ?_⟩
              · intro x hx
                rcases List.mem_cons.1 hx with rfl | hx
                · simpa using hlt
                · exact g1 x hx
              · rw [hset] at g2 ⊢
                exact g2
            · cases w with
              | none =>
                have h1 : scanArg n ref.2 ⟨s'.p, s'.inp, vars⟩ = .err ⟨{ s'.p with rdr := r }, inp', vars⟩ e := by
                  unfold scanArg; simp only [hp, hvn, hact, Option.getD_none, hsame']
                have h2 : memArg ref.1 ref.2 ⟨s'.p, s'.inp, mem⟩ = .err ⟨{ s'.p with rdr := r }, inp', mem⟩ e := by
                  unfold memArg; simp only [hp, hmv, hact, Option.getD_none, hsame]
                rw [M.bind_err h1, M.bind_err h2]
                exact ⟨[], by simp, Or.inr (Or.inl ⟨_, _, _, rfl, rfl⟩)⟩
              | some w =>
                have h1 : scanArg n ref.2 ⟨s'.p, s'.inp, vars⟩ = .err ⟨{ s'.p with rdr := r }, inp', vars.set n w⟩ e := by
                  unfold scanArg; simp only [hp, hvn, hact, Option.getD_some]
                have h2 : memArg ref.1 ref.2 ⟨s'.p, s'.inp, mem⟩ = .err ⟨{ s'.p with rdr := r }, inp', mem.set ref.1 w⟩ e := by
                  unfold memArg; simp only [hp, hmv, hact, Option.getD_some]
                rw [M.bind_err h1, M.bind_err h2]
                refine ⟨[(n, w)], by simpa using hlt, Or.inr (Or.inl ⟨_, _, _, rfl, ?_⟩)⟩
                rw [hset]
            · have h1 : scanArg n ref.2 ⟨s'.p, s'.inp, vars⟩ = .bad b := by unfold scanArg; simp only [hp, hvn, hact]
              have h2 : memArg ref.1 ref.2 ⟨s'.p, s'.inp, mem⟩ = .bad b := by unfold memArg; simp only [hp, hmv, hact]
              rw [M.bind_bad h1, M.bind_bad h2]
              exact ⟨[], by simp, Or.inr (Or.inr ⟨_, rfl, rfl⟩)⟩

/-- Without the assumption that all variables are there. -/
theorem loop_onMem_any (refs : List (Nat × ScanTy)) :
    ∀ (fuel : Nat) (p : PSt) (inp : Reader) (vars : List ScanVal) (mem : ScanMemory), vars.length = refs.length →
      memLoop refs fuel ⟨p, inp, mem⟩ = .bad .ub ∨
      ∃ ws : List (Nat × ScanVal), (∀ w ∈ ws, ∃ r, refs[w.1]? = some r ∧ mem r.1 ≠ none) ∧
        ((∃ p' inp', scanLoop (refs.map (·.2)) fuel ⟨p, inp, vars⟩ = .ok ⟨p', inp', assignVars vars ws⟩ () ∧
          memLoop refs fuel ⟨p, inp, mem⟩ = .ok ⟨p', inp', assignMem (refs.map (·.1)) mem ws⟩ ()) ∨
        (∃ p' inp' e, scanLoop (refs.map (·.2)) fuel ⟨p, inp, vars⟩ = .err ⟨p', inp', assignVars vars ws⟩ e ∧
          memLoop refs fuel ⟨p, inp, mem⟩ = .err ⟨p', inp', assignMem (refs.map (·.1)) mem ws⟩ e) ∨
        ∃ b, scanLoop (refs.map (·.2)) fuel ⟨p, inp, vars⟩ = .bad b ∧ memLoop refs fuel ⟨p, inp, mem⟩ = .bad b) := by
  intro fuel
  induction fuel with
  | zero => intro p inp vars mem _; exact Or.inr ⟨[], by simp, Or.inr (Or.inr ⟨_, rfl, rfl⟩)⟩
  | succ fuel ih =>
    intro p inp vars mem hlen
    rw [scanLoop, memLoop]
    have hv := scanParse_vars ⟨p, inp, []⟩ vars
    cases hs : scanParse ⟨p, inp, []⟩ with
    | bad b =>
      rw [hs] at hv
      have hm : memParse ⟨p, inp, mem⟩ = .bad b := by unfold memParse; rw [hs]
      rw [M.bind_bad hv, M.bind_bad hm]
      exact Or.inr ⟨[], by simp, Or.inr (Or.inr ⟨_, rfl, rfl⟩)⟩
    | err s' e =>
      rw [hs] at hv
      have hm : memParse ⟨p, inp, mem⟩ = .err ⟨s'.p, s'.inp, mem⟩ e := by unfold memParse; rw [hs]
      rw [M.bind_err hv, M.bind_err hm]
      exact Or.inr ⟨[], by simp, Or.inr (Or.inl ⟨_, _, _, rfl, rfl⟩)⟩
    | ok s' n =>
      rw [hs] at hv
      have hm : memParse ⟨p, inp, mem⟩ = .ok ⟨s'.p, s'.inp, mem⟩ n := by unfold memParse; rw [hs]
      rw [M.bind_ok hv, M.bind_ok hm]
      by_cases hn : n = noMoreArgs
      · rw [if_pos hn, if_pos hn]
        exact Or.inr ⟨[], by simp, Or.inl ⟨_, _, rfl, rfl⟩⟩
      · rw [if_neg hn, if_neg hn]
        cases hr : refs[n]? with
        | none =>
          have : (refs.map (·.2))[n]? = none := by rw [List.getElem?_map, hr]; rfl
          rw [this]
          exact Or.inr ⟨[], by simp, Or.inr (Or.inr ⟨_, rfl, rfl⟩)⟩
        | some ref =>
          have : (refs.map (·.2))[n]? = some ref.2 := by rw [List.getElem?_map, hr]; rfl
          rw [this]
          simp only
          have hlt : n < refs.length := (List.getElem?_eq_some_iff.1 hr).1
          have hvn : vars[n]? = some (vars[n]'(by omega)) := List.getElem?_eq_getElem _
          have hset : ∀ w, mem.set ref.1 w = assignMem (refs.map (·.1)) mem [(n, w)] := by
            intro w
            funext a
            simp only [ScanMemory.set, assignMem, List.getElem?_map, hr, Option.map_some, Option.some.injEq]
            by_cases h : a = ref.1
            · rw [if_pos h, if_pos h.symm]
            · rw [if_neg h, if_neg (fun h' => h h'.symm)]
          have hsame' : vars.set n (vars[n]'(by omega)) = vars := List.set_getElem_self _
          cases hp : ref.2.parse s'.p.rdr with
          | bad b =>
            have h1 : scanArg n ref.2 ⟨s'.p, s'.inp, vars⟩ = .bad b := by unfold scanArg; simp only [hp]
            have h2 : memArg ref.1 ref.2 ⟨s'.p, s'.inp, mem⟩ = .bad b := by unfold memArg; simp only [hp]
            rw [M.bind_bad h1, M.bind_bad h2]
            exact Or.inr ⟨[], by simp, Or.inr (Or.inr ⟨_, rfl, rfl⟩)⟩
          | err r e =>
            have h1 : scanArg n ref.2 ⟨s'.p, s'.inp, vars⟩ = .err ⟨{ s'.p with rdr := r }, s'.inp, vars⟩ e := by
              unfold scanArg; simp only [hp]
            have h2 : memArg ref.1 ref.2 ⟨s'.p, s'.inp, mem⟩ = .err ⟨{ s'.p with rdr := r }, s'.inp, mem⟩ e := by
              unfold memArg; simp only [hp]
            rw [M.bind_err h1, M.bind_err h2]
            exact Or.inr ⟨[], by simp, Or.inr (Or.inl ⟨_, _, _, rfl, rfl⟩)⟩
          | ok r act =>
            cases hmv : mem ref.1 with
            | none =>
              have h2 : memArg ref.1 ref.2 ⟨s'.p, s'.inp, mem⟩ = .bad .ub := by unfold memArg; simp only [hp, hmv]
              exact Or.inl (M.bind_bad h2)
            | some mv =>
            have hsame : mem.set ref.1 mv = mem := by
              funext a
              unfold ScanMemory.set
              split
              · rename_i h; rw [h, hmv]
              · rfl
            rcases parse_blind hp s'.inp with ⟨inp', w, hact⟩ | ⟨inp', e, w, hact⟩ | ⟨b, hact⟩
            · have h1 : scanArg n ref.2 ⟨s'.p, s'.inp, vars⟩ = .ok ⟨{ s'.p with rdr := r }, inp', vars.set n w⟩ () := by
                unfold scanArg; simp only [hp, hvn, hact]
              have h2 : memArg ref.1 ref.2 ⟨s'.p, s'.inp, mem⟩ = .ok ⟨{ s'.p with rdr := r }, inp', mem.set ref.1 w⟩ () := by
                unfold memArg; simp only [hp, hmv, hact]
              rw [M.bind_ok h1, M.bind_ok h2]
              rcases ih { s'.p with rdr := r } inp' (vars.set n w) (mem.set ref.1 w) (by simpa using hlen) with g0 | ⟨ws, g1, g2⟩
              · exact Or.inl g0
              refine Or.inr ⟨(n, w) :: ws, ?_, ?_⟩
              · intro x hx
                rcases List.mem_cons.1 hx with rfl | hx
                · exact ⟨ref, hr, by simp [hmv]⟩
                · obtain ⟨y, hy, hm'⟩ := g1 x hx
                  refine ⟨y, hy, fun h0 => hm' ?_⟩
                  unfold ScanMemory.set
                  rw [if_neg (fun h => by rw [h, hmv] at h0; cases h0)]
                  exact h0
              · rw [hset] at g2 ⊢
                exact g2
            · cases w with
              | none =>
                have h1 : scanArg n ref.2 ⟨s'.p, s'.inp, vars⟩ = .err ⟨{ s'.p with rdr := r }, inp', vars⟩ e := by
                  unfold scanArg; simp only [hp, hvn, hact, Option.getD_none, hsame']
                have h2 : memArg ref.1 ref.2 ⟨s'.p, s'.inp, mem⟩ = .err ⟨{ s'.p with rdr := r }, inp', mem⟩ e := by
                  unfold memArg; simp only [hp, hmv, hact, Option.getD_none, hsame]
                rw [M.bind_err h1, M.bind_err h2]
                exact Or.inr ⟨[], by simp, Or.inr (Or.inl ⟨_, _, _, rfl, rfl⟩)⟩
              | some w =>
                have h1 : scanArg n ref.2 ⟨s'.p, s'.inp, vars⟩ = .err ⟨{ s'.p with rdr := r }, inp', vars.set n w⟩ e := by
                  unfold scanArg; simp only [hp, hvn, hact, Option.getD_some]
                have h2 : memArg ref.1 ref.2 ⟨s'.p, s'.inp, mem⟩ = .err ⟨{ s'.p with rdr := r }, inp', mem.set ref.1 w⟩ e := by
                  unfold memArg; simp only [hp, hmv, hact, Option.getD_some]
                rw [M.bind_err h1, M.bind_err h2]
                refine Or.inr ⟨[(n, w)], fun x hx => by rw [List.mem_singleton.1 hx]; exact ⟨ref, hr, by simp [hmv]⟩, Or.inr (Or.inl ⟨_, _, _, rfl, ?_⟩)⟩
                rw [hset]
            · have h1 : scanArg n ref.2 ⟨s'.p, s'.inp, vars⟩ = .bad b := by unfold scanArg; simp only [hp, hvn, hact]
              have h2 : memArg ref.1 ref.2 ⟨s'.p, s'.inp, mem⟩ = .bad b := by unfold memArg; simp only [hp, hmv, hact]
              rw [M.bind_bad h1, M.bind_bad h2]
              exact Or.inr ⟨[], by simp, Or.inr (Or.inr ⟨_, rfl, rfl⟩)⟩

end Emio
