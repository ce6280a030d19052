import Verif.Lemmas.ScanCompose
import Verif.Props.ScanExact
import Verif.Props.ComposeTypes
/-
Scan strings put together (C80), and the variables of a scan string in another order (C81).
-/
namespace Emio
open Reader Spec

theorem scanArguments_at (t : ScanTemplate) (i : Nat) :
    t.format.arguments[i]? = t.segs[i]?.map fun s => s.2.field.argument i := by
  unfold FormatText.arguments FormatText.fields ScanTemplate.format
  simp [List.getElem?_mapIdx, Option.map_map, Function.comp_def]

/-- When a scan string is accepted, field by field. -/
theorem scanAccepted_at (t : ScanTemplate) (tys : List ScanTy) : t.AcceptedFor tys ↔
    tys.length ≤ 128 ∧ (∀ s ∈ t.segs, ∀ c ∈ s.2.idx, c.isDigit) ∧ t.NumbersPass ∧
    ((∀ s ∈ t.segs, s.2.idx = []) ∨ (∀ s ∈ t.segs, s.2.idx ≠ [])) ∧
    (∀ k < tys.length, ∃ (i : Nat) (s : Str × ScanHole), t.segs[i]? = some s ∧ s.2.field.argument i = k) ∧
    ∀ (i : Nat) (s : Str × ScanHole), t.segs[i]? = some s → ∃ ty, tys[s.2.field.argument i]? = some ty ∧
      ScanTy.Allows ty s.2.sp.reduced := by
  have hmode : (t.format.Automatic ∨ t.format.Explicit) ↔
      ((∀ s ∈ t.segs, s.2.idx = []) ∨ (∀ s ∈ t.segs, s.2.idx ≠ [])) := by
    unfold FormatText.Automatic FormatText.Explicit FormatText.fields ScanTemplate.format
    simp only [List.forall_mem_map]
    rfl
  have hmem : ∀ k, k ∈ t.format.arguments ↔ ∃ (i : Nat) (s : Str × ScanHole), t.segs[i]? = some s ∧ s.2.field.argument i = k := by
    intro k
    rw [List.mem_iff_getElem?]
    constructor
    · rintro ⟨i, hi⟩
      rw [scanArguments_at] at hi
      obtain ⟨s, h1, h2⟩ := Option.map_eq_some_iff.1 hi
      exact ⟨i, s, h1, h2⟩
    · rintro ⟨i, s, h1, h2⟩
      exact ⟨i, by rw [scanArguments_at, h1, ← h2]; rfl⟩
  unfold ScanTemplate.AcceptedFor
  rw [← wide_iff]
  constructor
  · intro suits
    refine ⟨suits.number, suits.digits, suits.grammar, hmode.1 suits.mode, ?_, ?_⟩
    · intro k hk
      exact (hmem k).1 ((suits.arguments k).2 hk)
    · intro i s hs
      exact suits.allowed (s.2.field.argument i, s) (mem_zip_get (i := i) (by rw [scanArguments_at, hs]; rfl) hs)
  · rintro ⟨h1, h2, pass, h4, h5, h6⟩
    refine ⟨h1, h2, pass, hmode.2 h4, ?_, ?_⟩
    · intro k
      rw [hmem]
      constructor
      · rintro ⟨i, s, h7, rfl⟩
        obtain ⟨a, ha, _⟩ := h6 i s h7
        exact (List.getElem?_eq_some_iff.1 ha).1
      · exact h5 k
    · intro x hx
      obtain ⟨i, hi⟩ := List.mem_iff_getElem?.1 hx
      rw [List.getElem?_zip_eq_some, scanArguments_at] at hi
      obtain ⟨g1, g2⟩ := hi
      obtain ⟨s, g3, g4⟩ := Option.map_eq_some_iff.1 g1
      rw [g3] at g2
      cases g2
      rw [← g4]
      exact h6 i _ g3

theorem scanAppend_text (a b : ScanTemplate) : (a.append b).text = a.text ++ b.text := by
  obtain ⟨bs, bl⟩ := b
  cases bs with
  | nil => simp [ScanTemplate.append, ScanTemplate.text, ScanTemplate.format, FormatText.text, escBraces_append]
  | cons s bs => simp [ScanTemplate.append, ScanTemplate.text, ScanTemplate.format, FormatText.text, escBraces_append]

theorem scanAppend_reduced (a b : ScanTemplate) : (a.append b).reduced.segs = segsJoined a.reduced.segs a.last b.reduced.segs ∧
    (a.append b).last = lastJoined a.last b.reduced.segs b.last := by
  obtain ⟨bs, bl⟩ := b
  cases bs with
  | nil => simp [ScanTemplate.append, ScanTemplate.reduced, segsJoined, lastJoined]
  | cons s bs => simp [ScanTemplate.append, ScanTemplate.reduced, segsJoined, lastJoined]

/-- The fields of two templates, one behind the other. -/
theorem scanAppend_holes (a b : ScanTemplate) : (a.append b).segs.map (·.2) = a.segs.map (·.2) ++ b.segs.map (·.2) := by
  obtain ⟨bs, bl⟩ := b
  cases bs with
  | nil => simp [ScanTemplate.append]
  | cons s bs => simp [ScanTemplate.append]

theorem scanAppend_mem {a b : ScanTemplate} {s : Str × ScanHole} (hs : s ∈ (a.append b).segs) :
    ∃ s', (s' ∈ a.segs ∨ s' ∈ b.segs) ∧ s'.2 = s.2 := by
  have : s.2 ∈ (a.append b).segs.map (·.2) := List.mem_map.2 ⟨s, hs, rfl⟩
  rw [scanAppend_holes, List.mem_append, List.mem_map, List.mem_map] at this
  rcases this with ⟨s', h1, h2⟩ | ⟨s', h1, h2⟩
  · exact ⟨s', .inl h1, h2⟩
  · exact ⟨s', .inr h1, h2⟩

theorem scanAppend_at {a b : ScanTemplate} {i : Nat} {s : Str × ScanHole} (hs : (a.append b).segs[i]? = some s) :
    (∃ s', a.segs[i]? = some s' ∧ s'.2 = s.2) ∨
      ∃ j s', i = a.segs.length + j ∧ b.segs[j]? = some s' ∧ s'.2 = s.2 := by
  have : ((a.append b).segs.map (·.2))[i]? = some s.2 := by rw [List.getElem?_map, hs]; rfl
  rw [scanAppend_holes] at this
  by_cases hi : i < a.segs.length
  · rw [List.getElem?_append_left (by simpa using hi), List.getElem?_map] at this
    obtain ⟨s', h1, h2⟩ := Option.map_eq_some_iff.1 this
    exact .inl ⟨s', h1, h2⟩
  · rw [List.getElem?_append_right (by simpa using hi), List.getElem?_map, List.length_map] at this
    obtain ⟨s', h1, h2⟩ := Option.map_eq_some_iff.1 this
    exact .inr ⟨i - a.segs.length, s', by omega, h1, h2⟩

theorem scanAppend_left {a b : ScanTemplate} {i : Nat} {s : Str × ScanHole} (hs : a.segs[i]? = some s) :
    ∃ s', (a.append b).segs[i]? = some s' ∧ s'.2 = s.2 := by
  have : ((a.append b).segs.map (·.2))[i]? = some s.2 := by
    rw [scanAppend_holes, List.getElem?_append_left (by simpa using (List.getElem?_eq_some_iff.1 hs).1), List.getElem?_map, hs]
    rfl
  rw [List.getElem?_map] at this
  obtain ⟨s', h1, h2⟩ := Option.map_eq_some_iff.1 this
  exact ⟨s', h1, h2⟩

theorem scanAppend_right {a b : ScanTemplate} {j : Nat} {s : Str × ScanHole} (hs : b.segs[j]? = some s) :
    ∃ s', (a.append b).segs[a.segs.length + j]? = some s' ∧ s'.2 = s.2 := by
  have : ((a.append b).segs.map (·.2))[a.segs.length + j]? = some s.2 := by
    rw [scanAppend_holes, List.getElem?_append_right (by simp), List.length_map, Nat.add_sub_cancel_left, List.getElem?_map, hs]
    rfl
  rw [List.getElem?_map] at this
  obtain ⟨s', h1, h2⟩ := Option.map_eq_some_iff.1 this
  exact ⟨s', h1, h2⟩

theorem scanAutomatic_segs {t : ScanTemplate} (h : t.format.Automatic) : ∀ s ∈ t.segs, s.2.idx = [] := fun s hs =>
  h s.2.field (List.mem_map.2 ⟨(s.1, s.2.field), List.mem_map.2 ⟨s, hs, rfl⟩, rfl⟩)

theorem scanExplicit_segs {t : ScanTemplate} (h : t.format.Explicit) : ∀ s ∈ t.segs, s.2.idx ≠ [] := fun s hs =>
  h s.2.field (List.mem_map.2 ⟨(s.1, s.2.field), List.mem_map.2 ⟨s, hs, rfl⟩, rfl⟩)

/-- With automatic numbering there is a field for each variable. -/
theorem scanAutomatic_count {t : ScanTemplate} {tys : List ScanTy} (h : t.format.Automatic) (acc : t.AcceptedFor tys) :
    t.segs.length = tys.length := by
  obtain ⟨_, _, _, _, h5, h6⟩ := (scanAccepted_at t tys).1 acc
  have harg : ∀ (i : Nat) (s : Str × ScanHole), t.segs[i]? = some s → s.2.field.argument i = i := fun i s hs =>
    if_pos (scanAutomatic_segs h s (List.mem_of_getElem? hs))
  apply Nat.le_antisymm
  · by_contra hgt
    have hs := List.getElem?_eq_getElem (show tys.length < t.segs.length by omega)
    obtain ⟨a, ha, _⟩ := h6 _ _ hs
    rw [harg _ _ hs] at ha
    simp at ha
  · by_contra hgt
    obtain ⟨i, s, hs, hi⟩ := h5 t.segs.length (by omega)
    rw [harg _ _ hs] at hi
    have := (List.getElem?_eq_some_iff.1 hs).1
    omega

/-- The outcome of an accepted scan string, as in C79. -/
theorem scanAccepted_run {t : ScanTemplate} {tys : List ScanTy} (acc : t.AcceptedFor tys) (io : ScanIO)
    (hpos : io.inp.pos ≤ io.inp.src.length) (hv : tys.length = io.vars.length) :
    scanFrom t.text tys io = (scanReference tys t.last [] 0 t.reduced.segs io.inp.rest io.vars).run io.inp.src := by
  have := (C79_scan_from (t.text ++ []) tys io acc.2.number hpos hv).1 t [] rfl acc.1 acc.2 (.inl rfl)
  rwa [List.append_nil] at this

theorem endsItself_reduced {t : ScanTemplate} {tys : List ScanTy} (h : t.EndsItself tys) :
    ∀ x ∈ t.reduced.segs.getLast?, tys[x.2.field.argument (t.reduced.segs.length - 1)]? = some .string → x.2.sp.size ≠ none := by
  intro x hx hty
  simp only [ScanTemplate.reduced, List.getLast?_map, Option.mem_def, Option.map_eq_some_iff] at hx
  obtain ⟨s, hs, rfl⟩ := hx
  have harg : ∀ k, s.2.reduced.field.argument k = s.2.field.argument k := fun _ => rfl
  have := h s hs (by simpa [ScanTemplate.reduced, harg] using hty)
  simp only [scan_hole_reduced]
  unfold ScanSpec.size ScanSpec.reduced
  rw [if_neg]
  · simp
  · simp only [if_neg this]
    exact (numeral_digits _).1

/-- What scanning the second string behind the first one leads to, given how the first one ended: the variables are those
of both; if one fails, scanning both fails. -/
def Sequel (first : Run ScanIO Unit) (second : Reader → List ScanVal → Run ScanIO Unit) (whole : Run ScanIO Unit) : Prop :=
  match first with
  | .bad b => whole = .bad b
  | .err io _ => ∃ r e, whole = .err ⟨r, io.vars⟩ e
  | .ok io _ =>
    match second io.inp io.vars with
    | .bad b => whole = .bad b
    | .err io' _ => ∃ r e, whole = .err ⟨r, io'.vars⟩ e
    | .ok io' _ => whole = .ok io' ()

theorem rest_back {src s : Str} (h : s <:+ src) : (⟨src, src.length - s.length⟩ : Reader).rest = s := by
  obtain ⟨p, rfl⟩ := h
  simp [Reader.rest]

/-- From the interpreter to the functions. -/
theorem sequel_of {x y : ScanEnd (List ScanVal)} {f : Str → List ScanVal → ScanEnd (List ScanVal)} {src : Str}
    (second : Reader → List ScanVal → Run ScanIO Unit) (h : y.Like (x.andThen f))
    (hf : ∀ rest vars, x = .done rest vars → second ⟨src, src.length - rest.length⟩ vars = (f rest vars).run src) :
    Sequel (x.run src) second (y.run src) := by
  cases x with
  | undefined =>
    cases y with
    | undefined => rfl
    | done _ _ => exact h.elim
    | stop _ _ _ => exact h.elim
  | stop rest e vars =>
    cases y with
    | undefined => exact h.elim
    | done _ _ => exact h.elim
    | stop rest' e' vars' =>
      have h : vars' = vars := h
      subst h
      exact ⟨_, _, rfl⟩
  | done rest vars =>
    simp only [ScanEnd.run, Sequel]
    rw [hf rest vars rfl]
    simp only [ScanEnd.andThen] at h
    cases hx : f rest vars with
    | undefined =>
      rw [hx] at h
      cases y with
      | undefined => rfl
      | done _ _ => exact h.elim
      | stop _ _ _ => exact h.elim
    | stop rest' e' vars' =>
      rw [hx] at h
      cases y with
      | undefined => exact h.elim
      | done _ _ => exact h.elim
      | stop rest'' e'' vars'' =>
        have h : vars'' = vars' := h
        subst h
        exact ⟨_, _, rfl⟩
    | done rest' vars' =>
      rw [hx] at h
      cases y with
      | undefined => exact h.elim
      | stop _ _ _ => exact h.elim
      | done rest'' vars'' =>
        obtain ⟨rfl, rfl⟩ : rest'' = rest' ∧ vars'' = vars' := h
        rfl

/-- Variables added to an outcome. -/
def withVars (f : List ScanVal → List ScanVal) : Run ScanIO Unit → Run ScanIO Unit
  | .ok io _ => .ok ⟨io.inp, f io.vars⟩ ()
  | .err io e => .err ⟨io.inp, f io.vars⟩ e
  | .bad b => .bad b

theorem mapVars_run (f : List ScanVal → List ScanVal) (x : ScanEnd (List ScanVal)) (src : Str) :
    (x.mapVars f).run src = withVars f (x.run src) := by
  cases x <;> rfl

theorem automatic_sequel (a b : ScanTemplate) (tys₁ tys₂ : List ScanTy) (acc₁ : a.AcceptedFor tys₁) (acc₂ : b.AcceptedFor tys₂)
    (auto₁ : a.format.Automatic) (auto₂ : b.format.Automatic) (hn : tys₁.length + tys₂.length ≤ 128)
    (ends : a.EndsItself tys₁) (r : Reader) (vars₁ vars₂ : List ScanVal) (hpos : r.pos ≤ r.src.length)
    (hv₁ : tys₁.length = vars₁.length) (hv₂ : tys₂.length = vars₂.length) :
    (a.append b).AcceptedFor (tys₁ ++ tys₂) ∧
    Sequel (withVars (· ++ vars₂) (scanFrom a.text tys₁ ⟨r, vars₁⟩))
      (fun r' vars => withVars (vars.take vars₁.length ++ ·) (scanFrom b.text tys₂ ⟨r', vars₂⟩))
      (scanFrom (a.text ++ b.text) (tys₁ ++ tys₂) ⟨r, vars₁ ++ vars₂⟩) := by
  have hla := scanAutomatic_count auto₁ acc₁
  have hlb := scanAutomatic_count auto₂ acc₂
  have acc : (a.append b).AcceptedFor (tys₁ ++ tys₂) := by
    obtain ⟨_, g2, gp, _, g5, g6⟩ := (scanAccepted_at a tys₁).1 acc₁
    obtain ⟨_, k2, kp, _, k5, k6⟩ := (scanAccepted_at b tys₂).1 acc₂
    have ha := scanAutomatic_segs auto₁
    have hb := scanAutomatic_segs auto₂
    have hauto : ∀ s ∈ (a.append b).segs, s.2.idx = [] := by
      intro s hs
      obtain ⟨s', h | h, e⟩ := scanAppend_mem hs
      · rw [← e]; exact ha s' h
      · rw [← e]; exact hb s' h
    have harg : ∀ {s : Str × ScanHole}, s.2.idx = [] → ∀ i, s.2.field.argument i = i := fun h i => if_pos h
    rw [scanAccepted_at]
    refine ⟨by simpa using hn, ?_, ?_, .inl hauto, ?_, ?_⟩
    · intro s hs
      rw [hauto s hs]
      simp
    · intro s hs
      obtain ⟨s', h | h, e⟩ := scanAppend_mem hs
      · rw [← e]; exact gp s' h
      · rw [← e]; exact kp s' h
    · intro k hk
      rw [List.length_append] at hk
      have hlen : (a.append b).segs.length = a.segs.length + b.segs.length := by
        have := congrArg List.length (scanAppend_holes a b)
        simpa using this
      have hs := List.getElem?_eq_getElem (show k < (a.append b).segs.length by omega)
      exact ⟨k, _, hs, harg (hauto _ (List.mem_of_getElem? hs)) k⟩
    · intro i s hs
      rw [harg (hauto s (List.mem_of_getElem? hs))]
      rcases scanAppend_at hs with ⟨s', h1, e⟩ | ⟨j, s', rfl, h1, e⟩
      · obtain ⟨ty, h3, h4⟩ := g6 i s' h1
        rw [harg (ha s' (List.mem_of_getElem? h1))] at h3
        refine ⟨ty, ?_, by rw [← e]; exact h4⟩
        rw [List.getElem?_append_left (List.getElem?_eq_some_iff.1 h3).1, h3]
      · obtain ⟨ty, h3, h4⟩ := k6 j s' h1
        rw [harg (hb s' (List.mem_of_getElem? h1))] at h3
        refine ⟨ty, ?_, by rw [← e]; exact h4⟩
        rw [List.getElem?_append_right (by omega), hla, Nat.add_sub_cancel_left, h3]
  refine ⟨acc, ?_⟩
  rw [← scanAppend_text, scanAccepted_run acc _ hpos (by simp [hv₁, hv₂]), scanAccepted_run acc₁ _ hpos hv₁, (scanAppend_reduced a b).1,
    (scanAppend_reduced a b).2, ← mapVars_run]
  have hargs : ∀ (j : Nat) (x : Str × ScanHole), a.reduced.segs[j]? = some x → x.2.field.argument (0 + j) < tys₁.length := by
    intro j x hx
    rw [Nat.zero_add]
    simp only [ScanTemplate.reduced, List.getElem?_map] at hx
    obtain ⟨s, hs, rfl⟩ := Option.map_eq_some_iff.1 hx
    obtain ⟨ty, h, _⟩ := ((scanAccepted_at a tys₁).1 acc₁).2.2.2.2.2 j s hs
    exact (List.getElem?_eq_some_iff.1 h).1
  have hbe := reference_before tys₁ tys₂ a.last [] vars₂ a.reduced.segs 0 r.rest vars₁ hv₁ hargs
  have key := reference_append (tys₁ ++ tys₂) a.last b.last [] b.reduced.segs a.reduced.segs 0 r.rest (vars₁ ++ vars₂) (by
    intro x hx hty
    refine endsItself_reduced ends x hx ?_
    rw [Nat.zero_add] at hty
    have hlt := hargs (a.reduced.segs.length - 1) x (by rw [← List.getLast?_eq_getElem?]; exact hx)
    rw [Nat.zero_add] at hlt
    rwa [List.getElem?_append_left hlt] at hty)
  rw [hbe] at key
  refine sequel_of _ key ?_
  intro rest vars hx
  have hlr : a.reduced.segs.length = tys₁.length := by rw [← hla]; simp [ScanTemplate.reduced]
  cases hy : scanReference tys₁ a.last [] 0 a.reduced.segs r.rest vars₁ with
  | undefined => rw [hy] at hx; cases hx
  | stop _ _ _ => rw [hy] at hx; cases hx
  | done rest' v₁ =>
    rw [hy] at hx
    cases hx
    have hsuf : rest <:+ r.src := (scanReference_suffix hy).trans (List.drop_suffix _ _)
    have hv1 : v₁.length = vars₁.length := reference_length hy
    rw [scanAccepted_run acc₂ _ (by simp) hv₂]
    simp only [rest_back hsuf]
    have hb2 := reference_behind tys₁ tys₂ b.last [] v₁ (by omega) b.reduced.segs 0 rest vars₂ (by
      intro x hx
      obtain ⟨s, hs, rfl⟩ := List.mem_map.1 hx
      exact scanAutomatic_segs auto₂ s hs)
    rw [Nat.zero_add, hlr]
    rw [Nat.add_zero] at hb2
    rw [hb2, mapVars_run]
    simp [← hv1]

/-- C80: two scan strings with automatic numbering, one behind the other, with the variables of both: the second one goes
on where the first one ended.  The last field of the first must not be a string that ends where the text behind it begins. -/
theorem C80_concatenation (a b : ScanTemplate) (tys₁ tys₂ : List ScanTy) (acc₁ : a.AcceptedFor tys₁) (acc₂ : b.AcceptedFor tys₂)
    (auto₁ : a.format.Automatic) (auto₂ : b.format.Automatic) (hn : tys₁.length + tys₂.length ≤ 128)
    (ends : a.EndsItself tys₁) (r : Reader) (vars₁ vars₂ : List ScanVal) (hpos : r.pos ≤ r.src.length)
    (hv₁ : tys₁.length = vars₁.length) (hv₂ : tys₂.length = vars₂.length) :
    match scanFrom a.text tys₁ ⟨r, vars₁⟩ with
    | .bad x => scanFrom (a.text ++ b.text) (tys₁ ++ tys₂) ⟨r, vars₁ ++ vars₂⟩ = .bad x
    | .err io _ => ∃ r' e', scanFrom (a.text ++ b.text) (tys₁ ++ tys₂) ⟨r, vars₁ ++ vars₂⟩ = .err ⟨r', io.vars ++ vars₂⟩ e'
    | .ok io _ =>
      match scanFrom b.text tys₂ ⟨io.inp, vars₂⟩ with
      | .bad x => scanFrom (a.text ++ b.text) (tys₁ ++ tys₂) ⟨r, vars₁ ++ vars₂⟩ = .bad x
      | .err io' _ => ∃ r' e', scanFrom (a.text ++ b.text) (tys₁ ++ tys₂) ⟨r, vars₁ ++ vars₂⟩ = .err ⟨r', io.vars ++ io'.vars⟩ e'
      | .ok io' _ => scanFrom (a.text ++ b.text) (tys₁ ++ tys₂) ⟨r, vars₁ ++ vars₂⟩ = .ok ⟨io'.inp, io.vars ++ io'.vars⟩ () := by
  have key := (automatic_sequel a b tys₁ tys₂ acc₁ acc₂ auto₁ auto₂ hn ends r vars₁ vars₂ hpos hv₁ hv₂).2
  have hrun := scanAccepted_run acc₁ ⟨r, vars₁⟩ hpos hv₁
  cases ha : scanFrom a.text tys₁ ⟨r, vars₁⟩ with
  | bad x => rw [ha] at key; exact key
  | err io e => rw [ha] at key; exact key
  | ok io u =>
    have hl : io.vars.length = vars₁.length := by
      rw [ha] at hrun
      cases hy : scanReference tys₁ a.last [] 0 a.reduced.segs r.rest vars₁ with
      | undefined => simp only [hy] at hrun; cases hrun
      | stop _ _ _ => simp only [hy] at hrun; cases hrun
      | done rest v =>
        simp only [hy] at hrun
        cases hrun
        exact reference_length hy
    rw [ha] at key
    simp only [Sequel, withVars, List.take_append, ← hl, List.take_length, Nat.sub_self, List.take_zero, List.append_nil] at key
    simp only
    cases hb : scanFrom b.text tys₂ ⟨io.inp, vars₂⟩ with
    | bad x => rw [hb] at key; exact key
    | err io' e => rw [hb] at key; exact key
    | ok io' u' => rw [hb] at key; exact key

/-- C80: two scan strings with numbers for the same variables. -/
theorem C80_same_variables (a b : ScanTemplate) (tys : List ScanTy) (acc₁ : a.AcceptedFor tys) (acc₂ : b.AcceptedFor tys)
    (ex₁ : a.format.Explicit) (ex₂ : b.format.Explicit) (ends : a.EndsItself tys) (io : ScanIO)
    (hpos : io.inp.pos ≤ io.inp.src.length) (hv : tys.length = io.vars.length) :
    match scanFrom a.text tys io with
    | .bad x => scanFrom (a.text ++ b.text) tys io = .bad x
    | .err io₁ _ => ∃ r' e', scanFrom (a.text ++ b.text) tys io = .err ⟨r', io₁.vars⟩ e'
    | .ok io₁ _ =>
      match scanFrom b.text tys io₁ with
      | .bad x => scanFrom (a.text ++ b.text) tys io = .bad x
      | .err io₂ _ => ∃ r' e', scanFrom (a.text ++ b.text) tys io = .err ⟨r', io₂.vars⟩ e'
      | .ok io₂ _ => scanFrom (a.text ++ b.text) tys io = .ok io₂ () := by
  have acc : (a.append b).AcceptedFor tys := by
    obtain ⟨g1, g2, gp, _, g5, g6⟩ := (scanAccepted_at a tys).1 acc₁
    obtain ⟨_, k2, kp, _, k5, k6⟩ := (scanAccepted_at b tys).1 acc₂
    have hb := scanExplicit_segs ex₂
    rw [scanAccepted_at]
    refine ⟨g1, ?_, ?_, .inr ?_, ?_, ?_⟩
    · intro s hs
      obtain ⟨s', h | h, e⟩ := scanAppend_mem hs
      · rw [← e]; exact g2 s' h
      · rw [← e]; exact k2 s' h
    · intro s hs
      obtain ⟨s', h | h, e⟩ := scanAppend_mem hs
      · rw [← e]; exact gp s' h
      · rw [← e]; exact kp s' h
    · intro s hs
      obtain ⟨s', h | h, e⟩ := scanAppend_mem hs
      · rw [← e]; exact scanExplicit_segs ex₁ s' h
      · rw [← e]; exact hb s' h
    · intro k hk
      obtain ⟨i, s, h1, h2⟩ := g5 k hk
      obtain ⟨s', h3, h4⟩ := scanAppend_left (b := b) h1
      exact ⟨i, s', h3, by rw [h4]; exact h2⟩
    · intro i s hs
      rcases scanAppend_at hs with ⟨s', h1, e⟩ | ⟨j, s', rfl, h1, e⟩
      · rw [← e]; exact g6 i s' h1
      · have harg : ∀ i, s'.2.field.argument i = numeralValue 10 s'.2.idx := fun i => if_neg (hb s' (List.mem_of_getElem? h1))
        have := k6 j s' h1
        rw [← e]
        rw [harg] at this ⊢
        exact this
  have key : Sequel (scanFrom a.text tys io) (fun r vars => scanFrom b.text tys ⟨r, vars⟩) (scanFrom (a.text ++ b.text) tys io) := by
    rw [← scanAppend_text, scanAccepted_run acc _ hpos hv, scanAccepted_run acc₁ _ hpos hv, (scanAppend_reduced a b).1,
      (scanAppend_reduced a b).2]
    refine sequel_of _ (reference_append tys a.last b.last [] b.reduced.segs a.reduced.segs 0 io.inp.rest io.vars (by
      rw [Nat.zero_add]; exact endsItself_reduced ends)) ?_
    intro rest vars hx
    have hsuf : rest <:+ io.inp.src := (scanReference_suffix hx).trans (List.drop_suffix _ _)
    rw [scanAccepted_run acc₂ _ (by simp) (by rw [reference_length hx]; exact hv)]
    simp only [rest_back hsuf]
    rw [reference_explicit tys b.last [] b.reduced.segs 0 (0 + a.reduced.segs.length)]
    intro x hx
    obtain ⟨s, hs, rfl⟩ := List.mem_map.1 hx
    exact scanExplicit_segs ex₂ s hs
  exact key

theorem scan_noNumbers {t : ScanTemplate} {tail : Str} {tys : List ScanTy} (acc : t.AcceptedFor tys)
    (htail : tail = [] ∨ Begins255 tail ∧ t.format.Explicit) (h : NoNumbers (t.text ++ tail)) : tail = [] ∧ t.format.Automatic := by
  have hdig := ((scanAccepted_at t tys).1 acc).2.1
  constructor
  · rcases htail with h0 | ⟨⟨ds, c, rest, rfl, hne, hd, _⟩, _⟩
    · exact h0
    · obtain ⟨x, ds, rfl⟩ := List.exists_cons_of_ne_nil hne
      have := h t.text (ds ++ c :: rest) x (by simp)
      rw [hd x (by simp)] at this
      cases this
  · intro f hf
    simp only [FormatText.fields, ScanTemplate.format, List.map_map, List.mem_map, Function.comp_apply] at hf
    obtain ⟨s, hs, rfl⟩ := hf
    by_contra hne
    obtain ⟨x, ds, hx⟩ := List.exists_cons_of_ne_nil (show s.2.idx ≠ [] from hne)
    have hx' : s.2.field.idx = x :: ds := hx
    obtain ⟨l1, l2, hl⟩ := List.append_of_mem hs
    have ht : ∃ p q, t.text = p ++ '{' :: x :: q := by
      unfold ScanTemplate.text ScanTemplate.format FormatText.text
      rw [hl]
      simp only [List.map_append, List.map_cons, List.flatMap_append, List.flatMap_cons, Field.text, hx']
      exact ⟨(l1.map fun s => (s.1, s.2.field)).flatMap (fun s => escBraces s.1 ++ s.2.text) ++ escBraces s.1, _, by
        simp [Field.text]; rfl⟩
    obtain ⟨p, q, hpq⟩ := ht
    have := h p (q ++ tail) x (by rw [hpq]; simp)
    rw [hdig s hs x (by rw [hx]; simp)] at this
    cases this

/-- C80 for any two strings without numbers, the first of which does not end with a string: if both can be scanned one after
the other, then they can be scanned together. -/
theorem C80_any_strings (s₁ s₂ : Str) (tys₁ tys₂ : List ScanTy) (hn : tys₁.length + tys₂.length ≤ 128) (no₁ : NoNumbers s₁)
    (no₂ : NoNumbers s₂) (hend : tys₁.getLast? ≠ some .string) (r r₁ r₂ : Reader) (vars₁ vars₂ vals₁ vals₂ : List ScanVal)
    (hpos : r.pos ≤ r.src.length) (hv₁ : tys₁.length = vars₁.length) (hv₂ : tys₂.length = vars₂.length)
    (h₁ : scanFrom s₁ tys₁ ⟨r, vars₁⟩ = .ok ⟨r₁, vals₁⟩ ()) (h₂ : scanFrom s₂ tys₂ ⟨r₁, vars₂⟩ = .ok ⟨r₂, vals₂⟩ ()) :
    scanFrom (s₁ ++ s₂) (tys₁ ++ tys₂) ⟨r, vars₁ ++ vars₂⟩ = .ok ⟨r₂, vals₁ ++ vals₂⟩ () := by
  have get : ∀ (s : Str) (tys : List ScanTy) (io io' : ScanIO), tys.length ≤ 128 → scanFrom s tys io = .ok io' () → NoNumbers s →
      ∃ t : ScanTemplate, s = t.text ∧ t.AcceptedFor tys ∧ t.format.Automatic := by
    intro s tys io io' hl h no
    by_cases hex : ∃ (t : ScanTemplate) (tail : Str), s = t.text ++ tail ∧ t.NumbersPass ∧ t.reduced.Suits tys ∧
        (tail = [] ∨ Begins255 tail ∧ t.format.Explicit)
    · obtain ⟨t, tail, rfl, pass, suits, htail⟩ := hex
      obtain ⟨rfl, auto⟩ := scan_noNumbers ⟨pass, suits⟩ htail no
      exact ⟨t, by simp, ⟨pass, suits⟩, auto⟩
    · rw [(C59_accepted_strings s tys hl).2 hex io] at h
      cases h
  obtain ⟨a, rfl, acc₁, auto₁⟩ := get s₁ tys₁ _ _ (by omega) h₁ no₁
  obtain ⟨b, rfl, acc₂, auto₂⟩ := get s₂ tys₂ _ _ (by omega) h₂ no₂
  have ends : a.EndsItself tys₁ := by
    intro s hs hty
    exfalso
    apply hend
    rw [List.getLast?_eq_getElem?, ← scanAutomatic_count auto₁ acc₁, ← hty]
    congr 1
    exact (if_pos (scanAutomatic_segs auto₁ s (List.mem_of_getLast? hs))).symm
  have key := C80_concatenation a b tys₁ tys₂ acc₁ acc₂ auto₁ auto₂ hn ends r vars₁ vars₂ hpos hv₁ hv₂
  rw [h₁] at key
  simp only [h₂] at key
  exact key

/-- The hypotheses are met. -/
example : scanFrom ("a{:#}}}".toList ++ "{{{},{}".toList) ([.int u8] ++ [.char, .string]) ⟨ofStr "a0x1f}{c,xyz".toList,
      [.int 0] ++ [.char 'a', .str []]⟩ = .ok ⟨⟨"a0x1f}{c,xyz".toList, 12⟩, [.int 31] ++ [.char 'c', .str "xyz".toList]⟩ () := by
  refine C80_any_strings _ _ _ _ (by decide) ?_ ?_ (by simp) _ ⟨"a0x1f}{c,xyz".toList, 6⟩ _ _ _ _ _ (by decide +kernel) rfl rfl
    (by decide +kernel) (by decide +kernel)
  · intro a b d h
    rcases a with _ | ⟨x0, _ | ⟨x1, _ | ⟨x2, _ | ⟨x3, _ | ⟨x4, _ | ⟨x5, _ | ⟨x6, a⟩⟩⟩⟩⟩⟩⟩ <;> simp at h
    rw [← h.2.1]; decide
  · intro a b d h
    rcases a with _ | ⟨x0, _ | ⟨x1, _ | ⟨x2, _ | ⟨x3, _ | ⟨x4, _ | ⟨x5, _ | ⟨x6, a⟩⟩⟩⟩⟩⟩⟩ <;> simp at h
    · rw [← h.1]; decide
    · rw [← h.2.1]; decide
    · rw [← h.2.2.1]; decide
    · rw [← h.2.2.2.2.2.1]; decide

/-- It is not so for strings that end where the text behind them begins: `"{}"` reads everything, so that there is no `","`
left; `"{},"` reads up to the first comma. -/
theorem C80_string_at_the_end : scanFrom "{}".toList [.string] ⟨ofStr "a,b,".toList, [.str []]⟩ =
      .ok ⟨⟨"a,b,".toList, 4⟩, [.str "a,b,".toList]⟩ () ∧
    scanFrom ",".toList [] ⟨⟨"a,b,".toList, 4⟩, []⟩ = .err ⟨⟨"a,b,".toList, 4⟩, []⟩ .eof ∧
    scanFrom ("{}".toList ++ ",".toList) [.string] ⟨ofStr "a,b,".toList, [.str []]⟩ =
      .ok ⟨⟨"a,b,".toList, 2⟩, [.str "a".toList]⟩ () := by
  decide +kernel

/-- C81: the variables in another order, and the numbers changed accordingly: the same is read. -/
theorem C81_reordered (t : ScanTemplate) (tys tys' : List ScanTy) (f g : Nat → Nat) (acc : t.AcceptedFor tys)
    (explicit : t.format.Explicit) (hl : tys'.length = tys.length) (moved : ∀ k < tys.length, tys'[f k]? = tys[k]?)
    (perm : ∀ k < tys.length, f k < tys.length ∧ g k < tys.length ∧ g (f k) = k ∧ f (g k) = k)
    (r : Reader) (hpos : r.pos ≤ r.src.length) (vars vars' : List ScanVal) (hv : vars.length = tys.length)
    (hv' : vars'.length = tys.length) (same : ∀ k < tys.length, vars'[f k]? = vars[k]?) :
    (t.renumber f).AcceptedFor tys' ∧
    match scanFrom t.text tys ⟨r, vars⟩ with
    | .bad x => scanFrom (t.renumber f).text tys' ⟨r, vars'⟩ = .bad x
    | .err io e => ∃ vals, scanFrom (t.renumber f).text tys' ⟨r, vars'⟩ = .err ⟨io.inp, vals⟩ e ∧
        ∀ k < tys.length, vals[f k]? = io.vars[k]?
    | .ok io _ => ∃ vals, scanFrom (t.renumber f).text tys' ⟨r, vars'⟩ = .ok ⟨io.inp, vals⟩ () ∧
        ∀ k < tys.length, vals[f k]? = io.vars[k]? := by
  have hex := scanExplicit_segs explicit
  obtain ⟨h1, h2, pass, h4, h5, h6⟩ := (scanAccepted_at t tys).1 acc
  have harg : ∀ (i : Nat) (s : Str × ScanHole), t.segs[i]? = some s → s.2.field.argument i = numeralValue 10 s.2.idx ∧
      numeralValue 10 s.2.idx < tys.length := by
    intro i s hs
    have e : s.2.field.argument i = numeralValue 10 s.2.idx := if_neg (hex s (List.mem_of_getElem? hs))
    obtain ⟨a, ha, _⟩ := h6 i s hs
    exact ⟨e, by rw [← e]; exact (List.getElem?_eq_some_iff.1 ha).1⟩
  have hnew : ∀ (h : ScanHole) (i : Nat), (ScanHole.mk (numeral false 10 (f (numeralValue 10 h.idx))) h.spec).field.argument i =
      f (numeralValue 10 h.idx) := by
    intro h i
    rw [show (ScanHole.mk (numeral false 10 (f (numeralValue 10 h.idx))) h.spec).field.argument i =
      numeralValue 10 (numeral false 10 (f (numeralValue 10 h.idx))) from if_neg (numeral_digits _).1]
    exact (numeral_digits _).2.2
  have acc' : (t.renumber f).AcceptedFor tys' := by
    rw [scanAccepted_at]
    refine ⟨by omega, ?_, ?_, Or.inr ?_, ?_, ?_⟩
    · intro s hs
      obtain ⟨s', _, rfl⟩ := List.mem_map.1 hs
      exact (numeral_digits _).2.1
    · intro s hs
      obtain ⟨s', hs', rfl⟩ := List.mem_map.1 hs
      exact pass s' hs'
    · intro s hs
      obtain ⟨s', _, rfl⟩ := List.mem_map.1 hs
      exact (numeral_digits _).1
    · intro k hk
      obtain ⟨_, hg, _, hfg⟩ := perm k (by omega)
      obtain ⟨i, s, hs, hi⟩ := h5 (g k) hg
      refine ⟨i, (s.1, ScanHole.mk (numeral false 10 (f (numeralValue 10 s.2.idx))) s.2.spec), ?_, ?_⟩
      · simp [ScanTemplate.renumber, hs]
      · rw [hnew, ← (harg i s hs).1, hi, hfg]
    · intro i s hs
      simp only [ScanTemplate.renumber, List.getElem?_map] at hs
      obtain ⟨s', hs', rfl⟩ := Option.map_eq_some_iff.1 hs
      obtain ⟨ty, h7, h8⟩ := h6 i s' hs'
      refine ⟨ty, ?_, h8⟩
      rw [hnew, moved _ (harg i s' hs').2, ← (harg i s' hs').1]
      exact h7
  refine ⟨acc', ?_⟩
  have key := reference_moved (n := tys.length) (f := f)
    (fun j hj k hk e => by rw [← (perm j hj).2.2.1, ← (perm k hk).2.2.1, e])
    (fun k hk => (perm k hk).1) (tys := tys) (tys' := tys') ⟨rfl, hl, moved⟩ t.last []
    (fun h => ⟨numeral false 10 (f (numeralValue 10 h.idx)), h.spec⟩) t.reduced.segs 0 r.rest vars vars' ⟨hv, hv', same⟩ (by
      intro j x hx
      simp only [ScanTemplate.reduced, List.getElem?_map] at hx
      obtain ⟨s, hs, rfl⟩ := Option.map_eq_some_iff.1 hx
      rw [Nat.zero_add]
      have e1 : s.2.reduced.field.argument j = s.2.field.argument j := rfl
      have e2 := harg j s hs
      refine ⟨by rw [e1, e2.1]; exact e2.2, rfl, ?_⟩
      rw [hnew, e1, e2.1]
      rfl)
  rw [scanAccepted_run acc _ hpos (by simpa using hv.symm), scanAccepted_run acc' _ hpos (by simpa using by omega)]
  have hseg : (t.renumber f).reduced.segs =
      t.reduced.segs.map (fun x => (x.1, ScanHole.mk (numeral false 10 (f (numeralValue 10 x.2.idx))) x.2.spec)) := by
    simp [ScanTemplate.renumber, ScanTemplate.reduced, ScanHole.reduced]
  have hlast : (t.renumber f).last = t.last := rfl
  rw [hseg, hlast]
  simp only
  cases hx : scanReference tys t.last [] 0 t.reduced.segs r.rest vars with
  | undefined =>
    rw [hx] at key
    revert key
    cases scanReference tys' t.last [] 0 _ r.rest vars' with
    | undefined => intro _; rfl
    | done _ _ => exact fun h => h.elim
    | stop _ _ _ => exact fun h => h.elim
  | done rest a =>
    rw [hx] at key
    revert key
    cases scanReference tys' t.last [] 0 _ r.rest vars' with
    | undefined => exact fun h => h.elim
    | done rest' a' =>
      rintro ⟨rfl, _, _, h⟩
      exact ⟨a', rfl, h⟩
    | stop _ _ _ => exact fun h => h.elim
  | stop rest e a =>
    rw [hx] at key
    revert key
    cases scanReference tys' t.last [] 0 _ r.rest vars' with
    | undefined => exact fun h => h.elim
    | done _ _ => exact fun h => h.elim
    | stop rest' e' a' =>
      rintro ⟨rfl, rfl, _, _, h⟩
      exact ⟨a', rfl, h⟩

/-- `"{0},{1}"`. -/
def numberAndChar : ScanTemplate := ⟨[([], ⟨['0'], none⟩), ([','], ⟨['1'], none⟩)], []⟩

/-- The hypotheses of `C80_same_variables` and `C81_reordered` are met. -/
example : numberAndChar.AcceptedFor [.int u8, .char] ∧ numberAndChar.format.Explicit ∧ numberAndChar.EndsItself [.int u8, .char] ∧
    numberAndChar.text = "{0},{1}".toList ∧ (numberAndChar.renumber (1 - ·)).text = "{1},{0}".toList ∧
    scanFrom "{1},{0}".toList [.char, .int u8] ⟨ofStr "7,x".toList, [.char 'a', .int 0]⟩ =
      .ok ⟨⟨"7,x".toList, 3⟩, [.char 'x', .int 7]⟩ () ∧
    (∀ k < 2, 1 - k < 2 ∧ 1 - k < 2 ∧ 1 - (1 - k) = k ∧ 1 - (1 - k) = k) := by
  have hex : ∀ s ∈ numberAndChar.segs, s.2.idx ≠ [] := by simp [numberAndChar]
  refine ⟨?_, ?_, ?_, by decide +kernel, by decide +kernel, by decide +kernel, by omega⟩
  · rw [scanAccepted_at]
    refine ⟨by simp, by simp [numberAndChar], ?_, .inr hex, ?_, ?_⟩
    · intro s hs
      simp only [numberAndChar, List.mem_cons, List.not_mem_nil, or_false] at hs
      rcases hs with rfl | rfl <;> exact ⟨⟨by simp [ScanHole.sp], by simp [ScanHole.sp]⟩, by simp [ScanHole.sp, ScanSpec.NumbersPass]⟩
    · intro k hk
      have : k = 0 ∨ k = 1 := by simp at hk; omega
      rcases this with rfl | rfl
      · exact ⟨0, _, rfl, by decide +kernel⟩
      · exact ⟨1, _, rfl, by decide +kernel⟩
    · intro i s hs
      have : i < 2 := (List.getElem?_eq_some_iff.1 hs).1
      have : i = 0 ∨ i = 1 := by omega
      rcases this with rfl | rfl
      · cases hs
        exact ⟨.int u8, by decide +kernel, by simp [ScanHole.sp, ScanSpec.reduced, ScanTy.Allows]⟩
      · cases hs
        exact ⟨.char, by decide +kernel, by simp [ScanHole.sp, ScanSpec.reduced, ScanTy.Allows, ScanSpec.size]⟩
  · intro f hf
    simp only [FormatText.fields, ScanTemplate.format, List.map_map, List.mem_map, Function.comp_apply] at hf
    obtain ⟨s, hs, rfl⟩ := hf
    exact hex s hs
  · intro s hs
    simp only [numberAndChar, List.getLast?_cons_cons, List.getLast?_singleton, Option.mem_def, Option.some.injEq] at hs
    subst hs
    intro h
    exfalso
    revert h
    decide +kernel

end Emio
