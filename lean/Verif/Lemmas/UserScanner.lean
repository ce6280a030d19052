import Verif.Spec.UserScanner
import Verif.Lemmas.UserFormatter
/-
Scanners of users.
-/
namespace Emio
open Reader Spec
variable {V W : Type}

/-! ### The parser -/

theorem userParse_eq (p : PSt) (inp : Reader) (vars : List V) :
    userParse ⟨p, inp, vars⟩ = match scanParse ⟨p, inp, []⟩ with
      | .ok s k => .ok ⟨s.p, s.inp, vars⟩ k
      | .err s e => .err ⟨s.p, s.inp, vars⟩ e
      | .bad b => .bad b := by
  unfold userParse scanParse
  simp only
  cases Unchecked.scan [] p.rdr.rest 0 with
  | none => rfl
  | some x =>
    obtain ⟨n, field, pieces⟩ := x
    simp only
    cases matchAll pieces inp with
    | bad b => rfl
    | err r e => rfl
    | ok r u =>
      simp only
      cases field with
      | false => rfl
      | true =>
        simp only [Bool.not_true, Bool.false_eq_true, if_false]
        cases Unchecked.replacementField { p with rdr := { p.rdr with pos := p.rdr.pos + n } } <;> rfl

theorem userParse_field {p p' : PSt} {k : Nat} {lit idx rest : Str} {colon : Bool}
    (hat : p.rdr.At (escBraces lit ++ '{' :: (idx ++ ((if colon then [':'] else []) ++ rest))))
    (hd : ∀ c ∈ idx, isDigit c = true) (hb : colon = false → rest.head? = some '}')
    (hp : Checked.parse p = .ok p' k) (inp : Reader) (vars : List V) :
    (∀ r, matchLit lit inp = .ok r () → userParse ⟨p, inp, vars⟩ = .ok ⟨p', r, vars⟩ k) ∧
    (∀ r e, matchLit lit inp = .err r e → ∃ q, userParse ⟨p, inp, vars⟩ = .err ⟨q, r, vars⟩ e) := by
  obtain ⟨h1, h2⟩ := scanParse_field hat hd hb hp inp []
  constructor
  · intro r hr
    rw [userParse_eq, h1 r hr]
  · intro r e hr
    obtain ⟨q, hq⟩ := h2 r e hr
    exact ⟨q, by rw [userParse_eq, hq]⟩

theorem userParse_end {p : PSt} {lit : Str} (hat : p.rdr.At (escBraces lit)) (inp : Reader) (vars : List V) :
    (∀ r, matchLit lit inp = .ok r () → ∃ q, userParse ⟨p, inp, vars⟩ = .ok ⟨q, r, vars⟩ noMoreArgs) ∧
    (∀ r e, matchLit lit inp = .err r e → ∃ q, userParse ⟨p, inp, vars⟩ = .err ⟨q, r, vars⟩ e) := by
  obtain ⟨h1, h2⟩ := scanParse_end hat inp []
  constructor
  · intro r hr
    obtain ⟨q, hq⟩ := h1 r hr
    exact ⟨q, by rw [userParse_eq, hq]⟩
  · intro r e hr
    obtain ⟨q, hq⟩ := h2 r e hr
    exact ⟨q, by rw [userParse_eq, hq]⟩

theorem matchLit_fails {lit : Str} {r : Reader} (hi : r.Inv) (h : ¬ lit <+: r.rest) :
    ∃ r' e, matchLit lit r = .err r' e ∧ (e = .eof ∨ e = .invalidData) := by
  have hs := matchAll_spec (litPieces [] lit) r hi
  rw [litPieces_flatten] at hs
  obtain ⟨n, e, h1, _, h2, _⟩ := hs.2 h
  exact ⟨_, e, h1, h2⟩

/-- Input and variables of a run. -/
def userIO : Run (UState V) Unit → Run (UserIO V) Unit
  | .ok s _ => .ok ⟨s.inp, s.vars⟩ ()
  | .err s e => .err ⟨s.inp, s.vars⟩ e
  | .bad b => .bad b

theorem text_cons (lit : Str) (f : Field) (segs : List (Str × Field)) (last : Str) :
    FormatText.text ⟨(lit, f) :: segs, last⟩ = escBraces lit ++ '{' :: (f.idx ++ ((if f.colon then [':'] else []) ++
      (f.body ++ FormatText.text ⟨segs, last⟩))) := by
  simp [FormatText.text, Field.text]

/-- The parser stands before the fields `segs`, the first of which has number `i`; there are `n` arguments. -/
structure Before (n : Nat) (last : Str) (i : Nat) (segs : List (Str × Field)) (p : PSt) : Prop where
  number : n ≤ 128
  rdr : p.rdr.At (FormatText.text ⟨segs, last⟩)
  wf : ∀ s ∈ segs, s.2.WellFormed
  mode : ModeOk p.positional (segs.map (·.2))
  incr : p.incr ≤ 128
  args : ∀ j ∈ argsFrom p.incr (segs.map (·.2)), j < n
  index : p.incr = i ∨ ∀ f ∈ segs.map (·.2), f.idx ≠ []

theorem argument_eq {f : Field} {p : PSt} {i : Nat} (h : p.incr = i ∨ f.idx ≠ []) : f.argument p.incr = f.argument i := by
  rcases h with h | h
  · rw [h]
  · simp [Field.argument, h]

theorem Before.head {n i : Nat} {last lit : Str} {f : Field} {segs : List (Str × Field)} {p : PSt}
    (h : Before n last i ((lit, f) :: segs) p) :
    f.argument i < n ∧ ∃ p', p'.rdr.At (f.body ++ FormatText.text ⟨segs, last⟩) ∧
      Before n last (i + 1) segs { p' with rdr := p'.rdr.adv f.body.length } ∧
      ∀ (inp : Reader) (vars : List V),
        (∀ r, matchLit lit inp = .ok r () → userParse ⟨p, inp, vars⟩ = .ok ⟨p', r, vars⟩ (f.argument i)) ∧
        (∀ r e, matchLit lit inp = .err r e → ∃ q, userParse ⟨p, inp, vars⟩ = .err ⟨q, r, vars⟩ e) := by
  obtain ⟨hn, hat, hwf, hmode, hincr, hargs, hidx⟩ := h
  rw [text_cons] at hat
  obtain ⟨hd, hbody⟩ := hwf (lit, f) (by simp)
  simp only at hd hbody
  have hd0 : ∀ c ∈ f.idx, isDigit c = true := fun c hc => by rw [isDigit_eq]; exact hd c hc
  have hb : f.colon = false → (f.body ++ FormatText.text ⟨segs, last⟩).head? = some '}' := by
    intro h
    have := hbody h
    cases hf : f.body with
    | nil => rw [hf] at this; simp at this
    | cons c l => rw [hf] at this; simpa using this
  have hai : f.argument p.incr = f.argument i := argument_eq (hidx.imp_right fun h => h f (by simp))
  have hk0 := hargs (f.argument p.incr) (by simp [argsFrom])
  have hm : (f.idx = [] ∧ p.positional ≠ some true) ∨
      (f.idx ≠ [] ∧ p.positional ≠ some false ∧ numeralValue 10 f.idx < 256) := by
    rcases hmode with ⟨h1, h2⟩ | ⟨h1, h2⟩
    · exact Or.inl ⟨h1 f (by simp), h2⟩
    · have hne : f.idx ≠ [] := h1 f (by simp)
      refine Or.inr ⟨hne, h2, ?_⟩
      have : f.argument p.incr = numeralValue 10 f.idx := by simp [Field.argument, hne]
      omega
  obtain ⟨p', k, hp, hh, _⟩ := parse_fwd hat hd0 hb hm
  have hk : k = f.argument p.incr := by
    rcases hh.mode with ⟨g1, _, _, _, g5⟩ | ⟨g1, _, _, _, g5, _⟩
    · simp [Field.argument, g1]; exact g5
    · simp [Field.argument, g1]; exact g5
  have hat' : p'.rdr.At (f.body ++ FormatText.text ⟨segs, last⟩) := (parse_field_at hat hh).1
  have hmode' : ModeOk p'.positional (segs.map (·.2)) := by
    rcases hmode with ⟨g1, g2⟩ | ⟨g1, g2⟩
    · refine Or.inl ⟨fun f hf => g1 f (List.mem_cons_of_mem _ hf), ?_⟩
      rcases hh.mode with ⟨_, _, x, _⟩ | ⟨x, _⟩
      · rw [x]; simp
      · exact absurd (g1 f (by simp)) x
    · refine Or.inr ⟨fun f hf => g1 f (List.mem_cons_of_mem _ hf), ?_⟩
      rcases hh.mode with ⟨x, _⟩ | ⟨_, _, x, _⟩
      · exact absurd x (g1 f (by simp))
      · rw [x]; simp
  have hi' : p'.incr ≤ 128 ∧ (p'.incr = p.incr + 1 ∨ ∀ f ∈ segs.map (·.2), f.idx ≠ []) := by
    rcases hh.mode with ⟨g1, _, _, g4, g5⟩ | ⟨g1, _, _, g4, _⟩
    · simp only at g4 g5
      have : p.incr < 128 := by omega
      rw [g4]
      omega
    · simp only at g4
      rw [g4]
      refine ⟨hincr, Or.inr ?_⟩
      rcases hmode with ⟨x, _⟩ | ⟨x, _⟩
      · exact absurd (x f (by simp)) g1
      · exact fun f hf => x f (List.mem_cons_of_mem _ hf)
  have hargs' : argsFrom p'.incr (segs.map (·.2)) = argsFrom (p.incr + 1) (segs.map (·.2)) := by
    rcases hi'.2 with h | h
    · rw [h]
    · exact explicit_argsFrom _ _ _ h
  refine ⟨by omega, p', hat', ⟨hn, hat'.adv, fun s hs => hwf s (List.mem_cons_of_mem _ hs), hmode', hi'.1, ?_, ?_⟩, ?_⟩
  · intro j hj
    refine hargs j ?_
    simp only [List.map_cons, argsFrom, List.mem_cons]
    right
    rw [← hargs']
    exact hj
  · rcases hidx with h | h
    · rcases hi'.2 with h' | h'
      · left; simp only; omega
      · exact Or.inr h'
    · exact Or.inr fun f hf => h f (List.mem_cons_of_mem _ hf)
  · intro inp vars
    rw [← hai, ← hk]
    exact userParse_field hat hd0 hb hp inp vars

theorem userLoop_proceeds {scs : List (UserScanner V)} {last : Str} {i : Nat}
    {segs : List (Str × Field)} {vars vars' : List V} {input used : Str} {ending : Ending}
    (h : Proceeds scs last i segs vars input used vars' ending) :
    ∀ (fuel : Nat) (p : PSt) (inp : Reader), Before scs.length last i segs p → inp.At input → segs.length < fuel →
      Concludes ⟨inp, vars⟩ used vars' (userIO (userLoop scs fuel ⟨p, inp, vars⟩)) ending := by
  induction h with
  | done i vars rest =>
    intro fuel p inp hat hin hfuel
    cases fuel with
    | zero => simp at hfuel
    | succ fuel =>
      have hat := hat.rdr
      have ht : FormatText.text ⟨[], last⟩ = escBraces last := by simp [FormatText.text]
      rw [ht] at hat
      obtain ⟨q, hq⟩ := (userParse_end hat inp vars).1 _ (matchLit_ok hin)
      unfold userLoop Concludes
      rw [M.bind_ok hq, if_pos rfl]
      rfl
  | missing i vars input hn =>
    intro fuel p inp hat hin hfuel
    cases fuel with
    | zero => simp at hfuel
    | succ fuel =>
      have hat := hat.rdr
      have ht : FormatText.text ⟨[], last⟩ = escBraces last := by simp [FormatText.text]
      rw [ht] at hat
      obtain ⟨r, e, hr, he⟩ := matchLit_fails hin.1 (by rw [hin.2]; exact hn)
      obtain ⟨q, hq⟩ := (userParse_end hat inp vars).2 _ _ hr
      unfold userLoop Concludes
      rw [M.bind_err hq]
      exact ⟨_, _, rfl, he⟩
  | @field i lit f segs vars vars' sc old new spec piece rest used ending hsc hold hbody hob more ih =>
    intro fuel p inp hat hin hfuel
    cases fuel with
    | zero => simp at hfuel
    | succ fuel =>
      have hnum := hat.number
      obtain ⟨hlt, p', hat', hbef, hp⟩ := hat.head (V := V)
      have hq := (hp inp vars).1 _ (matchLit_ok hin)
      obtain ⟨s, h1, h2⟩ := hob p'.rdr (by rw [hbody] at hat'; simpa using hat')
      have hl : f.body.length = spec.length + 1 := by rw [hbody]; simp
      have ha : userArg (f.argument i) sc ⟨p', inp.adv lit.length, vars⟩ =
          .ok ⟨{ p' with rdr := p'.rdr.adv f.body.length }, (inp.adv lit.length).adv piece.length,
            vars.set (f.argument i) new⟩ () := by
        unfold userArg
        simp only [h1, hold, h2 _ hin.adv, hl]
      have := ih fuel _ _ hbef hin.adv.adv (by simp at hfuel; omega)
      rw [userLoop, M.bind_ok hq, if_neg (by unfold noMoreArgs; omega)]
      simp only [hsc]
      rw [M.bind_ok ha]
      cases ending with
      | mismatch => exact this
      | success =>
        unfold Concludes at this ⊢
        rw [this]
        simp only [adv_adv, List.length_append, Nat.add_assoc]
      | failed e =>
        unfold Concludes at this ⊢
        rw [this]
        simp only [adv_adv, List.length_append, Nat.add_assoc]
  | @stop i lit f segs vars sc old new spec piece rest e hsc hold hbody hde =>
    intro fuel p inp hat hin hfuel
    cases fuel with
    | zero => simp at hfuel
    | succ fuel =>
      have hnum := hat.number
      obtain ⟨hlt, p', hat', hbef, hp⟩ := hat.head (V := V)
      have hq := (hp inp vars).1 _ (matchLit_ok hin)
      obtain ⟨s, h1, h2⟩ := hde p'.rdr (by rw [hbody] at hat'; simpa using hat')
      have ha : userArg (f.argument i) sc ⟨p', inp.adv lit.length, vars⟩ =
          .err ⟨{ p' with rdr := p'.rdr.adv (spec.length + 1) }, (inp.adv lit.length).adv piece.length,
            vars.set (f.argument i) new⟩ e := by
        unfold userArg
        simp only [h1, hold, h2 _ hin.adv]
      rw [userLoop, M.bind_ok hq, if_neg (by unfold noMoreArgs; omega)]
      simp only [hsc]
      rw [M.bind_err ha]
      unfold Concludes userIO
      simp only [adv_adv, List.length_append]
  | @absent i lit f segs vars input hn =>
    intro fuel p inp hat hin hfuel
    cases fuel with
    | zero => simp at hfuel
    | succ fuel =>
      obtain ⟨hlt, p', hat', hbef, hp⟩ := hat.head (V := V)
      obtain ⟨r, e, hr, he⟩ := matchLit_fails hin.1 (by rw [hin.2]; exact hn)
      obtain ⟨q, hq⟩ := (hp inp vars).2 _ _ hr
      unfold userLoop Concludes
      rw [M.bind_err hq]
      exact ⟨_, _, rfl, he⟩

/-! ### Validation -/

theorem permits_admits {sc : UserScanner V} {spec : Str} (h : Permits sc spec) : sc.farg.Admits (spec ++ ['}']) := by
  intro r tail hat
  have hat' : r.At (spec ++ '}' :: tail) := by simpa using hat
  have hl : (spec ++ ['}']).length = spec.length + 1 := by simp
  rw [hl]
  obtain ⟨h1, h2⟩ := h r tail hat'
  show sc.check r = _
  unfold UserScanner.check
  cases hv : sc.validate with
  | some v => exact h1 v hv
  | none =>
    obtain ⟨s, hs⟩ := h2 hv
    simp only
    rw [M.bind_ok hs]
    rfl

theorem scanner_forward {sc : UserScanner V} {errs : Err → Prop} (h : DecentScanner sc errs) : sc.farg.Forward := by
  intro r hr
  rcases h.ends r hr with h | ⟨n, hn, h⟩
  · exact Or.inl h
  · right
    refine ⟨r.rest.take n, r.rest.drop n, ⟨hr, by rw [List.take_append_drop]⟩, ?_⟩
    rw [List.length_take, Nat.min_eq_left hn]
    exact h

theorem scanner_parses {sc : UserScanner V} {errs : Err → Prop} (h : DecentScanner sc errs) {r r' : Reader} (hr : r.Inv)
    (hv : sc.check r = .ok r' ()) : ∃ s, sc.parse r = .ok r' s := by
  unfold UserScanner.check at hv
  cases hval : sc.validate with
  | some c =>
    rw [hval] at hv
    exact h.agrees c hval r r' hr hv
  | none =>
    rw [hval] at hv
    simp only at hv
    cases hp : sc.parse r with
    | ok r1 s =>
      rw [M.bind_ok hp] at hv
      obtain ⟨rfl, _⟩ := ok_inj hv
      exact ⟨s, rfl⟩
    | err r1 e => rw [M.bind_err hp] at hv; cases hv
    | bad b => rw [M.bind_bad hp] at hv; cases hv

/-! ### Any string -/

theorem matchLit_any (lit : Str) {r : Reader} (hi : r.Inv) :
    ∃ r' : Reader, r'.src = r.src ∧ r'.Inv ∧
      (matchLit lit r = .ok r' () ∨ ∃ e, (e = .eof ∨ e = .invalidData) ∧ matchLit lit r = .err r' e) := by
  have hs := matchAll_spec (litPieces [] lit) r hi
  rw [litPieces_flatten] at hs
  by_cases hp : lit <+: r.rest
  · obtain ⟨rest, hr⟩ := hp
    have hat : r.At (lit ++ rest) := ⟨hi, hr.symm⟩
    exact ⟨r.adv lit.length, rfl, hat.adv.1, Or.inl (hs.1 ⟨rest, hr⟩)⟩
  · obtain ⟨n, e, h1, h2, h3, _⟩ := hs.2 hp
    exact ⟨r.adv n, rfl, h2, Or.inr ⟨e, h3, h1⟩⟩

/-- The run ends in the input, with all variables. -/
def Stays (s : UState V) (errs : Err → Prop) (run : Run (UState V) Unit) : Prop :=
  ∃ s' : UState V, s'.inp.src = s.inp.src ∧ s'.inp.Inv ∧ s'.vars.length = s.vars.length ∧
    (run = .ok s' () ∨ ∃ e, (errs e ∨ e = .eof ∨ e = .invalidData) ∧ run = .err s' e)

theorem userLoop_decent (scs : List (UserScanner V)) (errs : Err → Prop) (hs : ∀ sc ∈ scs, DecentScanner sc errs) :
    ∀ (fuel : Nat) (p : PSt) (matched : Bitset) (inp : Reader) (vars : List V), p.rdr.Inv → inp.Inv →
      scs.length ≤ vars.length → validateLoop (scs.map UserScanner.farg) fuel p matched = .ok () true →
      Stays ⟨p, inp, vars⟩ errs (userLoop scs fuel ⟨p, inp, vars⟩) := by
  intro fuel
  induction fuel with
  | zero => intro p matched inp vars _ _ _ h; simp [validateLoop] at h
  | succ fuel ih =>
    intro p matched inp vars hi hin hlen h
    rw [validateLoop] at h
    cases hp : Checked.parse p with
    | bad b => rw [hp] at h; simp at h
    | err p' e => rw [hp] at h; simp at h
    | ok p' n =>
      rw [hp] at h
      simp only at h
      rw [userLoop]
      rcases parse_inv hi hp with ⟨lit, hat, rfl, rfl, hu⟩ | ⟨lit, idx, colon, rest, hat, hh, hb, hu⟩
      · obtain ⟨h1, h2⟩ := userParse_end hat inp vars
        obtain ⟨r, hr1, hr2, hr | ⟨e, he, hr⟩⟩ := matchLit_any lit hin
        · obtain ⟨q, hq⟩ := h1 r hr
          rw [M.bind_ok hq, if_pos rfl]
          exact ⟨⟨q, r, vars⟩, hr1, hr2, rfl, Or.inl rfl⟩
        · obtain ⟨q, hq⟩ := h2 r e hr
          rw [M.bind_err hq]
          exact ⟨⟨q, r, vars⟩, hr1, hr2, rfl, Or.inr ⟨e, Or.inr he, rfl⟩⟩
      · obtain ⟨h1, h2⟩ := userParse_field hat hh.digits hb hp inp vars
        obtain ⟨r, hr1, hr2, hr | ⟨e, he, hr⟩⟩ := matchLit_any lit hin
        swap
        · obtain ⟨q, hq⟩ := h2 r e hr
          rw [M.bind_err hq]
          exact ⟨⟨q, r, vars⟩, hr1, hr2, rfl, Or.inr ⟨e, Or.inr he, rfl⟩⟩
        rw [M.bind_ok (h1 r hr)]
        by_cases hn : n = noMoreArgs
        · rw [if_pos hn]
          exact ⟨⟨p', r, vars⟩, hr1, hr2, rfl, Or.inl rfl⟩
        rw [if_neg hn] at h ⊢
        split at h
        · simp at h
        cases hset : matched.set n with
        | none => rw [hset] at h; simp at h
        | some m' =>
          rw [hset] at h
          simp only at h
          rw [List.getElem?_map] at h
          cases ha : scs[n]? with
          | none => rw [ha] at h; simp at h
          | some sc =>
            rw [ha] at h
            simp only [Option.map_some] at h ⊢
            have hmem := List.mem_of_getElem? ha
            have hd := hs sc hmem
            obtain ⟨hat', hadv⟩ := parse_field_at hat hh
            cases hv : sc.farg.validate p'.rdr with
            | bad b => rw [hv] at h; simp at h
            | err r e => rw [hv] at h; simp at h
            | ok r3 u =>
              rw [hv] at h
              simp only at h
              obtain ⟨s, hparse⟩ := scanner_parses hd hat'.1 hv
              have hri : r3.Inv := by
                rcases scanner_forward hd p'.rdr hat'.1 with ⟨r1, e1, he⟩ | ⟨body, tail, hbat, hok⟩
                · rw [he] at hv; simp at hv
                · rw [hok] at hv
                  obtain ⟨rfl, _⟩ := ok_inj hv
                  exact hbat.adv.1
              obtain ⟨old, hold⟩ : ∃ old, vars[n]? = some old :=
                ⟨_, List.getElem?_eq_getElem (Nat.lt_of_lt_of_le (List.getElem?_eq_some_iff.1 ha).1 hlen)⟩
              obtain ⟨c, hc1, hc2, hc | ⟨e, he, hc⟩⟩ := hd.scans s ⟨r, old⟩ hr2
              · have hu : userArg n sc ⟨p', r, vars⟩ = .ok ⟨{ p' with rdr := r3 }, c.inp, vars.set n c.var⟩ () := by
                  unfold userArg
                  simp only [hparse, hold, hc]
                rw [M.bind_ok hu]
                obtain ⟨s', g1, g2, g3, g4⟩ := ih { p' with rdr := r3 } m' c.inp (vars.set n c.var) hri hc2 (by simpa using hlen) h
                exact ⟨s', by rw [g1]; exact hc1.trans hr1, g2, by rw [g3]; simp, g4⟩
              · have hu : userArg n sc ⟨p', r, vars⟩ = .err ⟨{ p' with rdr := r3 }, c.inp, vars.set n c.var⟩ e := by
                  unfold userArg
                  simp only [hparse, hold, hc]
                rw [M.bind_err hu]
                exact ⟨⟨{ p' with rdr := r3 }, c.inp, vars.set n c.var⟩, hc1.trans hr1, hc2, by simp, Or.inr ⟨e, Or.inl he, rfl⟩⟩

/-! ### Scanners of the library -/

/-- A run of the library's own loop, with the types of the loop here. -/
def asUser {α : Type} : Run SSt α → Run (UState ScanVal) α
  | .ok s a => .ok ⟨s.p, s.inp, s.vars⟩ a
  | .err s e => .err ⟨s.p, s.inp, s.vars⟩ e
  | .bad b => .bad b

theorem userParse_builtin (s : SSt) : userParse ⟨s.p, s.inp, s.vars⟩ = asUser (scanParse s) := by
  unfold userParse scanParse
  simp only
  cases Unchecked.scan [] s.p.rdr.rest 0 with
  | none => rfl
  | some x =>
    obtain ⟨n, field, pieces⟩ := x
    simp only
    cases matchAll pieces s.inp with
    | bad b => rfl
    | err r e => rfl
    | ok r u =>
      simp only
      cases field with
      | false => rfl
      | true =>
        simp only [Bool.not_true, Bool.false_eq_true, if_false]
        cases Unchecked.replacementField { s.p with rdr := { s.p.rdr with pos := s.p.rdr.pos + n } } <;> rfl

theorem userArg_builtin (n : Nat) (ty : ScanTy) (s : SSt) :
    userArg n ty.scanner ⟨s.p, s.inp, s.vars⟩ = asUser (scanArg n ty s) := by
  unfold userArg scanArg ScanTy.scanner ScanTy.parse
  simp only
  cases h : parseScanSpecs {} s.p.rdr with
  | bad b => rw [M.bind_bad h, M.bind_bad h]; rfl
  | err r e => rw [M.bind_err h, M.bind_err h]; rfl
  | ok r sp =>
    rw [M.bind_ok h, M.bind_ok h]
    have h1 : (do let fmt ← M.get; return (sp, fmt) : M Reader (ScanSpecs × Reader)) r = .ok r (sp, r) := rfl
    have h2 : (do let fmt ← M.get; return ty.scan sp fmt : M Reader (M Slot Unit)) r = .ok r (ty.scan sp r) := rfl
    rw [h1, h2]
    simp only
    cases s.vars[n]? with
    | none => rfl
    | some v =>
      simp only [Cell.slot]
      cases ty.scan sp r ⟨s.inp, v⟩ <;> rfl

theorem userLoop_builtin (tys : List ScanTy) : ∀ (fuel : Nat) (s : SSt),
    userLoop (tys.map ScanTy.scanner) fuel ⟨s.p, s.inp, s.vars⟩ = asUser (scanLoop tys fuel s) := by
  intro fuel
  induction fuel with
  | zero => intro s; rfl
  | succ fuel ih =>
    intro s
    have hp := userParse_builtin s
    unfold userLoop scanLoop
    cases h : scanParse s with
    | bad b => rw [h] at hp; rw [M.bind_bad h, M.bind_bad hp]; rfl
    | err s' e => rw [h] at hp; rw [M.bind_err h, M.bind_err hp]; rfl
    | ok s' n =>
      rw [h] at hp
      rw [M.bind_ok h, M.bind_ok hp]
      by_cases hn : n = noMoreArgs
      · rw [if_pos hn, if_pos hn]; rfl
      · rw [if_neg hn, if_neg hn, List.getElem?_map]
        cases tys[n]? with
        | none => rfl
        | some ty =>
          simp only [Option.map_some]
          have ha := userArg_builtin n ty s'
          cases h2 : scanArg n ty s' with
          | bad b => rw [h2] at ha; rw [M.bind_bad h2, M.bind_bad ha]; rfl
          | err s2 e => rw [h2] at ha; rw [M.bind_err h2, M.bind_err ha]; rfl
          | ok s2 u =>
            rw [h2] at ha
            rw [M.bind_ok h2, M.bind_ok ha]
            exact ih s2

/-! ### Parts of variables -/

theorem views_get (parts : List (Part W V)) (vars : List W) (n : Nat) (p : Part W V) (hp : parts[n]? = some p) :
    (views parts vars)[n]? = vars[n]?.map p.get := by
  unfold views
  rw [List.getElem?_zipWith, hp]
  cases vars[n]? <;> rfl

theorem views_set (parts : List (Part W V)) (vars : List W) (n : Nat) (p : Part W V) (w : W) (hp : parts[n]? = some p) :
    views parts (vars.set n w) = (views parts vars).set n (p.get w) := by
  unfold views
  apply List.ext_getElem?
  intro i
  rw [List.getElem?_zipWith, List.getElem?_set, List.getElem?_set, List.getElem?_zipWith]
  by_cases hi : n = i
  · subst hi
    simp only [if_true, hp, List.length_zipWith]
    have hl : n < parts.length := (List.getElem?_eq_some_iff.1 hp).1
    by_cases hv : n < vars.length
    · simp [hv, hl]
    · simp [hv]
  · simp only [hi, if_false]

theorem onlyParts_refl (parts : List (Part W V)) (vars : List W) : Mirrors.OnlyParts parts vars vars :=
  ⟨rfl, fun i w w' h h' => Or.inl (by rw [h] at h'; exact (Option.some.inj h').symm)⟩

theorem onlyParts_set {parts : List (Part W V)} {before vars : List W} (h : Mirrors.OnlyParts parts before vars) {n : Nat}
    {p : Part W V} (hp : parts[n]? = some p) (lawful : LawfulPart p) {w : W} (hw : vars[n]? = some w) (v : V) :
    Mirrors.OnlyParts parts before (vars.set n (p.put v w)) := by
  refine ⟨by rw [List.length_set]; exact h.1, fun i a b ha hb => ?_⟩
  rw [List.getElem?_set] at hb
  by_cases hi : n = i
  · subst hi
    have hl : n < vars.length := (List.getElem?_eq_some_iff.1 hw).1
    rw [if_pos rfl, if_pos hl] at hb
    obtain rfl := Option.some.inj hb
    right
    rcases h.2 n a w ha hw with rfl | ⟨p', v', hp', rfl⟩
    · exact ⟨p, v, hp, rfl⟩
    · rw [hp] at hp'
      obtain rfl := Option.some.inj hp'
      exact ⟨p, v, hp, lawful.put_put v v' a⟩
  · rw [if_neg hi] at hb
    exact h.2 i a b ha hb

/-- Likewise for the loops. -/
def MirrorLoop {α : Type} (parts : List (Part W V)) (before : List W) : Run (UState W) α → Run (UState V) α → Prop
  | .ok a x, .ok b y => x = y ∧ a.p = b.p ∧ a.inp = b.inp ∧ b.vars = views parts a.vars ∧ Mirrors.OnlyParts parts before a.vars
  | .err a e, .err b e' => e = e' ∧ a.inp = b.inp ∧ b.vars = views parts a.vars ∧ Mirrors.OnlyParts parts before a.vars
  | .bad b, .bad b' => b = b'
  | _, _ => False

theorem userLoop_inherited (fs : List (UserScanner V × Part W V)) (lawful : ∀ f ∈ fs, LawfulPart f.2) (before : List W) :
    ∀ (fuel : Nat) (p : PSt) (inp : Reader) (vars : List W), Mirrors.OnlyParts (fs.map (·.2)) before vars →
      MirrorLoop (fs.map (·.2)) before (userLoop (fs.map fun f => f.1.inherit f.2) fuel ⟨p, inp, vars⟩)
        (userLoop (fs.map (·.1)) fuel ⟨p, inp, views (fs.map (·.2)) vars⟩) := by
  intro fuel
  induction fuel with
  | zero => intro p inp vars _; rfl
  | succ fuel ih =>
    intro p inp vars ho
    have h1 := userParse_eq p inp vars
    have h2 := userParse_eq p inp (views (fs.map (·.2)) vars)
    unfold userLoop
    cases h : scanParse ⟨p, inp, []⟩ with
    | bad b => rw [h] at h1 h2; rw [M.bind_bad h1, M.bind_bad h2]; rfl
    | err s e => rw [h] at h1 h2; rw [M.bind_err h1, M.bind_err h2]; exact ⟨rfl, rfl, rfl, ho⟩
    | ok s n =>
      rw [h] at h1 h2
      rw [M.bind_ok h1, M.bind_ok h2]
      by_cases hn : n = noMoreArgs
      · rw [if_pos hn, if_pos hn]; exact ⟨rfl, rfl, rfl, rfl, ho⟩
      · rw [if_neg hn, if_neg hn, List.getElem?_map, List.getElem?_map]
        cases hf : fs[n]? with
        | none => rfl
        | some f =>
          simp only [Option.map_some]
          have hl := lawful f (List.mem_of_getElem? hf)
          have hp : (fs.map (·.2))[n]? = some f.2 := by rw [List.getElem?_map, hf]; rfl
          have hg := views_get (fs.map (·.2)) vars n f.2 hp
          have key : MirrorLoop (fs.map (·.2)) before (userArg n (f.1.inherit f.2) ⟨s.p, s.inp, vars⟩)
              (userArg n f.1 ⟨s.p, s.inp, views (fs.map (·.2)) vars⟩) := by
            unfold userArg
            simp only [UserScanner.inherit]
            cases f.1.parse s.p.rdr with
            | bad b => rfl
            | err r e => exact ⟨rfl, rfl, rfl, ho⟩
            | ok r st =>
              simp only
              cases hv : vars[n]? with
              | none => rw [hv] at hg; simp only [hg, Option.map_none]; rfl
              | some w =>
                rw [hv] at hg
                simp only [hg, Option.map_some]
                cases f.1.scan st ⟨s.inp, f.2.get w⟩ with
                | bad b => rfl
                | ok c u =>
                  refine ⟨rfl, rfl, rfl, ?_, onlyParts_set ho hp hl hv _⟩
                  simp only
                  rw [views_set _ _ _ _ _ hp, hl.get_put]
                | err c e =>
                  refine ⟨rfl, rfl, ?_, onlyParts_set ho hp hl hv _⟩
                  simp only
                  rw [views_set _ _ _ _ _ hp, hl.get_put]
          cases ha : userArg n (f.1.inherit f.2) ⟨s.p, s.inp, vars⟩ with
          | bad b =>
            rw [ha] at key
            cases hb : userArg n f.1 ⟨s.p, s.inp, views (fs.map (·.2)) vars⟩ with
            | bad b' => rw [hb] at key; rw [M.bind_bad ha, M.bind_bad hb]; exact key
            | ok b x => rw [hb] at key; exact key.elim
            | err b x => rw [hb] at key; exact key.elim
          | err a e =>
            rw [ha] at key
            cases hb : userArg n f.1 ⟨s.p, s.inp, views (fs.map (·.2)) vars⟩ with
            | bad b' => rw [hb] at key; exact key.elim
            | ok b x => rw [hb] at key; exact key.elim
            | err b x => rw [hb] at key; rw [M.bind_err ha, M.bind_err hb]; exact key
          | ok a u =>
            rw [ha] at key
            cases hb : userArg n f.1 ⟨s.p, s.inp, views (fs.map (·.2)) vars⟩ with
            | bad b' => rw [hb] at key; exact key.elim
            | err b x => rw [hb] at key; exact key.elim
            | ok b x =>
              rw [hb] at key
              rw [M.bind_ok ha, M.bind_ok hb]
              obtain ⟨pa, ia, va⟩ := a
              obtain ⟨pb, ib, vb⟩ := b
              obtain ⟨_, k1, k2, k3, k4⟩ := key
              simp only at k1 k2 k3 k4
              subst k1 k2 k3
              exact ih _ _ _ k4

end Emio
