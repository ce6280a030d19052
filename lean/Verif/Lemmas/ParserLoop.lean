import Verif.Lemmas.Parser
import Verif.Lemmas.Bitset
/-
The loops over a format string.
-/
namespace Emio
open Reader Spec

/-! ### Arguments -/

/-- Validating a specification moves the reader on by at least a character, or fails. -/
def FArg.Tame (a : FArg) : Prop :=
  ∀ r, r.Inv → (∃ r' e, a.validate r = .err r' e) ∨
    ∃ body tail, body ≠ [] ∧ r.At (body ++ tail) ∧ a.validate r = .ok (r.adv body.length) ()

/-- Validating a specification does not move the reader back, or fails. -/
def FArg.Forward (a : FArg) : Prop :=
  ∀ r, r.Inv → (∃ r' e, a.validate r = .err r' e) ∨
    ∃ body tail, r.At (body ++ tail) ∧ a.validate r = .ok (r.adv body.length) ()

theorem FArg.Tame.forward {a : FArg} (h : a.Tame) : a.Forward := by
  intro r hr
  rcases h r hr with h | ⟨body, tail, _, h1, h2⟩
  · exact Or.inl h
  · exact Or.inr ⟨body, tail, h1, h2⟩

/-- Fails after writing something. -/
def Fails (m : Fmt Unit) (k : Nat) : Prop :=
  ∀ ops, ∃ new e, m ops = .err (ops ++ new) e ∧ e = .invalidFormat ∧ ∀ op ∈ new, op.Fine ∧ op.need ≤ k

/-- A validated specification of this format string can be formatted, unless `E`. -/
def FArg.Sound (a : FArg) (src : Str) (k : Nat) (E : Prop) : Prop :=
  ∀ r r', r.src = src → r.Inv → a.validate r = .ok r' () →
    ∃ act, a.parse r = .ok r' act ∧ ((E ∧ Fails act k) ∨ ∃ text, Emits act text k)

/-- The argument accepts `body` (a specification with its closing brace) and is replaced by `text`, asking for at most
`k` contiguous characters. -/
def FArg.Reads (a : FArg) (body text : Str) (k : Nat) : Prop :=
  ∀ r tail, r.At (body ++ tail) → a.validate r = .ok (r.adv body.length) () ∧
    ∃ act, a.parse r = .ok (r.adv body.length) act ∧ Emits act text k

/-- The argument accepts `body` at some place. -/
def FArg.Takes (a : FArg) (body : Str) : Prop :=
  ∃ r tail, r.At (body ++ tail) ∧ a.validate r = .ok (r.adv body.length) ()

/-! ### An accepted format string is formatted -/

theorem map_str_render (ps : List Str) : render (ps.map WOp.str) = ps.flatten := by
  induction ps with
  | nil => rfl
  | cons p ps ih => simp [ih, WOp.text]

theorem map_str_fine (ps : List Str) : ∀ op ∈ ps.map WOp.str, op.Fine ∧ op.need ≤ 0 := by
  intro op ho
  simp only [List.mem_map] at ho
  obtain ⟨p, _, rfl⟩ := ho
  exact ⟨trivial, Nat.le_refl _⟩

theorem HeadRead.inv {p p' : PSt} {k : Nat} {idx : Str} {colon : Bool} {rest : Str}
    (h : HeadRead p p' k idx colon) (hat : p.rdr.At (idx ++ ((if colon then [':'] else []) ++ rest))) :
    p'.rdr.At rest := by
  rw [h.rdr]
  have : p.rdr.At ((idx ++ (if colon then [':'] else [])) ++ rest) := by simpa using hat
  have := this.adv
  cases colon <;> simpa using this

theorem parse_field_at {p p' : PSt} {k : Nat} {lit idx rest : Str} {colon : Bool}
    (hat : p.rdr.At (escBraces lit ++ '{' :: (idx ++ ((if colon then [':'] else []) ++ rest))))
    (hh : HeadRead { p with rdr := p.rdr.adv ((escBraces lit).length + 1) } p' k idx colon) :
    p'.rdr.At rest ∧ p'.rdr = p.rdr.adv ((escBraces lit).length + 1 + (idx.length + if colon then 1 else 0)) := by
  have h1 : p.rdr.At ((escBraces lit ++ ['{']) ++ (idx ++ ((if colon then [':'] else []) ++ rest))) := by simpa using hat
  have h2 := h1.adv
  have hlen : (escBraces lit ++ ['{']).length = (escBraces lit).length + 1 := by simp
  rw [hlen] at h2
  exact ⟨hh.inv h2, by rw [hh.rdr]; simp only [adv_adv]⟩

theorem loop_sound (args : List FArg) (src : Str) (k : Nat) (E : Prop) (hs : ∀ a ∈ args, a.Sound src k E)
    (ht : ∀ a ∈ args, a.Tame) :
    ∀ (fuel : Nat) (p : PSt) (matched : Bitset) (ops : List WOp), p.rdr.Inv → p.rdr.src = src →
      validateLoop args fuel p matched = .ok () true →
      ∃ f new, f.ops = ops ++ new ∧ (∀ op ∈ new, op.Fine ∧ op.need ≤ k) ∧
        (formatLoop args fuel ⟨p, ops⟩ = .ok f () ∨
          E ∧ ∃ e, e = Err.invalidFormat ∧ formatLoop args fuel ⟨p, ops⟩ = .err f e) := by
  intro fuel
  induction fuel with
  | zero => intro p matched ops _ _ h; simp [validateLoop] at h
  | succ fuel ih =>
    intro p matched ops hi hsrc h
    rw [validateLoop] at h
    have hpc : ∀ pieces : List Str, ∀ op ∈ pieces.map WOp.str, op.Fine ∧ op.need ≤ k := fun pieces op ho =>
      ⟨(map_str_fine pieces op ho).1, Nat.le_trans (map_str_fine pieces op ho).2 (Nat.zero_le _)⟩
    cases hp : Checked.parse p with
    | bad b => rw [hp] at h; simp at h
    | err p' e => rw [hp] at h; simp at h
    | ok p' n =>
      rw [hp] at h
      simp only at h
      rw [formatLoop]
      rcases parse_inv hi hp with ⟨lit, hat, rfl, rfl, hu⟩ | ⟨lit, idx, colon, rest, hat, hh, hb, hu⟩
      · obtain ⟨pieces, g1, g2⟩ := hu ops
        rw [M.bind_ok g1, if_pos rfl]
        exact ⟨_, pieces.map WOp.str, rfl, hpc pieces, Or.inl rfl⟩
      · obtain ⟨pieces, g1, g2⟩ := hu ops
        rw [M.bind_ok g1]
        by_cases hn : n = noMoreArgs
        · rw [if_pos hn]
          exact ⟨_, pieces.map WOp.str, rfl, hpc pieces, Or.inl rfl⟩
        · rw [if_neg hn] at h ⊢
          split at h
          · simp at h
          · cases hset : matched.set n with
            | none => rw [hset] at h; simp at h
            | some m' =>
              rw [hset] at h
              simp only at h
              cases ha : args[n]? with
              | none => rw [ha] at h; simp at h
              | some a =>
                rw [ha] at h
                simp only at h ⊢
                have hmem := List.mem_of_getElem? ha
                obtain ⟨hat', hadv⟩ := parse_field_at hat hh
                cases hv : a.validate p'.rdr with
                | bad b => rw [hv] at h; simp at h
                | err r e => rw [hv] at h; simp at h
                | ok r u =>
                  rw [hv] at h
                  simp only at h
                  rcases ht a hmem p'.rdr hat'.1 with ⟨r1, e1, he⟩ | ⟨body, tail, hne, hbat, hok⟩
                  · rw [he] at hv; simp at hv
                  · rw [hok] at hv
                    obtain ⟨rfl, _⟩ := ok_inj hv
                    have hsrc' : p'.rdr.src = src := by rw [hadv]; exact hsrc
                    obtain ⟨act, hparse, ⟨hE, hem⟩ | ⟨text, hem⟩⟩ := hs a hmem p'.rdr _ hsrc' hat'.1 hok
                    · obtain ⟨n2, e, e1, e2, e3⟩ := hem (ops ++ pieces.map WOp.str)
                      have hpa : processArg a ⟨p', ops ++ pieces.map WOp.str⟩ =
                          .err ⟨{ p' with rdr := p'.rdr.adv body.length }, ops ++ pieces.map WOp.str ++ n2⟩ e := by
                        unfold processArg
                        simp only [hparse, e1]
                      rw [M.bind_err hpa]
                      refine ⟨_, pieces.map WOp.str ++ n2, by simp only [List.append_assoc], ?_, Or.inr ⟨hE, e, e2, rfl⟩⟩
                      intro op ho
                      simp only [List.mem_append] at ho
                      rcases ho with ho | ho
                      · exact hpc pieces op ho
                      · exact e3 op ho
                    · obtain ⟨n2, e1, e2, e3, e4⟩ := hem (ops ++ pieces.map WOp.str)
                      have hpa : processArg a ⟨p', ops ++ pieces.map WOp.str⟩ =
                          .ok ⟨{ p' with rdr := p'.rdr.adv body.length }, ops ++ pieces.map WOp.str ++ n2⟩ () := by
                        unfold processArg
                        simp only [hparse, e1]
                      rw [M.bind_ok hpa]
                      obtain ⟨f, new, h2, h3, h1⟩ := ih { p' with rdr := p'.rdr.adv body.length } m'
                        (ops ++ pieces.map WOp.str ++ n2) hbat.adv.1 hsrc' h
                      refine ⟨f, pieces.map WOp.str ++ n2 ++ new, by rw [h2]; simp, ?_, h1⟩
                      intro op ho
                      simp only [List.mem_append] at ho
                      rcases ho with (ho | ho) | ho
                      · exact hpc pieces op ho
                      · exact ⟨e3 op ho, e4 op ho⟩
                      · exact h3 op ho

/-! ### Validation always ends -/

theorem fieldName_total {p : PSt} (hp : p.rdr.Inv) :
    (∃ p' e, Checked.fieldName p = .err p' e) ∨ ∃ p' k, Checked.fieldName p = .ok p' k := by
  unfold Checked.fieldName
  cases hr : p.rdr.rest with
  | nil =>
    have : PSt.onReader Reader.peek p = .err p .eof := by
      unfold PSt.onReader
      rw [Reader.At.peek_nil ⟨hp, hr⟩]
    rw [M.bind_err this]
    exact Or.inl ⟨_, _, rfl⟩
  | cons c l =>
    have hat : p.rdr.At (c :: l) := ⟨hp, hr⟩
    rw [M.bind_ok (onReader_ok hat.peek), M.bind_ok (M.get_run _)]
    simp only
    split
    · split
      · exact Or.inl ⟨_, _, rfl⟩
      · rcases parse_unsigned u8 (Or.inl rfl) hp with ⟨e, he⟩ | ⟨r', v, hv, _⟩
        · have : PSt.onReader (Reader.parseInt u8 10) p = .err p e := by
            unfold PSt.onReader; rw [he]
          rw [M.bind_err this]
          exact Or.inl ⟨_, _, rfl⟩
        · rw [M.bind_ok (onReader_ok hv), M.bind_ok (M.modify_run _ _)]
          exact Or.inr ⟨_, _, rfl⟩
    · split
      · exact Or.inl ⟨_, _, rfl⟩
      · exact Or.inr ⟨_, _, rfl⟩

theorem replacementField_total {p : PSt} (hp : p.rdr.Inv) :
    (∃ p' e, Checked.replacementField p = .err p' e) ∨ ∃ p' k, Checked.replacementField p = .ok p' k := by
  unfold Checked.replacementField
  rcases fieldName_total hp with ⟨p', e, he⟩ | ⟨p', k, hk⟩
  · rw [M.bind_err he]; exact Or.inl ⟨_, _, rfl⟩
  · rw [M.bind_ok hk]
    obtain ⟨idx, rest, hat, hn, _⟩ := fieldName_inv hp hk
    have hat' : p'.rdr.At rest := by rw [hn.rdr]; exact hat.adv
    cases rest with
    | nil =>
      have : PSt.onReader Reader.peek p' = .err p' .eof := by
        unfold PSt.onReader
        rw [hat'.peek_nil]
      rw [M.bind_err this]
      exact Or.inl ⟨_, _, rfl⟩
    | cons c l =>
      rw [M.bind_ok (onReader_ok hat'.peek)]
      split
      · exact Or.inr ⟨_, _, rfl⟩
      · split
        · exact Or.inr ⟨_, _, rfl⟩
        · exact Or.inl ⟨_, _, rfl⟩

theorem parse_total {p : PSt} (hp : p.rdr.Inv) :
    (∃ p' e, Checked.parse p = .err p' e) ∨ ∃ p' k, Checked.parse p = .ok p' k := by
  unfold Checked.parse
  cases hs : Checked.scan p.rdr.rest 0 with
  | none => exact Or.inl ⟨_, _, rfl⟩
  | some mf =>
    obtain ⟨m, f⟩ := mf
    cases f with
    | false => exact Or.inr ⟨_, _, rfl⟩
    | true =>
      obtain ⟨lit, rest, e1, e2, _, e4, _⟩ := scan_inv _ _ rfl 0 m true hs
      obtain ⟨d, tl, rfl, hd⟩ := e4 rfl
      have hat : p.rdr.At ((escBraces lit ++ ['{']) ++ d :: tl) := ⟨hp, by simpa using e1⟩
      have hm : m = (escBraces lit ++ ['{']).length := by simpa using e2
      have : (p.rdr.adv m).Inv := by rw [hm]; exact hat.adv.1
      exact replacementField_total (p := { p with rdr := p.rdr.adv m }) this

theorem loop_total (args : List FArg) (ht : ∀ a ∈ args, a.Forward) (hn : args.length ≤ 128) :
    ∀ (fuel : Nat) (p : PSt) (matched : Bitset) (S : List Nat), Bitset.Rep matched S → matched.bits = 128 → p.rdr.Inv →
      p.rdr.rest.length < fuel → ∃ b, validateLoop args fuel p matched = .ok () b := by
  intro fuel
  induction fuel with
  | zero => intro p matched S _ _ _ h; omega
  | succ fuel ih =>
    intro p matched S hrep hbits hi hf
    rw [validateLoop]
    rcases parse_total hi with ⟨p', e, he⟩ | ⟨p', n, hp⟩
    · rw [he]; exact ⟨_, rfl⟩
    · rw [hp]
      simp only
      split
      · exact ⟨_, rfl⟩
      · rename_i hnm
        rcases parse_inv hi hp with ⟨lit, hat, rfl, rfl, hu⟩ | ⟨lit, idx, colon, rest, hat, hh, hb, hu⟩
        · exact absurd rfl hnm
        · split
          · exact ⟨_, rfl⟩
          · rename_i hlt
            have := Bitset.rep_set hrep n
            rw [if_pos (by omega)] at this
            obtain ⟨m', hset, hrep', hbits'⟩ := this
            rw [hset]
            simp only
            have hget : args[n]? = some (args[n]'(by omega)) := List.getElem?_eq_getElem _
            rw [hget]
            simp only
            obtain ⟨hat', hadv⟩ := parse_field_at hat hh
            rcases ht _ (List.getElem_mem (by omega : n < args.length)) p'.rdr hat'.1 with
              ⟨r1, e1, he⟩ | ⟨body, tail, hbat, hok⟩
            · rw [he]; exact ⟨_, rfl⟩
            · rw [hok]
              simp only
              refine ih _ m' _ hrep' (by omega) hbat.adv.1 ?_
              have h1 := hat.pos
              have h2 := hbat.adv.pos
              have h3 : p'.rdr.src = p.rdr.src := by rw [hadv]; rfl
              have h4 : p'.rdr.pos ≥ p.rdr.pos + 1 := by rw [hadv]; simp [Reader.adv]; omega
              have h5 : (p'.rdr.adv body.length).src = p'.rdr.src := rfl
              have h6 : (p'.rdr.adv body.length).pos ≥ p'.rdr.pos := by simp [Reader.adv]
              rw [hat.2] at hf
              simp only
              rw [hbat.adv.2]
              rw [h5, h3] at h2
              omega

/-! ### Accepted strings are format strings -/

/-- The arguments fields refer to, counting from `i`. -/
def argsFrom : Nat → List Field → List Nat
  | _, [] => []
  | i, f :: fs => f.argument i :: argsFrom (i + 1) fs

theorem argsFrom_eq (t : FormatText) : t.arguments = argsFrom 0 t.fields := by
  unfold FormatText.arguments
  have : ∀ (fs : List Field) (i : Nat), fs.mapIdx (fun j f => f.argument (i + j)) = argsFrom i fs := by
    intro fs
    induction fs with
    | nil => intro i; rfl
    | cons f fs ih =>
      intro i
      rw [List.mapIdx_cons, argsFrom, ← ih (i + 1)]
      congr 1
      congr 1
      funext j f
      congr 1
      omega
  rw [← this t.fields 0]
  congr 1
  funext j f
  rw [Nat.zero_add]

/-- The numbering fits what was read before. -/
def ModeOk (positional : Option Bool) (fs : List Field) : Prop :=
  ((∀ f ∈ fs, f.idx = []) ∧ positional ≠ some true) ∨ ((∀ f ∈ fs, f.idx ≠ []) ∧ positional ≠ some false)

theorem modeOk_nil (positional : Option Bool) : ModeOk positional [] := by
  unfold ModeOk
  cases positional with
  | none => simp
  | some b => cases b <;> simp

theorem loop_backward (args : List FArg) (ht : ∀ a ∈ args, a.Tame) :
    ∀ (fuel : Nat) (p : PSt) (matched : Bitset) (S : List Nat), Bitset.Rep matched S → matched.bits = 128 → p.rdr.Inv →
      p.incr ≤ 128 → validateLoop args fuel p matched = .ok () true →
      ∃ (t : FormatText) (tail : Str), p.rdr.rest = t.text ++ tail ∧ (∀ f ∈ t.fields, f.WellFormed) ∧
        ModeOk p.positional t.fields ∧ (∀ k ∈ argsFrom p.incr t.fields, k < args.length) ∧
        (∀ k < args.length, k ∈ S ∨ k ∈ argsFrom p.incr t.fields) ∧
        (∀ x ∈ (argsFrom p.incr t.fields).zip t.fields, ∃ a, args[x.1]? = some a ∧ a.Takes x.2.body) ∧
        (tail = [] ∨ Begins255 tail ∧ (∀ f ∈ t.fields, f.idx ≠ []) ∧ p.positional ≠ some false) := by
  intro fuel
  induction fuel with
  | zero => intro p matched S _ _ _ _ h; simp [validateLoop] at h
  | succ fuel ih =>
    intro p matched S hrep hbits hi hincr h
    rw [validateLoop] at h
    cases hp : Checked.parse p with
    | bad b => rw [hp] at h; simp at h
    | err p' e => rw [hp] at h; simp at h
    | ok p' n =>
      rw [hp] at h
      simp only at h
      rcases parse_inv hi hp with ⟨lit, hat, rfl, rfl, hu⟩ | ⟨lit, idx, colon, rest, hat, hh, hb, hu⟩
      · rw [if_pos rfl] at h
        simp only [Run.ok.injEq, true_and] at h
        refine ⟨⟨[], lit⟩, [], by simp [FormatText.text, hat.2], by simp [FormatText.fields], modeOk_nil _,
          by simp [FormatText.fields, argsFrom], fun k hk => Or.inl ((Bitset.rep_allFirst hrep _).1 h k hk),
          by simp [FormatText.fields, argsFrom], Or.inl rfl⟩
      · by_cases hn : n = noMoreArgs
        · rw [if_pos hn] at h
          simp only [Run.ok.injEq, true_and] at h
          refine ⟨⟨[], lit⟩, '{' :: (idx ++ ((if colon then [':'] else []) ++ rest)),
            by simp [FormatText.text, hat.2], by simp [FormatText.fields], modeOk_nil _,
            by simp [FormatText.fields, argsFrom], fun k hk => Or.inl ((Bitset.rep_allFirst hrep _).1 h k hk),
            by simp [FormatText.fields, argsFrom], Or.inr ?_⟩
          rcases hh.mode with ⟨_, _, _, _, hk⟩ | ⟨hne, hpos, _, _, hk, _⟩
          · simp only at hk
            unfold noMoreArgs at hn
            omega
          · refine ⟨?_, by simp [FormatText.fields], hpos⟩
            have hd : ∀ c ∈ idx, c.isDigit = true := fun c hc => by rw [← isDigit_eq]; exact hh.digits c hc
            have hval : numeralValue 10 idx = 255 := by unfold noMoreArgs at hn; omega
            cases colon with
            | true => exact ⟨idx, ':', rest, by simp, hne, hd, hval, Or.inr rfl⟩
            | false =>
              have := hb rfl
              cases rest with
              | nil => simp at this
              | cons c rest =>
                simp only [List.head?_cons, Option.some.injEq] at this
                subst this
                exact ⟨idx, '}', rest, by simp, hne, hd, hval, Or.inl rfl⟩
        · rw [if_neg hn] at h
          split at h
          · simp at h
          · rename_i hlt
            have hset := Bitset.rep_set hrep n
            split at hset
            · rename_i hn128
              obtain ⟨m', hs, hrep', hbits'⟩ := hset
              rw [hs] at h
              simp only at h
              cases ha : args[n]? with
              | none => rw [ha] at h; simp at h
              | some a =>
                rw [ha] at h
                simp only at h
                have hmem := List.mem_of_getElem? ha
                obtain ⟨hat', hadv⟩ := parse_field_at hat hh
                cases hv : a.validate p'.rdr with
                | bad b => rw [hv] at h; simp at h
                | err r e => rw [hv] at h; simp at h
                | ok r u =>
                  rw [hv] at h
                  simp only at h
                  rcases ht a hmem p'.rdr hat'.1 with ⟨r1, e1, he⟩ | ⟨body, tail, hne, hbat, hok⟩
                  · rw [he] at hv; simp at hv
                  · rw [hok] at hv
                    obtain ⟨rfl, _⟩ := ok_inj hv
                    have hi' : p'.incr ≤ 128 ∧ (n = Field.argument p.incr ⟨idx, colon, body⟩) ∧
                        (idx = [] → p'.incr = p.incr + 1) := by
                      rcases hh.mode with ⟨h1, _, _, h4, h5⟩ | ⟨h1, _, _, h4, h5, _⟩
                      · simp only at h4 h5
                        refine ⟨by omega, by simp [Field.argument, h1, h5], fun _ => by omega⟩
                      · simp only at h4 h5
                        refine ⟨by omega, by simp [Field.argument, h1, h5], fun h => absurd h h1⟩
                    obtain ⟨hi1, hi2, hi3⟩ := hi'
                    obtain ⟨t, tail', g1, g2, g3, g4, g5, gt, g6⟩ := ih { p' with rdr := p'.rdr.adv body.length } m'
                      (n :: S) hrep' (by omega) hbat.adv.1 hi1 h
                    simp only at g1 g3 g4 g5 gt
                    have hargs : argsFrom p'.incr t.fields = argsFrom (p.incr + 1) t.fields := by
                      rcases hh.mode with ⟨h1, _⟩ | ⟨h1, _, h3, _⟩
                      · rw [hi3 h1]
                      · -- explicit numbers do not depend on the counter
                        rcases g3 with ⟨_, hc⟩ | ⟨hex, _⟩
                        · exact absurd h3 hc
                        · have : ∀ (fs : List Field) (i j : Nat), (∀ f ∈ fs, f.idx ≠ []) → argsFrom i fs = argsFrom j fs := by
                            intro fs
                            induction fs with
                            | nil => intros; rfl
                            | cons f fs ih =>
                              intro i j hf
                              rw [argsFrom, argsFrom, ih (i + 1) (j + 1) (fun f' hf' => hf f' (by simp [hf']))]
                              simp [Field.argument, hf f (by simp)]
                          exact this _ _ _ hex
                    refine ⟨⟨(lit, ⟨idx, colon, body⟩) :: t.segs, t.last⟩, tail', ?_, ?_, ?_, ?_, ?_, ?_, ?_⟩
                    · rw [hat.2]
                      have hrest : rest = body ++ tail := hat'.unique hbat
                      have htail : tail = t.text ++ tail' := by rw [← g1]; exact hbat.adv.2.symm
                      rw [hrest, htail]
                      simp [FormatText.text, Field.text]
                    · intro f hf
                      simp only [FormatText.fields, List.map_cons, List.mem_cons] at hf
                      rcases hf with rfl | hf
                      · refine ⟨fun c hc => by rw [← isDigit_eq]; exact hh.digits c hc, fun hcol => ?_⟩
                        have hrest : rest = body ++ tail := hat'.unique hbat
                        have := hb hcol
                        rw [hrest] at this
                        simp only
                        cases body with
                        | nil => exact absurd rfl hne
                        | cons x xs => simpa using this
                      · exact g2 f hf
                    · simp only [FormatText.fields, List.map_cons]
                      rcases hh.mode with ⟨h1, h2, h3, _⟩ | ⟨h1, h2, h3, _⟩
                      · rcases g3 with ⟨ga, _⟩ | ⟨_, gc⟩
                        · left
                          refine ⟨fun f hf => ?_, h2⟩
                          simp only [List.mem_cons] at hf
                          rcases hf with rfl | hf
                          · exact h1
                          · exact ga f hf
                        · exact absurd h3 gc
                      · rcases g3 with ⟨_, gc⟩ | ⟨ga, _⟩
                        · exact absurd h3 gc
                        · right
                          refine ⟨fun f hf => ?_, h2⟩
                          simp only [List.mem_cons] at hf
                          rcases hf with rfl | hf
                          · exact h1
                          · exact ga f hf
                    · intro k hk
                      simp only [FormatText.fields, List.map_cons, argsFrom, List.mem_cons] at hk
                      rcases hk with rfl | hk
                      · rw [← hi2]; omega
                      · rw [hargs] at g4; exact g4 k hk
                    · intro k hk
                      simp only [FormatText.fields, List.map_cons, argsFrom, List.mem_cons]
                      rw [← hi2]
                      rcases g5 k hk with h | h
                      · simp only [List.mem_cons] at h
                        tauto
                      · rw [hargs] at h
                        exact Or.inr (Or.inr h)
                    · intro x hx
                      simp only [FormatText.fields, List.map_cons, argsFrom, List.zip_cons_cons, List.mem_cons] at hx
                      rcases hx with rfl | hx
                      · simp only
                        rw [← hi2]
                        exact ⟨a, ha, _, tail, hbat, hok⟩
                      · rw [hargs] at gt
                        exact gt x hx
                    · rcases g6 with h | ⟨h1, h2, h3⟩
                      · exact Or.inl h
                      · rcases hh.mode with ⟨_, _, i3, _⟩ | ⟨i1, i2, _⟩
                        · exact absurd i3 h3
                        · refine Or.inr ⟨h1, fun f hf => ?_, i2⟩
                          simp only [FormatText.fields, List.map_cons, List.mem_cons] at hf
                          rcases hf with rfl | hf
                          · exact i1
                          · exact h2 f hf
            · rw [hset] at h; simp at h

end Emio
