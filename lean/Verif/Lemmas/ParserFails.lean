import Verif.Lemmas.ParserForward
import Verif.Lemmas.CoreArg
/-
Format strings with a field that cannot be formatted.
-/
namespace Emio
open Reader Spec

/-- Fails before writing anything. -/
def Refuses (m : Fmt Unit) : Prop := ∀ ops, m ops = .err ops .invalidFormat

/-- Writes `text` and fails with `e`. -/
def Stops (m : Fmt Unit) (text : Str) (e : Err) : Prop :=
  ∀ ops, ∃ new, m ops = .err (ops ++ new) e ∧ render new = text ∧ ∀ op ∈ new, op.Fine

theorem Refuses.stops {m : Fmt Unit} (h : Refuses m) : Stops m [] .invalidFormat :=
  fun ops => ⟨[], by simpa using h ops, rfl, by simp⟩

/-- The argument accepts `body`, but formatting it fails with `e` after writing `text`. -/
def FArg.Balks (a : FArg) (body text : Str) (e : Err) : Prop :=
  ∀ r tail, r.At (body ++ tail) → ∃ act, a.parse r = .ok (r.adv body.length) act ∧ Stops act text e

theorem writeArgInt_refuses (s : Specs) (hs : s.type = 'O') (t : IntTy) (n : Int) : Refuses (writeArgInt s t n) := by
  intro ops
  unfold writeArgInt
  rw [if_neg (by rw [hs]; decide)]
  have : makeWriteIntOptions s.type ops = .err ops .invalidFormat := by rw [hs]; rfl
  rw [M.bind_err this]

theorem core_refuses (a : CoreArg) (s : Specs) (h : OctalO a s) : Refuses (a.write s) := by
  obtain ⟨hs, ha⟩ := h
  cases a with
  | bool b =>
    show Refuses (writeArgBool s b)
    unfold writeArgBool
    rw [if_pos (by rw [hs]; decide)]
    exact writeArgInt_refuses s hs _ _
  | char c =>
    show Refuses (writeArgChar s c)
    unfold writeArgChar
    rw [if_pos (by rw [hs]; decide)]
    exact writeArgInt_refuses s hs _ _
  | int t n => exact writeArgInt_refuses s hs _ _
  | _ => exact ha.elim

theorem core_balks (a : CoreArg) (t : SpecText) (wf : t.WellFormed) (fits : t.Fits) (hO : OctalO a t.meaning) :
    a.farg.Balks (t.text ++ ['}']) [] .invalidFormat := by
  intro r tail hat
  have hrest : r.rest = t.text ++ '}' :: tail := by simpa using hat.2
  have h2 := (C28_grammar_is_accepted t wf fits r hat.1 tail hrest).2
  have hl : (t.text ++ ['}']).length = t.text.length + 1 := by simp
  rw [hl]
  refine ⟨_, ?_, (core_refuses a _ hO).stops⟩
  show (do let s ← parseFormatSpecs {}; return a.write s : M Reader (Fmt Unit)) r = _
  rw [M.bind_ok h2]
  rfl

/-- The text and the head of the first field. -/
theorem head_fwd {p : PSt} {lit : Str} {f : Field} {fs : List Field} {tail : Str}
    (hat : p.rdr.At (escBraces lit ++ f.text ++ tail)) (hwf : f.WellFormed) (hmode : ModeOk p.positional (f :: fs))
    (hk : f.argument p.incr < 255) (ops : List WOp) :
    ∃ (p' : PSt) (pieces : List Str), Unchecked.parse ⟨p, ops⟩ = .ok ⟨p', ops ++ pieces.map WOp.str⟩ (f.argument p.incr) ∧
      pieces.flatten = lit ∧ p'.rdr.At (f.body ++ tail) ∧ ModeOk p'.positional fs ∧
      (p'.incr = p.incr + 1 ∨ p'.incr = p.incr ∧ ∀ g ∈ f :: fs, g.idx ≠ []) ∧ (f.idx ≠ [] → p'.positional = some true ∧ p'.incr = p.incr) := by
  obtain ⟨idx, colon, body⟩ := f
  have hd : ∀ c ∈ idx, isDigit c = true := fun c hc => by rw [isDigit_eq]; exact hwf.idx c hc
  have hat1 : p.rdr.At (escBraces lit ++ '{' :: (idx ++ ((if colon then [':'] else []) ++ (body ++ tail)))) := by
    simpa [Field.text] using hat
  have hb : colon = false → (body ++ tail).head? = some '}' := by
    intro hc
    have := hwf.body hc
    simp only at this
    cases body with
    | nil => simp at this
    | cons x xs => simpa using this
  have hm : (idx = [] ∧ p.positional ≠ some true) ∨
      (idx ≠ [] ∧ p.positional ≠ some false ∧ numeralValue 10 idx < 256) := by
    rcases hmode with ⟨h1, h2⟩ | ⟨h1, h2⟩
    · exact Or.inl ⟨h1 ⟨idx, colon, body⟩ (by simp), h2⟩
    · have h3 := h1 ⟨idx, colon, body⟩ (by simp)
      simp only at h3
      simp only [Field.argument, if_neg h3] at hk
      exact Or.inr ⟨h3, h2, by omega⟩
  obtain ⟨p', n, h1, hh, hu⟩ := parse_fwd hat1 hd hb hm
  obtain ⟨pieces, g1, g2⟩ := hu ops
  obtain ⟨hat2, hadv⟩ := parse_field_at hat1 hh
  have hnn : n = Field.argument p.incr ⟨idx, colon, body⟩ := by
    rcases hh.mode with ⟨h1, _, _, _, h5⟩ | ⟨h1, _, _, _, h5, _⟩
    · simp only at h5; simp [Field.argument, h1, h5]
    · simp [Field.argument, h1, h5]
  subst hnn
  refine ⟨p', pieces, g1, g2, hat2, ?_⟩
  rcases hh.mode with ⟨i1, i2, i3, i4, i5⟩ | ⟨i1, i2, i3, i4, i5, _⟩
  · simp only at i4 i5
    refine ⟨?_, Or.inl (by omega), fun h => absurd i1 h⟩
    rcases hmode with ⟨j1, j2⟩ | ⟨j1, j2⟩
    · exact Or.inl ⟨fun f hf => j1 f (by simp [hf]), by rw [i3]; simp⟩
    · exact absurd i1 (j1 ⟨idx, colon, body⟩ (by simp))
  · simp only at i4 i5
    rcases hmode with ⟨j1, j2⟩ | ⟨j1, j2⟩
    · exact absurd (j1 ⟨idx, colon, body⟩ (by simp)) i1
    · exact ⟨Or.inr ⟨fun f hf => j1 f (by simp [hf]), by rw [i3]; simp⟩, Or.inr ⟨by omega, j1⟩, fun _ => ⟨i3, by omega⟩⟩

/-- The loop stops at a field that cannot be formatted, after the text before it. -/
theorem loop_stops (args : List FArg) (hlen : args.length ≤ 128) (kk : Nat) (rest : Str) (lit : Str) (f : Field)
    (stop : Str) (e : Err) :
    ∀ (segs : List (Str × Field)) (texts : List Str) (fuel : Nat) (p : PSt) (ops : List WOp),
      p.rdr.At (segsText (segs ++ [(lit, f)]) ++ rest) →
      segs.length < fuel → (∀ s ∈ segs ++ [(lit, f)], s.2.WellFormed) →
      ModeOk p.positional ((segs ++ [(lit, f)]).map (·.2)) →
      (∀ k ∈ argsFrom p.incr ((segs ++ [(lit, f)]).map (·.2)), k < args.length) →
      ReadsAll args kk p.incr (segs.map (·.2)) texts →
      (∃ a, args[f.argument (p.incr + segs.length)]? = some a ∧ a.Balks f.body stop e) →
      ∃ s new, formatLoop args fuel ⟨p, ops⟩ = .err s e ∧ s.ops = ops ++ new ∧
        render new = segsOut segs texts ++ lit ++ stop ∧ ∀ op ∈ new, op.Fine := by
  intro segs
  induction segs with
  | nil =>
    intro texts fuel p ops hat hfuel hwf hmode hargs hreads ⟨a, ha, hb⟩
    simp only [List.nil_append] at hat hwf hmode hargs
    have hk := hargs (f.argument p.incr) (by simp [argsFrom])
    obtain ⟨p', pieces, h1, h2, h3, _, _⟩ := head_fwd (tail := rest) (fs := []) (by simpa [segsText] using hat)
      (hwf (lit, f) (by simp)) (by simpa using hmode) (by simp only; omega) ops
    cases fuel with
    | zero => simp at hfuel
    | succ fuel =>
      obtain ⟨act, hpar, href⟩ := hb p'.rdr rest h3
      rw [formatLoop, M.bind_ok h1, if_neg (by unfold noMoreArgs; simp only; omega)]
      simp only [List.length_nil, Nat.add_zero] at ha
      rw [ha]
      simp only
      obtain ⟨n2, e1, e2, e3⟩ := href (ops ++ pieces.map WOp.str)
      have hpa : processArg a ⟨p', ops ++ pieces.map WOp.str⟩ =
          .err ⟨{ p' with rdr := p'.rdr.adv f.body.length }, ops ++ pieces.map WOp.str ++ n2⟩ e := by
        unfold processArg
        simp only [hpar, e1]
      rw [M.bind_err hpa]
      refine ⟨_, pieces.map WOp.str ++ n2, rfl, by simp, ?_, fun op ho => ?_⟩
      swap
      · rcases List.mem_append.1 ho with ho | ho
        · exact (map_str_fine pieces op ho).1
        · exact e3 op ho
      cases texts with
      | nil => rw [render_append, map_str_render, h2, e2]; simp [segsOut]
      | cons => simp [ReadsAll] at hreads
  | cons s segs ih =>
    intro texts fuel p ops hat hfuel hwf hmode hargs hreads hlast
    simp only [List.cons_append, List.map_cons] at hat hwf hmode hargs
    have hk := hargs (s.2.argument p.incr) (by simp [argsFrom])
    rw [segsText_cons, List.append_assoc] at hat
    cases texts with
    | nil => simp [ReadsAll] at hreads
    | cons text texts =>
      rw [List.map_cons, ReadsAll] at hreads
      obtain ⟨⟨a, ha, hra⟩, hreads⟩ := hreads
      obtain ⟨p', pieces, h1, h2, h3, h4, h5, _⟩ := head_fwd hat (hwf s (by simp)) hmode (by omega) ops
      cases fuel with
      | zero => simp at hfuel
      | succ fuel =>
        obtain ⟨_, act, hpar, hem⟩ := hra p'.rdr _ h3
        rw [formatLoop, M.bind_ok h1, if_neg (by unfold noMoreArgs; omega)]
        rw [ha]
        simp only
        obtain ⟨n2, e1, e2, e3, e4⟩ := hem (ops ++ pieces.map WOp.str)
        have hpa : processArg a ⟨p', ops ++ pieces.map WOp.str⟩ =
            .ok ⟨{ p' with rdr := p'.rdr.adv s.2.body.length }, ops ++ pieces.map WOp.str ++ n2⟩ () := by
          unfold processArg
          simp only [hpar, e1]
        rw [M.bind_ok hpa]
        obtain ⟨st, new, f1, f2, f3, f4⟩ := ih texts fuel { p' with rdr := p'.rdr.adv s.2.body.length }
          (ops ++ pieces.map WOp.str ++ n2) h3.adv (by simpa using hfuel) (fun x hx => hwf x (by simp at hx ⊢; tauto)) h4
          (by
            intro k hk
            refine hargs k ?_
            rw [argsFrom]
            refine List.mem_cons_of_mem _ ?_
            rcases h5 with h5 | ⟨h5, hex⟩
            · rw [← h5]; exact hk
            · rw [explicit_argsFrom _ _ p'.incr (fun g hg => hex g (List.mem_cons_of_mem _ hg))]; exact hk)
          (by
            rcases h5 with h5 | ⟨h5, hex⟩
            · simp only; rw [h5]; exact hreads
            · exact explicit_readsAll _ _ _ _ (fun g hg => hex g (by simp at hg ⊢; tauto)) hreads)
          (by
            obtain ⟨b, hb, hbk⟩ := hlast
            refine ⟨b, ?_, hbk⟩
            rw [← hb]
            rcases h5 with h5 | ⟨h5, hex⟩
            · simp only [h5, List.length_cons]; congr 2; omega
            · simp [Field.argument, hex f (by simp)])
        refine ⟨st, pieces.map WOp.str ++ n2 ++ new, f1, by rw [f2]; simp, ?_, ?_⟩
        · simp only [render_append, map_str_render, h2, e2, f3]
          simp [segsOut]
        · intro op ho
          simp only [List.mem_append] at ho
          rcases ho with (ho | ho) | ho
          · exact (map_str_fine pieces op ho).1
          · exact e3 op ho
          · exact f4 op ho

end Emio
