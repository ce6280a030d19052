import Verif.Spec.Loss
import Verif.Lemmas.TupleSkip
/-
What is lost behind fields with tuples.
-/
namespace Emio
open Reader Spec

theorem headLength_rangeSpec (n : Bool) (elem : Option Str) :
    headLength (rangeSpec n elem) = (if n then 1 else 0) + if elem.isSome then 1 else 0 := by
  cases n <;> cases elem <;> simp [headLength, rangeSpec]

theorem drop_headLength (n : Bool) (elem : Option Str) :
    (rangeSpec n elem).drop (headLength (rangeSpec n elem)) = elem.getD [] := by
  rw [headLength_rangeSpec]
  cases n <;> cases elem <;> simp [rangeSpec]

/-- The reader goes on behind what is lost. -/
def ParsesTo (ty : FTy) (s : Str) (d : Option Bool) (f : Fmtr) : Prop :=
  ∀ r tail, r.At (s ++ '}' :: tail) → ∃ rp, ty.fresh.parseWith d r = .ok rp f ∧ rp.src = r.src ∧
    rp.At (tail.drop (lost ty s r.pos))

theorem adv_src (r : Reader) (n : Nat) : (r.adv n).src = r.src := rfl

theorem pop_src (r : Reader) (n : Nat) : (r.pop n).src = r.src := by
  unfold Reader.pop
  split <;> rfl

theorem pop_last {r rp : Reader} {e tail : Str} {l : Nat} (h : r.At (e ++ '}' :: tail)) (hs : rp.src = r.src)
    (hp : rp.At (tail.drop l)) : (r.pop rp.pos).At (tail.drop (r.pos + l)) := by
  have h1 := h.pos
  have h2 := hp.pos
  have h3 := h.2
  rw [hs] at h2
  simp only [List.length_append, List.length_cons, List.length_drop] at h1 h2
  have hsrc : ∀ n, r.src.drop (r.pos + (e.length + 1 + n)) = tail.drop n := by
    intro n
    have : r.rest = r.src.drop r.pos := rfl
    rw [this] at h3
    rw [← List.drop_drop, h3, show e ++ '}' :: tail = (e ++ ['}']) ++ tail by simp,
      List.drop_append, List.drop_eq_nil_of_le (by simp)]
    simp
  unfold Reader.pop
  split
  · rename_i hge
    refine ⟨by simp only [Reader.Inv]; omega, ?_⟩
    show r.src.drop (r.pos + rp.pos) = _
    by_cases hl : l ≤ tail.length
    · rw [show r.pos + rp.pos = r.pos + (e.length + 1 + (r.pos + l)) by omega, hsrc]
    · rw [show r.pos + rp.pos = r.pos + (e.length + 1 + (r.pos + tail.length)) by omega, hsrc,
        List.drop_eq_nil_of_le (by omega), List.drop_eq_nil_of_le (by omega)]
  · refine ⟨by simp only [Reader.Inv]; omega, ?_⟩
    show r.src.drop r.src.length = _
    rw [List.drop_eq_nil_of_le (by omega), List.drop_eq_nil_of_le (by omega)]

theorem parseEach_lost {b : Bool} {e : Str} : ∀ ts : List FTy, (∀ t ∈ ts, ∃ f, ParsesTo t e (some b) f) →
    ∃ fs, ∀ r tail pos0, r.At (e ++ '}' :: tail) → ∃ pos, Fmtr.parseEach b r (FTy.freshEach ts) pos0 = .ok () (fs, pos) ∧
      (ts = [] → pos = pos0) ∧ (ts ≠ [] → (r.pop pos).At (tail.drop (lostLast ts e r.pos))) := by
  intro ts
  induction ts with
  | nil =>
    intro _
    exact ⟨[], fun r tail pos0 _ => ⟨pos0, rfl, fun _ => rfl, fun h => absurd rfl h⟩⟩
  | cons t ts ih =>
    intro h
    obtain ⟨f, hf⟩ := h t (by simp)
    obtain ⟨fs, hfs⟩ := ih (fun t ht => h t (by simp [ht]))
    refine ⟨f :: fs, fun r tail pos0 hat => ?_⟩
    obtain ⟨rp, h1, h2, h3⟩ := hf r tail hat
    obtain ⟨pos, g1, g2, g3⟩ := hfs r tail rp.pos hat
    refine ⟨pos, ?_, by simp, fun _ => ?_⟩
    · rw [FTy.freshEach, Fmtr.parseEach, h1]
      simp only
      rw [g1]
    · cases ts with
      | nil =>
        rw [g2 rfl]
        exact pop_last hat h2 h3
      | cons t' ts => exact g3 (by simp)

theorem parsesTo {R : CoreArg → SpecText → Str → Prop} {k : Nat} (hR : CoreEmits R k) (hk : 1 ≤ k) {ty : FTy} {s : Str}
    (ht : Spec.Takes ty s) : ∀ d : Option Bool, (d = some true → s = []) → ∃ f, ParsesTo ty s d f := by
  have simple : ∀ {ty s}, Spec.Takes ty s → NoTuple ty → (∀ p, lost ty s p = 0) → ∀ d : Option Bool, (d = some true → s = []) →
      ∃ f, ParsesTo ty s d f := by
    intro ty s ht hn hl d hd
    obtain ⟨f, h1, _⟩ := (works hR hk ht).2 d hd
    refine ⟨f, fun r tail hat => ⟨_, h1 r tail (Or.inl hn) hat, rfl, ?_⟩⟩
    rw [hl]
    have : r.At ((s ++ ['}']) ++ tail) := by simpa using hat
    simpa using this.adv
  induction ht with
  | core wf fits allows => exact simple (.core wf fits allows) trivial (fun _ => rfl)
  | monostate => exact simple .monostate trivial (fun _ => rfl)
  | variant each => exact simple (.variant each) trivial (fun _ => rfl)
  | @optional t s content ih =>
    intro d hd
    obtain ⟨f, hf⟩ := ih none (by simp)
    refine ⟨.optional f, fun r tail hat => ?_⟩
    obtain ⟨rp, h1, h2, h3⟩ := hf r tail hat
    refine ⟨rp, ?_, h2, h3⟩
    rw [FTy.fresh, Fmtr.parseWith, M.bind_ok h1, M.pure_run]
  | @range curly t n elem each ih =>
    intro d hd
    obtain ⟨f, hf⟩ := ih (if elem.isSome then none else some true) (by cases elem <;> simp)
    refine ⟨.range (if n then [] else if curly then ['{'] else ['[']) (if n then [] else if curly then ['}'] else [']'])
      [',', ' '] f, fun r tail hat => ?_⟩
    obtain ⟨rp, h1, h2, h3⟩ := hf _ tail (head_at hat)
    refine ⟨rp, ?_, h2, ?_⟩
    · rw [FTy.fresh, Fmtr.parseWith, M.bind_ok (parseHead hat)]
      simp only
      rw [M.bind_ok h1, M.pure_run]
    · rw [lost, drop_headLength, headLength_rangeSpec]
      exact h3
  | @tuple entry ts n elem each nonempty ih =>
    intro d hd
    obtain ⟨fs, hfs⟩ := parseEach_lost (b := elem.isNone) (e := elem.getD []) ts
      (fun t ht => ih t ht (some elem.isNone) (by cases elem <;> simp))
    refine ⟨.tuple (if n then [] else if entry then [] else ['(']) (if n then [] else if entry then [] else [')'])
      (if entry then [':', ' '] else [',', ' ']) fs, fun r tail hat => ?_⟩
    have hh := head_at hat
    have e1 : (FTy.tuple entry ts).fresh = .tuple (if entry then [] else ['(']) (if entry then [] else [')'])
        (if entry then [':', ' '] else [',', ' ']) (FTy.freshEach ts) := by
      rw [FTy.fresh]; cases entry <;> rfl
    obtain ⟨pos, g1, g2, g3⟩ := hfs _ tail 0 hh
    rw [lost, drop_headLength, headLength_rangeSpec]
    by_cases hne : ts = []
    · subst hne
      have hel : elem = none := by
        by_contra h; exact nonempty h rfl
      subst hel
      have : fs = [] := by
        rw [FTy.freshEach, Fmtr.parseEach] at g1
        exact (Prod.mk.inj (ok_inj g1).2).1.symm
      subst this
      have hh' : (r.adv ((if n then 1 else 0) + 0)).At ('}' :: tail) := hh
      refine ⟨(r.adv ((if n then 1 else 0) + 0)).adv 1, ?_, ?_, ?_⟩
      · rw [e1, Fmtr.parseWith, M.bind_ok (parseHead hat)]
        simp only
        rw [if_pos (by rfl), if_neg (by simp)]
        rw [M.bind_ok (M.modify_run _ _)]
        have := hh'.pop1
        simp only [Option.isSome_none, Bool.false_eq_true, if_false]
        rw [this, M.pure_run]
      · rfl
      · rw [lostLast]
        exact hh'.adv1
    · refine ⟨(r.adv ((if n then 1 else 0) + if elem.isSome then 1 else 0)).pop pos, ?_, by rw [pop_src, adv_src], g3 hne⟩
      rw [e1, Fmtr.parseWith, M.bind_ok (parseHead hat)]
      simp only
      rw [if_neg (by rw [freshEach_isEmpty]; simpa using hne), Option.not_isSome, M.bind_ok (onCopies_ok g1)]
      simp only
      rw [M.bind_ok (M.modify_run _ _), M.pure_run]

theorem value_parsesTo {R : CoreArg → SpecText → Str → Prop} {k : Nat} (hR : CoreEmits R k) (hk : 1 ≤ k) {ty : FTy}
    {v : FVal} {s text : Str} (hv : HasType v ty) (hs : Spec.Takes ty s) (ht : Renders R ty v false s text) (r : Reader)
    (tail : Str) (hat : r.At (s ++ '}' :: tail)) :
    ∃ rp act, (v.farg ty).parse r = .ok rp act ∧ Emits act text k ∧ rp.src = r.src ∧
      rp.At (tail.drop (lost ty s r.pos)) := by
  obtain ⟨f, h3, h4, _⟩ := (works hR hk hs).2 none (by simp)
  obtain ⟨f', hf'⟩ := parsesTo hR hk hs none (by simp)
  have : f = f' := by
    have hat0 := Reader.at_ofStr (s ++ ['}'])
    have g1 := h3 _ [] (Or.inr rfl) hat0
    obtain ⟨rp, g2, _⟩ := hf' _ [] hat0
    rw [g1] at g2
    exact (ok_inj g2).2
  subst this
  obtain ⟨rp, h1, h2, h5⟩ := hf' r tail hat
  refine ⟨rp, v.format f, ?_, h4 v text hv ht, h2, h5⟩
  show (do let f ← ty.fresh.parse; return v.format f) r = _
  rw [Fmtr.parse, M.bind_ok h1, M.pure_run]

/-- The rest of the format string when `n` characters of the next text are lost. -/
def restAt (n : Nat) (segs : List (Str × Field)) (last : Str) : Str :=
  match segs with
  | [] => escBraces (last.drop n)
  | s :: segs => escBraces (s.1.drop n) ++ s.2.text ++ (segsText segs ++ escBraces last)

/-- The fields are read, with losses. -/
def ReadsLosing (args : List FArg) (k : Nat) (src last : Str) : Nat → List (Str × Field) → List Nat → List Str → Prop
  | _, [], [], [] => True
  | i, s :: segs, l :: ls, t :: ts =>
    (∃ a, args[s.2.argument i]? = some a ∧ ∀ r : Reader, r.src = src → r.At (s.2.body ++ restAt 0 segs last) →
      ∃ rp act, a.parse r = .ok rp act ∧ Emits act t k ∧ rp.src = src ∧ rp.At (restAt l segs last)) ∧
      ReadsLosing args k src last (i + 1) segs ls ts
  | _, _, _, _ => False

theorem explicit_readsLosing {args : List FArg} {k : Nat} {src last : Str} : ∀ (segs : List (Str × Field)) (ls : List Nat)
    (ts : List Str) (i j : Nat), (∀ f ∈ segs.map (·.2), f.idx ≠ []) → ReadsLosing args k src last i segs ls ts →
    ReadsLosing args k src last j segs ls ts := by
  intro segs
  induction segs with
  | nil => intro ls ts i j _ h; cases ls <;> cases ts <;> simpa [ReadsLosing] using h
  | cons s segs ih =>
    intro ls ts i j hf h
    cases ls with
    | nil => simp [ReadsLosing] at h
    | cons l ls =>
      cases ts with
      | nil => simp [ReadsLosing] at h
      | cons t ts =>
        rw [ReadsLosing] at h ⊢
        refine ⟨?_, ih ls ts (i + 1) (j + 1) (fun f hf' => hf f (by simp at hf' ⊢; right; exact hf')) h.2⟩
        have hx : s.2.idx ≠ [] := hf s.2 (by simp)
        have : s.2.argument j = s.2.argument i := by simp [Field.argument, hx]
        rw [this]
        exact h.1

theorem restAt_zero (segs : List (Str × Field)) (last : Str) : restAt 0 segs last = segsText segs ++ escBraces last := by
  cases segs with
  | nil => simp [restAt, segsText]
  | cons s segs => simp [restAt, segsText]

/-- The loop over the fields, with losses. -/
theorem loop_losing (args : List FArg) (hlen : args.length ≤ 128) (kk : Nat) (src last : Str) :
    ∀ (segs : List (Str × Field)) (ls : List Nat) (texts : List Str) (n0 : Nat) (p : PSt) (ops : List WOp), p.rdr.src = src →
      p.rdr.At (restAt n0 segs last) → (∀ s ∈ segs, s.2.WellFormed) → ModeOk p.positional (segs.map (·.2)) →
      (∀ k ∈ argsFrom p.incr (segs.map (·.2)), k < args.length) → ReadsLosing args kk src last p.incr segs ls texts →
      ∃ p' new, (∀ fuel, formatLoop args (fuel + 1 + segs.length) ⟨p, ops⟩ = .ok ⟨p', ops ++ new⟩ ()) ∧
        render new = segsOut (segs.zipWith (fun s n => (s.1.drop n, s.2)) (n0 :: ls)) texts ++
          last.drop ((n0 :: ls).getLastD 0) ∧
        ∀ op ∈ new, op.Fine ∧ op.need ≤ kk := by
  intro segs
  induction segs with
  | nil =>
    intro ls texts n0 p ops hsrc hat hwf hmode hargs hreads
    cases ls with
    | cons => cases texts <;> simp [ReadsLosing] at hreads
    | nil =>
    cases texts with
    | cons => simp [ReadsLosing] at hreads
    | nil =>
    obtain ⟨pieces, u1, u2⟩ := (parse_fwd_end (p := p) (lit := last.drop n0) hat).2 ops
    refine ⟨{ p with rdr := p.rdr.adv (escBraces (last.drop n0)).length }, pieces.map WOp.str, fun fuel => ?_, ?_, ?_⟩
    · rw [List.length_nil, Nat.add_zero, formatLoop, M.bind_ok u1, if_pos rfl]
      rfl
    · simp [map_str_render, u2, segsOut]
    · intro op ho
      have := map_str_fine pieces op ho
      exact ⟨this.1, by omega⟩
  | cons s segs ih =>
    intro ls texts n0 p ops hsrc hat hwf hmode hargs hreads
    obtain ⟨lit, idx, colon, body⟩ := s
    cases ls with
    | nil => simp [ReadsLosing] at hreads
    | cons l ls =>
    cases texts with
    | nil => simp [ReadsLosing] at hreads
    | cons text texts =>
      rw [ReadsLosing] at hreads
      obtain ⟨⟨a, ha, hra⟩, hreads⟩ := hreads
      have hwf1 := hwf _ (List.mem_cons_self ..)
      have hd : ∀ c ∈ idx, isDigit c = true := fun c hc => by rw [isDigit_eq]; exact hwf1.idx c hc
      have hk1 := hargs (Field.argument p.incr ⟨idx, colon, body⟩) (by simp [argsFrom])
      have hat1 : p.rdr.At (escBraces (lit.drop n0) ++ '{' :: (idx ++ ((if colon then [':'] else []) ++
          (body ++ restAt 0 segs last)))) := by
        rw [restAt_zero]
        simpa [restAt, Field.text] using hat
      have hb : colon = false → (body ++ restAt 0 segs last).head? = some '}' := by
        intro hc
        have := hwf1.body hc
        simp only at this
        cases body with
        | nil => simp at this
        | cons x xs => simpa using this
      have hm : (idx = [] ∧ p.positional ≠ some true) ∨
          (idx ≠ [] ∧ p.positional ≠ some false ∧ numeralValue 10 idx < 256) := by
        rcases hmode with ⟨h1, h2⟩ | ⟨h1, h2⟩
        · exact Or.inl ⟨h1 ⟨idx, colon, body⟩ (by simp), h2⟩
        · have h3 := h1 ⟨idx, colon, body⟩ (by simp)
          simp only at h3
          simp only [Field.argument, if_neg h3] at hk1
          exact Or.inr ⟨h3, h2, by omega⟩
      obtain ⟨p', n, h1, hh, hu⟩ := parse_fwd hat1 hd hb hm
      obtain ⟨pieces, g1, g2⟩ := hu ops
      obtain ⟨hat2, hadv⟩ := parse_field_at hat1 hh
      have hnn : n = Field.argument p.incr ⟨idx, colon, body⟩ := by
        rcases hh.mode with ⟨h1, _, _, _, h5⟩ | ⟨h1, _, _, _, h5, _⟩
        · simp only at h5; simp [Field.argument, h1, h5]
        · simp [Field.argument, h1, h5]
      have hnm : n ≠ noMoreArgs := by unfold noMoreArgs; omega
      obtain ⟨rp, act, hpar, hem, hrs, hrp⟩ := hra p'.rdr (by rw [hadv, adv_src]; exact hsrc) hat2
      obtain ⟨n2, e1, e2, e3, e4⟩ := hem (ops ++ pieces.map WOp.str)
      have hpa : processArg a ⟨p', ops ++ pieces.map WOp.str⟩ =
          .ok ⟨{ p' with rdr := rp }, ops ++ pieces.map WOp.str ++ n2⟩ () := by
        unfold processArg
        simp only [hpar, e1]
      have hpi : argsFrom p'.incr (segs.map (·.2)) = argsFrom (p.incr + 1) (segs.map (·.2)) ∧
          ReadsLosing args kk src last p'.incr segs ls texts ∧ ModeOk p'.positional (segs.map (·.2)) := by
        rcases hh.mode with ⟨i1, i2, i3, i4, i5⟩ | ⟨i1, i2, i3, i4, i5, _⟩
        · simp only at i4 i5
          have : p'.incr = p.incr + 1 := by omega
          rw [this]
          refine ⟨rfl, hreads, ?_⟩
          rcases hmode with ⟨j1, j2⟩ | ⟨j1, j2⟩
          · exact Or.inl ⟨fun f hf => j1 f (by simp at hf ⊢; right; exact hf), by rw [i3]; simp⟩
          · exact absurd i1 (j1 ⟨idx, colon, body⟩ (by simp))
        · simp only at i4 i5
          rcases hmode with ⟨j1, j2⟩ | ⟨j1, j2⟩
          · exact absurd (j1 ⟨idx, colon, body⟩ (by simp)) i1
          · have hex : ∀ f ∈ segs.map (·.2), f.idx ≠ [] := fun f hf => j1 f (by simp at hf ⊢; right; exact hf)
            exact ⟨explicit_argsFrom _ _ _ hex, explicit_readsLosing _ _ _ _ _ hex hreads,
              Or.inr ⟨hex, by rw [i3]; simp⟩⟩
      obtain ⟨q2, q3, q4⟩ := hpi
      obtain ⟨p2, new, v2, v11, v12⟩ :=
        ih ls texts l { p' with rdr := rp } (ops ++ pieces.map WOp.str ++ n2) hrs hrp
        (fun s hs => hwf s (List.mem_cons_of_mem _ hs)) q4
        (by simp only; rw [q2]; exact fun k hk => hargs k (by simp only [List.map_cons, argsFrom, List.mem_cons]; exact Or.inr hk)) q3
      refine ⟨p2, pieces.map WOp.str ++ n2 ++ new, ?_, ?_, ?_⟩
      · intro fuel
        rw [List.length_cons, ← Nat.add_assoc, formatLoop, M.bind_ok g1, if_neg hnm]
        rw [hnn, ha]
        simp only
        rw [M.bind_ok hpa, v2 fuel]
        simp
      · simp only [render_append, map_str_render, g2, e2, v11]
        simp [segsOut]
      · intro op ho
        simp only [List.mem_append] at ho
        rcases ho with (ho | ho) | ho
        · have := map_str_fine pieces op ho
          exact ⟨this.1, by omega⟩
        · exact ⟨e3 op ho, e4 op ho⟩
        · exact v12 op ho

/-- A format string that is accepted, and whose fields are read with losses. -/
theorem formats_losing (t : FormatText) (args : List FArg) (texts : List Str) (losses : List Nat) (k : Nat)
    (hlen : args.length ≤ 128) (wf : ∀ s ∈ t.segs, s.2.WellFormed) (mode : t.Automatic ∨ t.Explicit)
    (hargs : ∀ k ∈ t.arguments, k < args.length) (hreads : ReadsLosing args k t.text t.last 0 t.segs losses texts)
    (hv : validateStr t.text args = .ok () true) (hne : args ≠ []) :
    Formats t.text args ((t.losing losses).output texts) k := by
  have hmode : ModeOk none t.fields := by
    rcases mode with h | h
    · exact Or.inl ⟨h, by simp⟩
    · exact Or.inr ⟨h, by simp⟩
  obtain ⟨p', new, h1, h2, h3⟩ := loop_losing args hlen k t.text t.last t.segs losses texts 0
    ⟨Reader.ofStr t.text, none, 0⟩ [] rfl (by rw [restAt_zero]; exact Reader.at_ofStr t.text) wf hmode
    (fun k hk => hargs k (by rw [argsFrom_eq]; exact hk)) hreads
  have hfuel : ∃ fuel, t.text.length + 1 = fuel + 1 + t.segs.length :=
    ⟨t.text.length - t.segs.length, by have := segs_length_le t; omega⟩
  obtain ⟨fuel, hfuel⟩ := hfuel
  have hnp : ¬ (args.length = 0 ∧ checkIfPlainString t.text = true) := by
    intro h
    exact hne (List.eq_nil_of_length_eq_zero h.1)
  refine ⟨new, ?_, h3, ?_⟩
  · rw [h2]
    cases losses <;> rfl
  · intro σ _ s
    unfold formatTo VStr.make
    rw [if_neg hnp, hv]
    unfold vformatTo
    simp only [Bool.false_eq_true, if_false]
    unfold runOn formatRun
    rw [hfuel, h1]
    simp

end Emio
