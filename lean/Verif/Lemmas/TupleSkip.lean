import Verif.Lemmas.ValuesArg
/-
Fields of tuples that are not at the end of the format string.
-/
namespace Emio
open Reader Spec

/-- The loops over the first fields of a format string: they go on behind them. -/
theorem loop_through (args : List FArg) (hlen : args.length ≤ 128) (kk : Nat) (behind : Str) (fs : List Field) :
    ∀ (segs : List (Str × Field)) (texts : List Str) (p : PSt) (matched : Bitset) (S : List Nat)
      (ops : List WOp), Bitset.Rep matched S → matched.bits = 128 → p.rdr.At (segsText segs ++ behind) →
      (∀ s ∈ segs, s.2.WellFormed) → ModeOk p.positional (segs.map (·.2) ++ fs) → p.incr ≤ 128 →
      (∀ k ∈ argsFrom p.incr (segs.map (·.2)), k < args.length) →
      ReadsBehind args kk behind p.incr segs texts →
      ∃ p' m' S' new, (∀ fuel, validateLoop args (fuel + segs.length) p matched = validateLoop args fuel p' m') ∧
        (∀ fuel, formatLoop args (fuel + segs.length) ⟨p, ops⟩ = formatLoop args fuel ⟨p', ops ++ new⟩) ∧
        Bitset.Rep m' S' ∧ m'.bits = 128 ∧ (∀ k, k ∈ S' ↔ k ∈ S ∨ k ∈ argsFrom p.incr (segs.map (·.2))) ∧
        p'.rdr.At behind ∧ p'.rdr.src = p.rdr.src ∧ ModeOk p'.positional fs ∧ p'.incr ≤ 128 ∧
        argsFrom p'.incr fs = argsFrom (p.incr + segs.length) fs ∧
        render new = segsOut segs texts ∧ ∀ op ∈ new, op.Fine ∧ op.need ≤ kk := by
  intro segs
  induction segs with
  | nil =>
    intro texts p matched S ops hrep hbits hat hwf hmode hincr hargs hreads
    exact ⟨p, matched, S, [], fun _ => rfl, fun _ => by simp, hrep, hbits, by simp [argsFrom],
      by simpa [segsText] using hat, rfl, hmode, hincr, rfl, by simp [render, segsOut], by simp⟩
  | cons s segs ih =>
    intro texts p matched S ops hrep hbits hat hwf hmode hincr hargs hreads
    obtain ⟨lit, idx, colon, body⟩ := s
    cases texts with
    | nil => simp [ReadsBehind] at hreads
    | cons text texts =>
      rw [ReadsBehind] at hreads
      obtain ⟨⟨a, ha, hra⟩, hreads⟩ := hreads
      have hwf1 := hwf _ (List.mem_cons_self ..)
      have hd : ∀ c ∈ idx, isDigit c = true := fun c hc => by rw [isDigit_eq]; exact hwf1.idx c hc
      have hk1 := hargs (Field.argument p.incr ⟨idx, colon, body⟩) (by simp [argsFrom])
      have hat1 : p.rdr.At (escBraces lit ++ '{' :: (idx ++ ((if colon then [':'] else []) ++
          (body ++ (segsText segs ++ behind))))) := by
        rw [segsText_cons] at hat
        simpa [Field.text] using hat
      have hb : colon = false → (body ++ (segsText segs ++ behind)).head? = some '}' := by
        intro hc
        have := hwf1.body hc
        simp only at this
        cases body with
        | nil => simp at this
        | cons x xs => simpa using this
      have hm : (idx = [] ∧ p.positional ≠ some true) ∨
          (idx ≠ [] ∧ p.positional ≠ some false ∧ numeralValue 10 idx < 256) := by
        rcases hmode with ⟨h1, h2⟩ | ⟨h1, h2⟩
        · exact Or.inl ⟨h1 ⟨idx, colon, body⟩ (by simp), h2⟩
        · have h3 := h1 ⟨idx, colon, body⟩ (by simp)
          simp only at h3
          simp only [Field.argument, if_neg h3] at hk1
          exact Or.inr ⟨h3, h2, by omega⟩
      obtain ⟨p', n, h1, hh, hu⟩ := parse_fwd hat1 hd hb hm
      obtain ⟨pieces, g1, g2⟩ := hu ops
      obtain ⟨hat2, hadv⟩ := parse_field_at hat1 hh
      have hnn : n = Field.argument p.incr ⟨idx, colon, body⟩ := by
        rcases hh.mode with ⟨h1, _, _, _, h5⟩ | ⟨h1, _, _, _, h5, _⟩
        · simp only at h5; simp [Field.argument, h1, h5]
        · simp [Field.argument, h1, h5]
      have hnm : n ≠ noMoreArgs := by unfold noMoreArgs; omega
      have hset := Bitset.rep_set hrep n
      rw [if_pos (by omega)] at hset
      obtain ⟨m', hs, hrep', hbits'⟩ := hset
      obtain ⟨hval, act, hpar, hem⟩ := hra p'.rdr hat2
      obtain ⟨n2, e1, e2, e3, e4⟩ := hem (ops ++ pieces.map WOp.str)
      have hpa : processArg a ⟨p', ops ++ pieces.map WOp.str⟩ =
          .ok ⟨{ p' with rdr := p'.rdr.adv body.length }, ops ++ pieces.map WOp.str ++ n2⟩ () := by
        unfold processArg
        simp only [hpar, e1]
      have hpi : p'.incr ≤ 128 ∧ argsFrom p'.incr (segs.map (·.2)) = argsFrom (p.incr + 1) (segs.map (·.2)) ∧
          ReadsBehind args kk behind p'.incr segs texts ∧ ModeOk p'.positional (segs.map (·.2) ++ fs) ∧
          argsFrom (p'.incr + segs.length) fs = argsFrom (p.incr + (segs.length + 1)) fs := by
        rcases hh.mode with ⟨i1, i2, i3, i4, i5⟩ | ⟨i1, i2, i3, i4, i5, _⟩
        · simp only at i4 i5
          have : p'.incr = p.incr + 1 := by omega
          rw [this]
          refine ⟨by omega, rfl, hreads, ?_, by rw [Nat.add_assoc, Nat.add_comm 1]⟩
          rcases hmode with ⟨j1, j2⟩ | ⟨j1, j2⟩
          · exact Or.inl ⟨fun f hf => j1 f (by simp at hf ⊢; right; exact hf), by rw [i3]; simp⟩
          · exact absurd i1 (j1 ⟨idx, colon, body⟩ (by simp))
        · simp only at i4 i5
          rcases hmode with ⟨j1, j2⟩ | ⟨j1, j2⟩
          · exact absurd (j1 ⟨idx, colon, body⟩ (by simp)) i1
          · have hex : ∀ f ∈ segs.map (·.2) ++ fs, f.idx ≠ [] := fun f hf => j1 f (by simp at hf ⊢; right; exact hf)
            have hex1 : ∀ f ∈ segs.map (·.2), f.idx ≠ [] := fun f hf => hex f (List.mem_append_left _ hf)
            have hex2 : ∀ f ∈ fs, f.idx ≠ [] := fun f hf => hex f (List.mem_append_right _ hf)
            exact ⟨by omega, explicit_argsFrom _ _ _ hex1, explicit_readsSegs _ _ _ _ hex1 hreads,
              Or.inr ⟨hex, by rw [i3]; simp⟩, explicit_argsFrom _ _ _ hex2⟩
      obtain ⟨q1, q2, q3, q4, q5⟩ := hpi
      obtain ⟨p2, m2, S2, new, v1, v2, v3, v4, v5, v6, v7, v8, v9, v10, v11, v12⟩ :=
        ih texts { p' with rdr := p'.rdr.adv body.length } m'
        (n :: S) (ops ++ pieces.map WOp.str ++ n2) hrep' (by omega) hat2.adv
        (fun s hs => hwf s (List.mem_cons_of_mem _ hs)) q4 q1
        (by simp only; rw [q2]; exact fun k hk => hargs k (by simp only [List.map_cons, argsFrom, List.mem_cons]; exact Or.inr hk)) q3
      refine ⟨p2, m2, S2, pieces.map WOp.str ++ n2 ++ new, ?_, ?_, v3, v4, ?_, v6, ?_, v8, v9, ?_, ?_, ?_⟩
      · intro fuel
        rw [List.length_cons, ← Nat.add_assoc, validateLoop, h1]
        simp only
        rw [if_neg hnm, if_neg (by omega), hs]
        simp only
        rw [hnn, ha]
        simp only
        rw [hval]
        simp only
        exact v1 fuel
      · intro fuel
        rw [List.length_cons, ← Nat.add_assoc, formatLoop, M.bind_ok g1, if_neg hnm]
        rw [hnn, ha]
        simp only
        rw [M.bind_ok hpa, v2 fuel]
        simp
      · intro k
        rw [v5]
        simp only
        rw [q2]
        simp only [List.map_cons, argsFrom, List.mem_cons, hnn]
        tauto
      · rw [v7]
        simp only [hadv]
        rfl
      · rw [v10]
        exact q5
      · simp only [render_append, map_str_render, g2, e2, v11]
        simp [segsOut]
      · intro op ho
        simp only [List.mem_append] at ho
        rcases ho with (ho | ho) | ho
        · have := map_str_fine pieces op ho
          exact ⟨this.1, by omega⟩
        · exact ⟨e3 op ho, e4 op ho⟩
        · exact v12 op ho

/-- A tuple's reader is moved by as much as stands in front of the specification of the elements, too. -/
theorem skip_at {r : Reader} {e last : Str} (h : r.At (e ++ '}' :: last)) :
    (r.pop (r.pos + (e.length + 1))).At (last.drop r.pos) := by
  have hp := h.pos
  have h2 := h.2
  simp only [List.length_append, List.length_cons] at hp
  have hsrc : ∀ n, r.src.drop (r.pos + (e.length + 1 + n)) = last.drop n := by
    intro n
    have : r.rest = r.src.drop r.pos := rfl
    rw [this] at h2
    rw [← List.drop_drop, h2, show e ++ '}' :: last = (e ++ ['}']) ++ last by simp,
      List.drop_append, List.drop_eq_nil_of_le (by simp)]
    simp
  unfold Reader.pop
  split
  · rename_i hge
    refine ⟨by simp only [Reader.Inv]; omega, ?_⟩
    show r.src.drop (r.pos + (r.pos + (e.length + 1))) = _
    rw [← hsrc r.pos]
    congr 1
    omega
  · refine ⟨by simp only [Reader.Inv]; omega, ?_⟩
    show r.src.drop r.src.length = _
    rw [List.drop_eq_nil_of_le (by omega), List.drop_eq_nil_of_le (by omega)]

/-- What the field of a tuple takes from the format string. -/
theorem tuple_skips {R : CoreArg → SpecText → Str → Prop} {k : Nat} (hR : CoreEmits R k) (hk : 1 ≤ k) {entry n : Bool}
    {ts : List FTy} {elem : Option Str} {v : FVal} {text : Str} (hne : ts ≠ []) (hno : ∀ t ∈ ts, NoTuple t)
    (each : ∀ t ∈ ts, Spec.Takes t (elem.getD [])) (hv : HasType v (.tuple entry ts))
    (hren : Renders R (.tuple entry ts) v false (rangeSpec n elem) text) (r : Reader) (last : Str)
    (hat : r.At (rangeSpec n elem ++ '}' :: last)) :
    (∃ rv x, (v.farg (.tuple entry ts)).validate r = .ok rv () ∧ rv.At (last.drop x)) ∧
      ∃ rp act, (v.farg (.tuple entry ts)).parse r = .ok rp act ∧ Emits act text k ∧
        rp.At (last.drop (r.pos + ((if n then 1 else 0) + if elem.isSome then 1 else 0))) := by
  constructor
  · show ∃ rv x, (FTy.tuple entry ts).validate r = .ok rv () ∧ _
    rw [FTy.validate, M.bind_ok (validateHead hat)]
    cases elem with
    | none =>
      rw [if_neg (by simp)]
      refine ⟨_, 0, rfl, ?_⟩
      have hh := (head_at hat).adv1
      rw [adv_adv] at hh
      simpa using hh
    | some e =>
      have hh := head_at hat
      simp only [Option.isSome_some, if_true, Option.getD_some] at hh
      have hpos : (r.adv ((if n then 1 else 0) + 1)).pos + (e.length + 1) ≠ 0 := by omega
      have hval := validateEach_ok (r := r.adv ((if n then 1 else 0) + 1)) (r' := (r.adv ((if n then 1 else 0) + 1)).adv (e.length + 1))
        (fun t ht => (works hR hk (each t ht)).1 _ last (Or.inl (hno t ht)) hh) (Or.inl rfl)
      rw [if_neg hne] at hval
      rw [if_pos (by simp), if_neg (by simpa using hne), M.bind_ok (onCopies_ok hval), M.modify_run]
      rw [show ((r.adv ((if n then 1 else 0) + 1)).adv (e.length + 1)).pos =
        (r.adv ((if n then 1 else 0) + 1)).pos + (e.length + 1) from rfl, if_pos hpos]
      exact ⟨_, _, rfl, skip_at hh⟩
  · obtain ⟨fs, hf1, hf2, hf3⟩ := parseEach_ok (ts := ts) (A := fun r => ∃ last, r.At (elem.getD [] ++ '}' :: last))
      (n := (elem.getD []).length + 1) (b := elem.isNone) (P := fun _ _ => True)
      (fun t ht => by
        obtain ⟨f, h1, _⟩ := (works hR hk (each t ht)).2 (some elem.isNone) (by cases elem <;> simp)
        exact ⟨f, fun r ⟨last, hr⟩ => h1 r last (Or.inl (hno t ht)) hr, trivial⟩)
    have key : ∀ (r : Reader) (last : Str), r.At (rangeSpec n elem ++ '}' :: last) →
        ∃ rp, (FTy.tuple entry ts).fresh.parseWith none r = .ok rp
          (.tuple (if n then [] else if entry then [] else ['(']) (if n then [] else if entry then [] else [')'])
            (if entry then [':', ' '] else [',', ' ']) fs) ∧
        rp.At (last.drop (r.pos + ((if n then 1 else 0) + if elem.isSome then 1 else 0))) := by
      intro r last hat
      have hh := head_at hat
      have e1 : (FTy.tuple entry ts).fresh = .tuple (if entry then [] else ['(']) (if entry then [] else [')'])
          (if entry then [':', ' '] else [',', ' ']) (FTy.freshEach ts) := by
        rw [FTy.fresh]; cases entry <;> rfl
      rw [e1, Fmtr.parseWith, M.bind_ok (parseHead hat)]
      simp only
      have hval := hf3 _ 0 ⟨last, hh⟩
      rw [if_neg hne] at hval
      rw [if_neg (by rw [freshEach_isEmpty]; simpa using hne), Option.not_isSome, M.bind_ok (onCopies_ok hval)]
      simp only
      rw [M.bind_ok (M.modify_run _ _), M.pure_run]
      exact ⟨_, rfl, skip_at hh⟩
    obtain ⟨f, h3, h4, _⟩ := (works hR hk (.tuple (n := n) (entry := entry) each (fun _ => hne))).2 none (by simp)
    have hf : f = .tuple (if n then [] else if entry then [] else ['(']) (if n then [] else if entry then [] else [')'])
        (if entry then [':', ' '] else [',', ' ']) fs := by
      have hat0 := Reader.at_ofStr (rangeSpec n elem ++ ['}'])
      have g1 := h3 _ [] (Or.inr rfl) hat0
      obtain ⟨rp, g2, _⟩ := key _ [] hat0
      rw [g1] at g2
      exact (ok_inj g2).2
    obtain ⟨rp, g1, g2⟩ := key r last hat
    refine ⟨rp, _, ?_, h4 v text hv hren, g2⟩
    show (do let f ← (FTy.tuple entry ts).fresh.parse; return v.format f) r = _
    rw [Fmtr.parse, M.bind_ok g1, hf]
    rfl

theorem segsText_append (a b : List (Str × Field)) : segsText (a ++ b) = segsText a ++ segsText b := by simp [segsText]

theorem drop_plain {l : Str} (h1 : '{' ∉ l) (h2 : '}' ∉ l) (n : Nat) : escBraces (l.drop n) = l.drop n :=
  escBraces_plain (fun h => h1 (List.mem_of_mem_drop h)) (fun h => h2 (List.mem_of_mem_drop h))

/-- A format string whose last field takes some of the text behind it. -/
theorem formats_skip (front : List (Str × Field)) (lit : Str) (f : Field) (last : Str) (args : List FArg) (a : FArg)
    (texts : List Str) (text : Str) (k y : Nat) (hlen : args.length ≤ 128)
    (wf : ∀ s ∈ front ++ [(lit, f)], s.2.WellFormed)
    (mode : (FormatText.mk (front ++ [(lit, f)]) last).Automatic ∨ (FormatText.mk (front ++ [(lit, f)]) last).Explicit)
    (hargs : ∀ k, k ∈ (FormatText.mk (front ++ [(lit, f)]) last).arguments ↔ k < args.length)
    (hreads : ReadsBehind args k (escBraces lit ++ f.text ++ last) 0 front texts)
    (open' : '{' ∉ last) (close : '}' ∉ last) (ha : args[f.argument front.length]? = some a)
    (hskip : ∀ r : Reader, r.src = (FormatText.mk (front ++ [(lit, f)]) last).text → r.At (f.body ++ last) →
      (∃ rv x, a.validate r = .ok rv () ∧ rv.At (last.drop x)) ∧
        ∃ rp act, a.parse r = .ok rp act ∧ Emits act text k ∧ rp.At (last.drop y)) :
    Formats (FormatText.mk (front ++ [(lit, f)]) last).text args
      ((FormatText.mk (front ++ [(lit, f)]) (last.drop y)).output (texts ++ [text])) k := by
  have hplain : escBraces last = last := escBraces_plain open' close
  have htext : (FormatText.mk (front ++ [(lit, f)]) last).text = segsText front ++ (escBraces lit ++ f.text ++ last) := by
    show segsText (front ++ [(lit, f)]) ++ escBraces last = _
    rw [segsText_append, hplain]
    simp [segsText]
  have hfields : (FormatText.mk (front ++ [(lit, f)]) last).fields = front.map (·.2) ++ [f] := by simp [FormatText.fields]
  generalize hsrc : (FormatText.mk (front ++ [(lit, f)]) last).text = src at *
  have hmode : ModeOk none (front.map (·.2) ++ [f]) := by
    rw [← hfields]
    rcases mode with h | h
    · exact Or.inl ⟨h, by simp⟩
    · exact Or.inr ⟨h, by simp⟩
  have hargsF : argsFrom 0 (front.map (·.2) ++ [f]) = argsFrom 0 (front.map (·.2)) ++ [f.argument front.length] := by
    have : ∀ (fs : List Field) i, argsFrom i (fs ++ [f]) = argsFrom i fs ++ [f.argument (i + fs.length)] := by
      intro fs
      induction fs with
      | nil => intro i; rfl
      | cons g fs ih => intro i; rw [List.cons_append, argsFrom, ih, argsFrom, List.length_cons, Nat.add_assoc, Nat.add_comm 1]; rfl
    simpa using this (front.map (·.2)) 0
  have hargs' : ∀ k, k ∈ argsFrom 0 (front.map (·.2)) ++ [f.argument front.length] ↔ k < args.length := by
    intro k
    rw [← hargs k, argsFrom_eq, hfields, hargsF]
  obtain ⟨p1, m1, S1, new, v1, v2, v3, v4, v5, v6, v7, v8, v9, v10, v11, v12⟩ := loop_through args hlen k
    (escBraces lit ++ f.text ++ last) [f] front texts ⟨Reader.ofStr src, none, 0⟩ (Bitset.new 128) [] []
    (Bitset.rep_new 128) rfl (by rw [← htext]; exact Reader.at_ofStr src)
    (fun s hs => wf s (List.mem_append_left _ hs)) hmode (by simp)
    (fun k hk => (hargs' k).1 (List.mem_append_left _ hk)) hreads
  obtain ⟨idx, colon, body⟩ := f
  have hwf1 := wf (lit, ⟨idx, colon, body⟩) (by simp)
  have hd : ∀ c ∈ idx, isDigit c = true := fun c hc => by rw [isDigit_eq]; exact hwf1.idx c hc
  have hat1 : p1.rdr.At (escBraces lit ++ '{' :: (idx ++ ((if colon then [':'] else []) ++ (body ++ last)))) := by
    simpa [Field.text] using v6
  have hb : colon = false → (body ++ last).head? = some '}' := by
    intro hc
    have := hwf1.body hc
    simp only at this
    cases body with
    | nil => simp at this
    | cons x xs => simpa using this
  have hk0 : Field.argument front.length ⟨idx, colon, body⟩ < args.length := (hargs' _).1 (by simp)
  have harg1 : Field.argument p1.incr ⟨idx, colon, body⟩ = Field.argument front.length ⟨idx, colon, body⟩ := by
    have := v10
    simp only [argsFrom, List.cons.injEq, and_true, Nat.zero_add] at this
    exact this
  have hm : (idx = [] ∧ p1.positional ≠ some true) ∨
      (idx ≠ [] ∧ p1.positional ≠ some false ∧ numeralValue 10 idx < 256) := by
    rcases v8 with ⟨h1, h2⟩ | ⟨h1, h2⟩
    · exact Or.inl ⟨h1 ⟨idx, colon, body⟩ (by simp), h2⟩
    · have h3 := h1 ⟨idx, colon, body⟩ (by simp)
      simp only at h3
      simp only [Field.argument, if_neg h3] at hk0
      exact Or.inr ⟨h3, h2, by omega⟩
  obtain ⟨p2, n, h1, hh, hu⟩ := parse_fwd hat1 hd hb hm
  obtain ⟨pieces, g1, g2⟩ := hu new
  obtain ⟨hat2, hadv⟩ := parse_field_at hat1 hh
  have hnn : n = Field.argument front.length ⟨idx, colon, body⟩ := by
    rw [← harg1]
    rcases hh.mode with ⟨h1, _, _, _, h5⟩ | ⟨h1, _, _, _, h5, _⟩
    · simp only at h5; simp [Field.argument, h1, h5]
    · simp [Field.argument, h1, h5]
  have hnm : n ≠ noMoreArgs := by unfold noMoreArgs; omega
  have hset := Bitset.rep_set v3 n
  rw [if_pos (by omega)] at hset
  obtain ⟨m2, hs, hrep', hbits'⟩ := hset
  obtain ⟨⟨rv, x, hval, hrv⟩, rp, act, hpar, hem, hrp⟩ := hskip p2.rdr (by rw [hadv]; exact v7) hat2
  obtain ⟨n2, e1, e2, e3, e4⟩ := hem (new ++ pieces.map WOp.str)
  have hpa : processArg a ⟨p2, new ++ pieces.map WOp.str⟩ =
      .ok ⟨{ p2 with rdr := rp }, new ++ pieces.map WOp.str ++ n2⟩ () := by
    unfold processArg
    simp only [hpar, e1]
  have hE1 := (parse_fwd_end (p := { p2 with rdr := rv }) (lit := last.drop x) (by rw [drop_plain open' close]; exact hrv)).1
  obtain ⟨pieces', u1, u2⟩ := (parse_fwd_end (p := { p2 with rdr := rp }) (lit := last.drop y)
    (by rw [drop_plain open' close]; exact hrp)).2 (new ++ pieces.map WOp.str ++ n2)
  have hfuel : ∃ fuel, src.length + 1 = (fuel + 1 + 1) + front.length := by
    have := segs_length_le ⟨front ++ [(lit, ⟨idx, colon, body⟩)], last⟩
    rw [hsrc] at this
    simp only [List.length_append, List.length_cons, List.length_nil] at this
    exact ⟨src.length - front.length - 1, by omega⟩
  obtain ⟨fuel, hfuel⟩ := hfuel
  have hV : validateLoop args (src.length + 1) ⟨Reader.ofStr src, none, 0⟩ (Bitset.new 128) = .ok () true := by
    rw [hfuel, v1, validateLoop, h1]
    simp only
    rw [if_neg hnm, if_neg (by omega), hs]
    simp only
    rw [hnn, ha]
    simp only
    rw [hval]
    simp only
    rw [validateLoop, hE1]
    simp only [if_true]
    congr 1
    rw [Bitset.rep_allFirst hrep']
    intro k hk
    have := (hargs' k).2 hk
    simp only [List.mem_append, List.mem_singleton] at this
    rcases this with h | h
    · exact List.mem_cons_of_mem _ ((v5 k).2 (Or.inr h))
    · rw [h, hnn]; exact List.mem_cons_self ..
  have hF : formatLoop args (src.length + 1) ⟨⟨Reader.ofStr src, none, 0⟩, []⟩ =
      .ok ⟨{ p2 with rdr := rp.adv (escBraces (last.drop y)).length }, new ++ pieces.map WOp.str ++ n2 ++ pieces'.map WOp.str⟩ () := by
    rw [hfuel, v2, List.nil_append, formatLoop, M.bind_ok g1, if_neg hnm, hnn, ha]
    simp only
    rw [M.bind_ok hpa, formatLoop, M.bind_ok u1, if_pos rfl]
    rfl
  have hnp : ¬ (args.length = 0 ∧ checkIfPlainString src = true) := by omega
  refine ⟨new ++ pieces.map WOp.str ++ n2 ++ pieces'.map WOp.str, ?_, ?_, ?_⟩
  · simp only [render_append, map_str_render, g2, e2, v11, u2]
    have hl : front.length = texts.length := by
      have : ∀ (segs : List (Str × Field)) (ts : List Str) i b, ReadsBehind args k b i segs ts → segs.length = ts.length := by
        intro segs
        induction segs with
        | nil => intro ts i b h; cases ts <;> simp [ReadsBehind] at h ⊢
        | cons s segs ih =>
          intro ts i b h
          cases ts with
          | nil => simp [ReadsBehind] at h
          | cons t ts => simp [ih ts _ _ h.2]
      exact this _ _ _ _ hreads
    simp [FormatText.output, segsOut, List.zip_append hl]
  · intro op ho
    simp only [List.mem_append] at ho
    rcases ho with ((ho | ho) | ho) | ho
    · exact v12 op ho
    · have := map_str_fine pieces op ho
      exact ⟨this.1, by omega⟩
    · exact ⟨e3 op ho, e4 op ho⟩
    · have := map_str_fine pieces' op ho
      exact ⟨this.1, by omega⟩
  · intro σ _ s
    unfold formatTo VStr.make validateStr
    rw [if_neg hnp, hV]
    unfold vformatTo
    simp only [Bool.false_eq_true, if_false]
    unfold runOn formatRun
    rw [hF]

end Emio
