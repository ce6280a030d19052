import Verif.Spec.Kept
import Verif.Props.FixedSize
import Verif.Props.Octal
/- C35: what `format_to` leaves in a span buffer that is too small. -/
namespace Emio
open BufferImpl Spec

/-- The calls of a formatting function, by literal text and fields. -/
def Pieces (last : Str) : List (Str × Field) → List Str → List WOp → Prop
  | [], [], new => ∃ ps : List Str, new = ps.map WOp.str ∧ ps.flatten = last
  | s :: segs, t :: ts, new => ∃ (ps : List Str) (n2 rest : List WOp), new = ps.map WOp.str ++ n2 ++ rest ∧
      ps.flatten = s.1 ∧ render n2 = t ∧ Pieces last segs ts rest
  | _, _, _ => False

theorem loop_pieces (args : List FArg) (hlen : args.length ≤ 128) (kk : Nat) (last : Str) :
    ∀ (segs : List (Str × Field)) (texts : List Str) (fuel : Nat) (p : PSt) (ops : List WOp),
      p.rdr.At (segsText segs ++ escBraces last) →
      segs.length < fuel → (∀ s ∈ segs, s.2.WellFormed) → ModeOk p.positional (segs.map (·.2)) → p.incr ≤ 128 →
      (∀ k ∈ argsFrom p.incr (segs.map (·.2)), k < args.length) →
      ReadsBehind args kk (escBraces last) p.incr segs texts →
      ∃ f new, formatLoop args fuel ⟨p, ops⟩ = .ok f () ∧ f.ops = ops ++ new ∧ Pieces last segs texts new ∧
        ∀ op ∈ new, op.Fine := by
  intro segs
  induction segs with
  | nil =>
    intro texts fuel p ops hat hfuel hwf hmode hincr hargs hreads
    cases texts with
    | cons t ts => simp [ReadsBehind] at hreads
    | nil =>
    cases fuel with
    | zero => simp at hfuel
    | succ fuel =>
      have hat' : p.rdr.At (escBraces last) := by simpa [segsText] using hat
      obtain ⟨h1, h2⟩ := parse_fwd_end hat'
      obtain ⟨pieces, g1, g2⟩ := h2 ops
      rw [formatLoop, M.bind_ok g1, if_pos rfl]
      refine ⟨_, pieces.map WOp.str, rfl, rfl, ⟨pieces, rfl, g2⟩, ?_⟩
      intro op ho
      exact (map_str_fine pieces op ho).1
  | cons s segs ih =>
    intro texts fuel p ops hat hfuel hwf hmode hincr hargs hreads
    obtain ⟨lit, idx, colon, body⟩ := s
    cases fuel with
    | zero => simp at hfuel
    | succ fuel =>
      cases texts with
      | nil => simp [ReadsBehind] at hreads
      | cons text texts =>
        rw [ReadsBehind] at hreads
        obtain ⟨⟨a, ha, hra⟩, hreads⟩ := hreads
        have hwf1 := hwf _ (List.mem_cons_self ..)
        have hd : ∀ c ∈ idx, isDigit c = true := fun c hc => by rw [isDigit_eq]; exact hwf1.idx c hc
        have hk1 := hargs (Field.argument p.incr ⟨idx, colon, body⟩) (by simp [argsFrom])
        have hat1 : p.rdr.At (escBraces lit ++ '{' :: (idx ++ ((if colon then [':'] else []) ++
            (body ++ (segsText segs ++ escBraces last))))) := by
          rw [segsText_cons] at hat
          simpa [Field.text] using hat
        have hb : colon = false → (body ++ (segsText segs ++ escBraces last)).head? = some '}' := by
          intro hc
          have := hwf1.body hc
          simp only at this
          cases body with
          | nil => simp at this
          | cons x xs => simpa using this
        have hm : (idx = [] ∧ p.positional ≠ some true) ∨
            (idx ≠ [] ∧ p.positional ≠ some false ∧ numeralValue 10 idx < 256) := by
          rcases hmode with ⟨h1, h2⟩ | ⟨h1, h2⟩
          · exact Or.inl ⟨h1 ⟨idx, colon, body⟩ (by simp), h2⟩
          · have h3 := h1 ⟨idx, colon, body⟩ (by simp)
            simp only at h3
            simp only [Field.argument, if_neg h3] at hk1
            exact Or.inr ⟨h3, h2, by omega⟩
        obtain ⟨p', n, h1, hh, hu⟩ := parse_fwd hat1 hd hb hm
        obtain ⟨pieces, g1, g2⟩ := hu ops
        obtain ⟨hat2, hadv⟩ := parse_field_at hat1 hh
        have hnn : n = Field.argument p.incr ⟨idx, colon, body⟩ := by
          rcases hh.mode with ⟨h1, _, _, _, h5⟩ | ⟨h1, _, _, _, h5, _⟩
          · simp only at h5; simp [Field.argument, h1, h5]
          · simp [Field.argument, h1, h5]
        have hnm : n ≠ noMoreArgs := by unfold noMoreArgs; omega
        obtain ⟨hval, act, hpar, hem⟩ := hra p'.rdr hat2
        rw [formatLoop, M.bind_ok g1, if_neg hnm]
        rw [hnn, ha]
        simp only
        obtain ⟨n2, e1, e2, e3, e4⟩ := hem (ops ++ pieces.map WOp.str)
        have hpa : processArg a ⟨p', ops ++ pieces.map WOp.str⟩ =
            .ok ⟨{ p' with rdr := p'.rdr.adv body.length }, ops ++ pieces.map WOp.str ++ n2⟩ () := by
          unfold processArg
          simp only [hpar, e1]
        rw [M.bind_ok hpa]
        have hpi : p'.incr ≤ 128 ∧ argsFrom p'.incr (segs.map (·.2)) = argsFrom (p.incr + 1) (segs.map (·.2)) ∧
            ReadsBehind args kk (escBraces last) p'.incr segs texts ∧ ModeOk p'.positional (segs.map (·.2)) := by
          rcases hh.mode with ⟨i1, i2, i3, i4, i5⟩ | ⟨i1, i2, i3, i4, i5, _⟩
          · simp only at i4 i5
            have : p'.incr = p.incr + 1 := by omega
            rw [this]
            refine ⟨by omega, rfl, hreads, ?_⟩
            rcases hmode with ⟨j1, j2⟩ | ⟨j1, j2⟩
            · exact Or.inl ⟨fun f hf => j1 f (by simp at hf ⊢; right; exact hf), by rw [i3]; simp⟩
            · exact absurd i1 (j1 ⟨idx, colon, body⟩ (by simp))
          · simp only at i4 i5
            rcases hmode with ⟨j1, j2⟩ | ⟨j1, j2⟩
            · exact absurd (j1 ⟨idx, colon, body⟩ (by simp)) i1
            · have hex : ∀ f ∈ segs.map (·.2), f.idx ≠ [] := fun f hf => j1 f (by simp at hf ⊢; right; exact hf)
              exact ⟨by omega, explicit_argsFrom _ _ _ hex, explicit_readsSegs _ _ _ _ hex hreads,
                Or.inr ⟨hex, by rw [i3]; simp⟩⟩
        obtain ⟨q1, q2, q3, q4⟩ := hpi
        obtain ⟨f, new, f1, f2, f3, f4⟩ := ih texts fuel { p' with rdr := p'.rdr.adv body.length }
          (ops ++ pieces.map WOp.str ++ n2) hat2.adv (by simpa using hfuel)
          (fun s hs => hwf s (List.mem_cons_of_mem _ hs)) q4 q1
          (by simp only; rw [q2]; exact fun k hk => hargs k (by simp only [List.map_cons, argsFrom, List.mem_cons]; exact Or.inr hk)) q3
        refine ⟨f, pieces.map WOp.str ++ n2 ++ new, f1, by rw [f2]; simp, ⟨pieces, n2, new, rfl, g2, e2, f3⟩, ?_⟩
        intro op ho
        simp only [List.mem_append] at ho
        rcases ho with (ho | ho) | ho
        · exact (map_str_fine pieces op ho).1
        · exact e3 op ho
        · exact f4 op ho

/-- The calls of `format_to`, by literal text and fields. -/
theorem formatTo_pieces (t : FormatText) (args : List FArg) (texts : List Str) (k : Nat) (hlen : args.length ≤ 128)
    (wf : ∀ f ∈ t.fields, f.WellFormed) (mode : t.Automatic ∨ t.Explicit)
    (hargs : ∀ k, k ∈ t.arguments ↔ k < args.length) (hreads : ReadsAll args k 0 t.fields texts) :
    ∃ ops, Pieces t.last t.segs texts ops ∧ (∀ op ∈ ops, op.Fine) ∧
      ∀ {σ : Type} [BufferImpl σ] (s : σ), formatTo t.text args s = execAll ops s := by
  have hreads := readsSegs_of_all (behind := escBraces t.last) _ _ _ hreads
  have hmode : ModeOk none t.fields := by
    rcases mode with h | h
    · exact Or.inl ⟨h, by simp⟩
    · exact Or.inr ⟨h, by simp⟩
  obtain ⟨f, new, h1, h2, h3, h4⟩ := loop_pieces args hlen k t.last t.segs texts (t.text.length + 1)
    ⟨Reader.ofStr t.text, none, 0⟩ [] (Reader.at_ofStr t.text)
    (by have := segs_length_le t; omega)
    (fun s hs => wf s.2 (List.mem_map_of_mem hs)) hmode (by simp)
    (fun k hk => (hargs k).1 (by rw [argsFrom_eq]; exact hk)) hreads
  obtain ⟨⟨b, hb, hb'⟩, _⟩ := loop_forward_segs args hlen k t.last t.segs texts (t.text.length + 1)
    ⟨Reader.ofStr t.text, none, 0⟩ (Bitset.new 128) [] [] (Bitset.rep_new 128) rfl (Reader.at_ofStr t.text)
    (by have := segs_length_le t; omega)
    (fun s hs => wf s.2 (List.mem_map_of_mem hs)) hmode (by simp)
    (fun k hk => (hargs k).1 (by rw [argsFrom_eq]; exact hk)) hreads
  have hbt : b = true := hb'.2 fun k hk => Or.inr (by rw [← hargs k, argsFrom_eq] at hk; exact hk)
  subst hbt
  by_cases hp : args.length = 0 ∧ checkIfPlainString t.text = true
  · obtain ⟨hs, ht⟩ := plain_text hp.2
    have htx : texts = [] := by
      rw [hs] at hreads
      cases texts with
      | nil => rfl
      | cons => simp [ReadsBehind] at hreads
    refine ⟨[.str t.text], ?_, ?_, ?_⟩
    · rw [hs, htx]
      exact ⟨[t.text], rfl, by simp [ht]⟩
    · have := map_str_fine [t.text]
      simp only [List.map_cons, List.map_nil] at this
      exact fun op ho => (this op ho).1
    · intro σ _ s
      rw [execAll_single]
      unfold formatTo VStr.make
      rw [if_pos hp]
      rfl
  · refine ⟨new, h3, h4, ?_⟩
    intro σ _ s
    unfold formatTo VStr.make validateStr
    rw [if_neg hp, hb]
    unfold vformatTo
    simp only [Bool.false_eq_true, if_false]
    unfold runOn formatRun
    rw [h1]
    simp only
    rw [h2]
    rfl

/-! ### What calls leave -/

theorem cutCalls_fits : ∀ (a b : List WOp) (room : Nat), (render a).length ≤ room →
    cutCalls room (a ++ b) = (render a ++ (cutCalls (room - (render a).length) b).1,
      (cutCalls (room - (render a).length) b).2) := by
  intro a
  induction a with
  | nil => intro b room _; simp
  | cons op a ih =>
    intro b room h
    rw [render_cons, List.length_append] at h
    rw [List.cons_append, cutCalls, if_pos (by omega), ih b _ (by omega), render_cons, List.length_append, Nat.sub_sub]
    simp

theorem cutCalls_strs : ∀ (ps : List Str) (b : List WOp) (room : Nat), room < ps.flatten.length →
    cutCalls room (ps.map WOp.str ++ b) = (ps.flatten.take room, false) := by
  intro ps
  induction ps with
  | nil => intro b room h; simp at h
  | cons p ps ih =>
    intro b room h
    rw [List.flatten_cons, List.length_append] at h
    rw [List.map_cons, List.cons_append, cutCalls]
    have ht : WOp.text (.str p) = p := rfl
    rw [ht]
    by_cases hp : p.length ≤ room
    · rw [if_pos hp, ih b _ (by omega), List.flatten_cons, List.take_append, List.take_of_length_le hp]
    · rw [if_neg hp, List.flatten_cons, List.take_append_of_le_length (by omega)]
      rfl

theorem cutCalls_too_long : ∀ (a b : List WOp) (room : Nat), room < (render a).length →
    ∃ q, q <+: render a ∧ q.length ≤ room ∧ cutCalls room (a ++ b) = (q, false) := by
  intro a
  induction a with
  | nil => intro b room h; simp at h
  | cons op a ih =>
    intro b room h
    rw [render_cons, List.length_append] at h
    rw [List.cons_append, cutCalls, render_cons]
    by_cases hp : op.text.length ≤ room
    · obtain ⟨q, h1, h2, h3⟩ := ih b (room - op.text.length) (by omega)
      rw [if_pos hp, h3]
      exact ⟨op.text ++ q, (List.prefix_append_right_inj _).2 h1, by rw [List.length_append]; omega, rfl⟩
    · rw [if_neg hp]
      by_cases hf : fillsUp op = true
      · rw [if_pos hf]
        exact ⟨_, (List.take_prefix _ _).trans (List.prefix_append _ _), by simp, rfl⟩
      · rw [if_neg hf]
        exact ⟨[], List.nil_prefix, by simp, rfl⟩

theorem pieces_kept (last : Str) : ∀ (segs : List (Str × Field)) (texts : List Str) (ops : List WOp) (room : Nat),
    Pieces last segs texts ops → KeptOf room ((segs.map (·.1)).zip texts) last (cutCalls room ops).1 ∧
      ((cutCalls room ops).2 = true ↔ (segsOut segs texts ++ last).length ≤ room) := by
  intro segs
  induction segs with
  | nil =>
    intro texts ops room h
    cases texts with
    | cons => exact h.elim
    | nil =>
      obtain ⟨ps, rfl, rfl⟩ := h
      simp only [List.map_nil, List.zip_nil_left, KeptOf, segsOut, List.flatMap_nil, List.nil_append]
      by_cases hr : ps.flatten.length ≤ room
      · have := cutCalls_fits (ps.map WOp.str) [] room (by rw [map_str_render]; exact hr)
        rw [List.append_nil, map_str_render] at this
        rw [this]
        exact ⟨by simp [cutCalls, List.take_of_length_le hr], iff_of_true rfl hr⟩
      · have := cutCalls_strs ps [] room (by omega)
        rw [List.append_nil] at this
        rw [this]
        exact ⟨rfl, iff_of_false (by simp) hr⟩
  | cons s segs ih =>
    intro texts ops room h
    cases texts with
    | nil => exact h.elim
    | cons text texts =>
      obtain ⟨ps, n2, rest, rfl, h1, h2, h3⟩ := h
      have hout : segsOut (s :: segs) (text :: texts) ++ last = s.1 ++ text ++ (segsOut segs texts ++ last) := by
        simp [segsOut]
      rw [hout]
      simp only [List.map_cons, List.zip_cons_cons, KeptOf]
      rw [List.append_assoc]
      by_cases hl : room < s.1.length
      · rw [if_pos hl, cutCalls_strs ps _ room (by rw [h1]; exact hl), h1]
        refine ⟨rfl, ?_⟩
        simp only [Bool.false_eq_true, false_iff, List.length_append]
        omega
      · rw [if_neg hl]
        have hfit := cutCalls_fits (ps.map WOp.str) (n2 ++ rest) room (by rw [map_str_render, h1]; omega)
        rw [map_str_render, h1] at hfit
        rw [hfit]
        by_cases hx : room < s.1.length + text.length
        · rw [if_pos hx]
          obtain ⟨q, q1, q2, q3⟩ := cutCalls_too_long n2 rest (room - s.1.length) (by rw [h2]; omega)
          rw [q3]
          refine ⟨⟨q, by rw [← h2]; exact q1, by omega, rfl⟩, ?_⟩
          simp only [Bool.false_eq_true, false_iff, List.length_append]
          omega
        · rw [if_neg hx, cutCalls_fits n2 rest _ (by rw [h2]; omega), h2, Nat.sub_sub]
          obtain ⟨i1, i2⟩ := ih texts rest (room - (s.1.length + text.length)) h3
          refine ⟨⟨_, i1, by simp⟩, ?_⟩
          simp only
          rw [i2]
          simp only [List.length_append]
          omega

/-- C35 in full: `format_to` on a span buffer with any past.  It succeeds exactly if the whole output fits.  Otherwise the
result is end-of-file, and the buffer keeps everything before the place where the room ends; if this place is in literal
text, the buffer is full, and if it is in a field, some beginning of this field is kept. -/
theorem C35_what_is_kept (t : Template) (args : List CoreArg) (suits : t.Suits args) (hv : ∀ a ∈ args, ValidArg a)
    (hO : ∀ j, ¬ AsksO t args j) :
    ∃ texts : List Str, texts.length = t.segs.length ∧ AloneUpTo t args texts ∧
      ∀ (mem : Str) (ops : List ClientOp) (s : SpanBuf) (old : Str),
        client spanReset ops (SpanBuf.new mem, []) = some (s, old) →
        ∃ s' p, formatTo t.text (fargs args) s =
            (if old.length + (t.output texts).length ≤ mem.length then .ok s' () else .err s' .eof) ∧
          s'.view = old ++ p ∧
          KeptOf (mem.length - old.length) ((t.segs.map (·.1)).zip texts) t.last p := by
  obtain ⟨texts, h1, h2⟩ := first_texts suits hv t.segs.length (Nat.le_refl _) fun i _ => hO i
  refine ⟨texts, h1, fun i k s text hk hs ht => ?_, ?_⟩
  · obtain ⟨a, ha, hr⟩ := h2 i k s text hk hs ht
    exact ⟨a, ha, (formats_single hr).str⟩
  have hr := readsAll_first h1 (Nat.le_refl _) h2
  rw [List.take_of_length_le (by simp [Template.format])] at hr
  obtain ⟨calls, hp, hfine, hto⟩ := formatTo_pieces t.format (fargs args) texts 1421 (by simpa [fargs] using suits.number)
    (by
      intro f hf
      rw [template_fields, List.mem_map] at hf
      obtain ⟨s, hs, rfl⟩ := hf
      exact field_wellFormed (suits.digits s hs)) suits.mode (by simpa [fargs] using suits.arguments) hr
  intro mem ops s old hs
  have hrep := span_reach hs
  have hle : old.length ≤ mem.length := by rw [SpanBuf.Rep.length hrep]; exact hrep.2.2.2.2.1
  obtain ⟨s', e1, e2⟩ := span_calls calls hfine s old hrep
  obtain ⟨k1, k2⟩ := pieces_kept t.format.last t.format.segs texts calls (mem.length - old.length) hp
  refine ⟨s', _, ?_, e2.2.2.2.2.2, ?_⟩
  · show formatTo t.format.text (fargs args) s = _
    rw [hto, e1]
    have hout : (segsOut t.format.segs texts ++ t.format.last) = t.output texts := rfl
    rw [hout] at k2
    by_cases hc : (cutCalls (mem.length - old.length) calls).2 = true
    · rw [if_pos hc, if_pos (by have := k2.1 hc; omega)]
    · rw [if_neg hc, if_neg (by intro h; exact hc (k2.2 (by omega)))]
  · have hm : t.format.segs.map (·.1) = t.segs.map (·.1) := by simp [Template.format]
    rw [hm] at k1
    exact k1

example : KeptOf 4 [("ab".toList, "1234".toList)] "cd".toList "ab".toList ∧
    KeptOf 7 [("ab".toList, "1234".toList)] "cd".toList "ab1234c".toList ∧
    ¬ KeptOf 7 [("ab".toList, "1234".toList)] "cd".toList "ab1234".toList := by
  refine ⟨⟨[], by simp, by simp, rfl⟩, ⟨"c".toList, rfl, rfl⟩, ?_⟩
  rintro ⟨p, h1, h2⟩
  have h1 : p = "c".toList := h1
  subst h1
  exact absurd h2 (by decide)

end Emio
